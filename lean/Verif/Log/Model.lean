import Verif.Response.Model

/-! # Texts of log entries, their time stamps and destinations: src/log.c, src/response.c:305-410, src/ftime.c, src/err.c

Strings of the C library calls are NUL-terminated; `cut` is what `%s` prints of the bytes at a pointer. -/

namespace Fly.Log

open Response (decimal codeOfType explain)

def cut (s : Bytes) : Bytes := s.takeWhile (· != 0)

/-! ## Access log -/

/-- `fly_log_request_line_modify`, src/response.c:305-313, and the choice in 374-376: the request line as received, up to CR, LF or NUL;
`?` if there is none. -/
def line1 (raw : Option Bytes) : Bytes :=
  match raw with
  | none => b!"?"
  | some r => r.takeWhile fun c => c != 0 && c != 13 && c != 10

/-- `fly_log_request_line_hv2`, src/response.c:315-362.  `uri` is the text at `uri.ptr` (all of `:path`), `len` is `uri.len`, which the target
parser has reduced to the part before the query (src/request.c:1737).  `snprintf` stores at most `size - 1` characters. -/
def line2 (method : Option Bytes) (uri : Option (Bytes × Nat)) : Bytes :=
  match method, uri with
  | some m, some (u, len) => (m ++ b!" " ++ cut u ++ b!" " ++ b!"HTTP/2").take (m.length + 1 + len + 1 + 6)
  | _, _ => b!"?"

/-- Peer, local address (numeric texts) and status of a response. -/
structure Facts where
  host : Bytes
  port : Bytes
  myHost : Bytes
  myPort : Bytes
  status : Nat

/-- The text of an entry, src/response.c:384-402. -/
def accessText (f : Facts) (line : Bytes) : Bytes :=
  f.host ++ b!":" ++ f.port ++ b!" (" ++ line ++ b!") --> " ++ f.myHost ++ b!":" ++ f.myPort ++ b!" (" ++
    (match codeOfType f.status with | some c => decimal c | none => b!"-1") ++ b!" " ++
    (match explain f.status with | some e => e | none => b!"(null)") ++ b!")\n"

/-- `snprintf` into the 300 bytes of `lc->content` and what is written of it, src/response.c:384-408, src/log.h:101-103: a text of 297 bytes
or more keeps its first 296, then come `...`, the NUL of `snprintf`, and `contlen` stays 300. -/
def stored (text : Bytes) : Bytes :=
  if 297 ≤ text.length then text.take 296 ++ b!"..." ++ [0] else text

/-! ## Writing -/

/-- What one `write` does. -/
inductive W where
  | wrote (n : Nat)
  | intr
  | fail
  deriving DecidableEq, Repr

inductive WStatus where
  | done | error | pending
  deriving DecidableEq, Repr

/-- `__fly_write`, src/log.c:381-415: the loop that goes on after a partial `write` begins again at the start of the content. -/
def writeLoop (content : Bytes) : Nat → List W → Bytes × WStatus
  | _, [] => ([], .pending)
  | total, .intr :: r => writeLoop content total r
  | _, .fail :: _ => ([], .error)
  | total, .wrote n :: r =>
    let data := (content.take (content.length - total)).take n
    if total + data.length = content.length then (data, .done)
    else (data ++ (writeLoop content (total + data.length) r).1, (writeLoop content (total + data.length) r).2)

/-! ## Time stamps -/

/-- A time zone: seconds east of Greenwich without and with summer time, and when the latter is in force. -/
structure Zone where
  std : Int
  dst : Int
  isDst : Int → Bool

def Zone.off (z : Zone) (t : Int) : Int := if z.isDst t then z.dst else z.std

/-- `mktime` of a broken-down time, given as the seconds it would denote in UTC, and its `tm_isdst`.  (C library; the GNU implementation
uses the offset asked for by `tm_isdst`.) -/
def Zone.mktime (z : Zone) (wall : Int) (isDst : Bool) : Int := wall - (if isDst then z.dst else z.std)

/-- What is printed: a date and time (given as the seconds it denotes read as UTC), a sign, hours and minutes. -/
structure Stamp where
  shown : Int
  plus : Bool
  h : Nat
  m : Nat
  deriving DecidableEq, Repr

/-- `fly_logtime`, src/ftime.c:35-65.  `mktime` also puts the broken-down time it is given in order: `gm` is afterwards the local time of
the instant it computed. -/
def logtime (z : Zone) (t : Int) : Option Stamp :=
  let t1 := z.mktime t false
  let t2 := z.mktime (t + z.off t) (z.isDst t)
  if t1 = -1 ∨ t2 = -1 then none
  else
    let diff := t1 - t2
    if diff = -1 then none
    else some ⟨t1 + z.off t1, decide (diff < 0), diff.natAbs / 3600, diff.natAbs % 3600⟩

/-- src/ftime.c:64; `date` is `strftime("%F %T")`. -/
def stampText (date : Int → Bytes) (s : Stamp) : Bytes :=
  date s.shown ++ b!" [UTC" ++ (if s.plus then b!"+" else b!"-") ++ decimal s.h ++ b!":" ++ (if s.m < 10 then b!"0" else []) ++ decimal s.m ++ b!"]"

/-- `__fly_placeholder`, src/log.c:322-329. -/
def placeholder (stamp : Bytes) (pid : Nat) : Bytes := stamp ++ b!" (" ++ decimal pid ++ b!"): "

/-! ## Files and destinations -/

/-- `__fly_access_log_path` and its siblings, src/log.c:57-173, with `PATH_MAX` = 4096: `none` if the path does not fit; else the bytes, followed
by NUL if there is room (`false`: there is none, and `open` and `strcpy` read on). -/
def logPath (dir name : Bytes) : Option (Bytes × Bool) :=
  if 4096 < dir.length then none
  else if 4096 < dir.length + 1 then none
  else if 4096 < dir.length + 1 + name.length then none
  else some (dir ++ b!"/" ++ name, decide (dir.length + 1 + name.length < 4096))

/-- What reaches the file, standard output and standard error. -/
structure Out where
  file : List Bytes
  stdout : List Bytes
  stderr : List Bytes
  deriving DecidableEq, Repr

/-- `__fly_log_write_logcont`, src/log.c:521-556: texts go to the terminal without their time stamp; the branch for standard error uses
`printf` as well. -/
def logOut (file toStdout toStderr : Bool) (stamp text : Bytes) : Out :=
  ⟨if file then [stamp ++ text] else [],
   (if toStdout then [cut text] else []) ++ (if toStderr then [cut text] else []),
   []⟩

/-- `__fly_write_to_log_info` and `__fly_write_to_log_err`, src/err.c:323-475: without a file the lock fails and the function returns. -/
def directOut (file toStdout toStderr : Bool) (text : Bytes) : Out :=
  if !file then ⟨[], [], []⟩
  else ⟨[text], if toStdout then [text] else [], if toStderr then [text] else []⟩

/-! ## Last words -/

/-- `fly_err_init`, src/err.c:43-64: 199 characters are kept. -/
def errContent (msg : Bytes) : Bytes := msg.take 199

def errMid : Bytes := b!"] Occurred error. Worker process is gone. "
def errPad : Bytes := b!"[9999999999999] Occurred error. Worker process is gone. "
def emergMid : Bytes := b!"): Emergency Error. Process is killed. ("

/-- `__fly_write_to_log_err`, src/err.c:332-365: the line in the error log. -/
def errLine (pid : Nat) (content : Bytes) : Bytes :=
  (b!"[" ++ decimal pid ++ errMid ++ content ++ b!"\n").take
    (content.length + errPad.length - 1)

inductive Emerg where
  | logged (line : Bytes)
  | undef
  deriving DecidableEq, Repr

/-- `__fly_write_to_log_emerg`, src/err.c:237-290.  The line is composed in the emergency memory (1000 bytes) directly behind the message.  If the message
lies there itself (`fly_emergency_verror`, src/err.c:483-498), its terminating NUL is the first byte of the line: source
and destination of `snprintf` overlap.  `memset` clears the length of the message and 200 bytes. -/
def emergency (inMemory : Bool) (pid : Nat) (date why msg : Bytes) : Emerg :=
  if 1000 < msg.length + (msg.length + 200) then .undef
  else if inMemory then .undef
  else .logged ((b!"[" ++ decimal pid ++ b!"](" ++ date ++ emergMid ++ msg ++ b!") (" ++ why ++ b!")\n").take 199)

end Fly.Log
