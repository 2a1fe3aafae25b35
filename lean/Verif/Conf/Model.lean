import Verif.CStr

/-! # The configuration file (src/conf.c, fly.conf)

A file is its list of bytes.  `fgets` with a buffer of 1024 bytes hands the parser chunks of at most 1023
bytes; a chunk ends with a line feed, with the file, or because it is full.  Inside a chunk the parser's
pointer is the suffix still to be read; the empty suffix is the terminating NUL. -/

namespace Fly.Conf

/-- `FLY_PARSE_CONFIG_SPACE` (conf.c:128-129; char.h fly_space, fly_ht). -/
def isBlank (c : Nat) : Bool := c == 32 || c == 9

/-- `fly_alpha` (char.h). -/
def isAlpha (c : Nat) : Bool :=
  (decide (65 ≤ c) && decide (c ≤ 90)) || (decide (97 ≤ c) && decide (c ≤ 122))

/-- `FLY_PARSE_CONFIG_NAME_CHAR` (conf.c:130-131). -/
def nameC (c : Nat) : Bool := isAlpha c || c == 95

/-- `FLY_PARSE_CONFIG_VALUE_CHAR` (conf.c:132-135). -/
def valueC (c : Nat) : Bool :=
  isAlpha c || isDigit c || c == 46 || c == 47 || c == 45 || c == 95

/-- `fly_cr(c) || fly_lf(c)`. -/
def isEol (c : Nat) : Bool := c == 13 || c == 10

/-- How the character loop of one chunk ends: a comment or an empty line (`skip`), a syntax error (`bad`),
leaving the loop because the pointer reached the last byte of the buffer (`full`), or a name with a value. -/
inductive Scan where
  | skip
  | bad
  | full
  | pair (n v : Bytes)
deriving DecidableEq, Repr

/-- At the end of the chunk: `if (ptr == FLY_CONFIG_BUF_LAST_PTR) break;` (conf.c:278-279) when the chunk
fills the buffer, else the parser reads the NUL, which every state refuses. -/
def atEnd (last : Bool) : Scan := if last then .full else .bad

/-- State `VALUE` (conf.c:241-273); `v` is what lies between `value` and `ptr`. -/
def sValue (last : Bool) (n : Bytes) : Bytes → Bytes → Scan
  | _, [] => atEnd last
  | v, c :: p =>
    if valueC c then sValue last n (v ++ [c]) p
    else if isBlank c then .pair n v
    else if isEol c then .pair n v
    else .bad

/-- State `EQUAL` (conf.c:220-240). -/
def sEqual (last : Bool) (n : Bytes) : Bytes → Scan
  | [] => atEnd last
  | c :: p =>
    if isBlank c then sEqual last n p
    else if valueC c then sValue last n [] (c :: p)
    else .bad

/-- State `NAME_END` (conf.c:196-219). -/
def sNameEnd (last : Bool) (n : Bytes) : Bytes → Scan
  | [] => atEnd last
  | c :: p =>
    if isBlank c then sNameEnd last n p
    else if c == 61 then sEqual last n p
    else .bad

/-- State `NAME` (conf.c:167-195); `n` is what lies between `name` and `ptr`. -/
def sName (last : Bool) : Bytes → Bytes → Scan
  | _, [] => atEnd last
  | n, c :: p =>
    if isBlank c then sNameEnd last n (c :: p)
    else if c == 61 then sEqual last n p
    else if nameC c then sName last (n ++ [c]) p
    else .bad

/-- State `INIT` (conf.c:137-162), `COMMENT` and `NEWLINE` (163-166). -/
def sInit (last : Bool) : Bytes → Scan
  | [] => atEnd last
  | c :: p =>
    if isBlank c then sInit last p
    else if nameC c then sName last [] (c :: p)
    else if c == 35 then .skip
    else if c == 13 then sInit last p
    else if c == 10 then .skip
    else .bad

inductive Flag where
  | integer
  | string
  | bool
deriving DecidableEq, Repr

/-- `struct fly_config` (conf.h:20-31). -/
structure Item where
  name : Bytes
  env : Bytes
  dflt : Option Bytes
  flag : Flag
deriving DecidableEq, Repr

/-- `configs` (conf.c:7-10 with fly.conf:1-24). -/
def configs : List Item := [
  ⟨b!"mount_max", b!"FLY_MOUNT_MAX", some b!"100", .integer⟩,
  ⟨b!"file_max", b!"FLY_FILE_MAX", some b!"1000", .integer⟩,
  ⟨b!"workers", b!"FLY_WORKER", some b!"1", .integer⟩,
  ⟨b!"worker_max", b!"FLY_WORKER_MAX", some b!"10", .integer⟩,
  ⟨b!"encode_threshold", b!"FLY_ENCODE_THRESHOLD", some b!"1048576", .integer⟩,
  ⟨b!"host", b!"FLY_HOST", some b!"0.0.0.0", .string⟩,
  ⟨b!"port", b!"FLY_PORT", some b!"1234", .integer⟩,
  ⟨b!"ssl", b!"FLY_SSL", some b!"false", .bool⟩,
  ⟨b!"ssl_crt_path", b!"FLY_SSL_CRT_PATH", some b!"conf/server.crt", .string⟩,
  ⟨b!"ssl_key_path", b!"FLY_SSL_KEY_PATH", some b!"conf/server.key", .string⟩,
  ⟨b!"index_path", b!"FLY_INDEX_PATH", some b!"index.html", .string⟩,
  ⟨b!"log_path", b!"FLY_LOG_PATH", none, .string⟩,
  ⟨b!"log_stdout", b!"FLY_LOG_STDOUT", some b!"true", .bool⟩,
  ⟨b!"log_stderr", b!"FLY_LOG_STDERR", some b!"false", .bool⟩,
  ⟨b!"backlog", b!"FLY_BACKLOG", some b!"1024", .integer⟩,
  ⟨b!"max_response_content_length", b!"FLY_MAX_RESPONSE_CONTENT_LENGTH", some b!"1048576", .integer⟩,
  ⟨b!"max_request_content_length", b!"FLY_MAX_REQUEST_LENGTH", some b!"1048576", .integer⟩,
  ⟨b!"request_timeout", b!"FLY_REQUEST_TIMEOUT", some b!"60", .integer⟩,
  ⟨b!"connect_buffer_init_len", b!"FLY_CONNECT_BUFFER_INIT_LEN", some b!"1", .integer⟩,
  ⟨b!"connect_buffer_per_len", b!"FLY_CONNECT_BUFFER_PER_LEN", some b!"4096", .integer⟩,
  ⟨b!"create_pidfile", b!"FLY_CREATE_PIDFILE", some b!"false", .bool⟩,
  ⟨b!"pidfile_path", b!"FLY_PIDFILE_PATH", some b!"./log/fly.pid", .string⟩,
  ⟨b!"default_content_path", b!"FLY_DEFAULT_CONTENT_PATH", none, .string⟩]

/-- The environment of the process. -/
abbrev Env := Bytes → Option Bytes

/-- `setenv(k, v, 1)` / `unsetenv(k)`; they are taken not to fail. -/
def Env.put (e : Env) (k : Bytes) (v : Option Bytes) : Env := fun x => if x = k then v else e x

/-- `fly_config_item_search` (conf.c:39-48). -/
def search : List Item → Bytes → Option Item
  | [], _ => none
  | c :: cs, n => if n.length = c.name.length ∧ n = c.name then some c else search cs n

/-- `fly_config_item_default_setting` (conf.c:51-60).  The calls stand inside `assert`; the model is of a
build with assertions. -/
def setDefaults : List Item → Env → Env
  | [], e => e
  | c :: cs, e => setDefaults cs (e.put c.env c.dflt)

/-- The low 32 bits of a number as a C `int`. -/
def wrap32 (i : Int) : Int := (i + 2147483648) % 4294967296 - 2147483648

/-- The number cut to the range of `long`. -/
def clamp64 (i : Int) : Int :=
  if i > 9223372036854775807 then 9223372036854775807
  else if i < -9223372036854775808 then -9223372036854775808
  else i

/-- `atoi` as glibc defines it, `(int) strtol(s, NULL, 10)`; C leaves numbers outside `int` undefined. -/
def atoi (s : Bytes) : Int := wrap32 (clamp64 (atoll s))

/-- `strncmp(value, p, strlen(p)) == 0`. -/
def hasPrefix (v p : Bytes) : Bool := p.isPrefixOf v

/-- Whether `fly_set_config_value` takes the value (conf.c:391-409). -/
def accepts (f : Flag) (v : Bytes) : Bool :=
  match f with
  | .integer => !(atoi v == 0 && !(v.head? == some 48))
  | .bool => hasPrefix v b!"true" || hasPrefix v b!"True" || hasPrefix v b!"false" || hasPrefix v b!"False"
  | .string => true

/-- How reading a file ends: `FLY_PARSE_CONFIG_SUCCESS`, `FLY_PARSE_CONFIG_ERROR`,
`FLY_PARSE_CONFIG_NOTFOUND`, the process ended by `exit` with a status, or undefined behaviour (a read and a
write outside the line buffer). -/
inductive Ret where
  | success
  | error
  | notFound
  | exit (status : Nat)
  | crash
deriving DecidableEq, Repr

/-- What one chunk does: go on with a new environment, or end. -/
inductive LineRes where
  | next (e : Env)
  | stop (r : Ret) (e : Env)

/-- `fly_set_config_value` (conf.c:387-414).  A refused value ends the process with
`exit(-1*FLY_PARSE_CONFIG_SYNTAX_ERROR)`, which is status 0. -/
def setValue (e : Env) (c : Item) (v : Bytes) : LineRes :=
  if accepts c.flag v then .next (e.put c.env (some v)) else .stop (.exit 0) e

/-- One chunk (conf.c:115-337), from the start of the character loop to the next `fgets`.
At `end_line` (282-290) the loop looking for CR or LF has no bound. -/
def line (e : Env) (chunk : Bytes) : LineRes :=
  match sInit (chunk.length == 1023) chunk with
  | .skip => .next e
  | .bad => .stop .error e
  | .full => if chunk.any isEol then .stop .error e else .stop .crash e
  | .pair n v =>
    if chunk.any isEol then
      if n.length = 0 then .stop .error e
      else if v.length = 0 then .stop .error e
      else
        match search configs n with
        | some c => setValue e c v
        | none => .stop .error e
    else .stop .crash e

/-- `fgets(config_buf, 1024, f)`: at most `room` bytes, up to and including a line feed.
The chunk and what is left of the file. -/
def fgets : Nat → Bytes → Bytes × Bytes
  | 0, s => ([], s)
  | _, [] => ([], [])
  | r + 1, c :: s => if c == 10 then ([c], s) else let t := fgets r s; (c :: t.1, t.2)

/-- The loop over the file (conf.c:115-346).  `fgets` gives NULL at the end of the file; read errors are not
modelled. The first argument bounds the number of calls; a chunk is never empty, so the length of the file
is enough (`loop_fuel`). -/
def loop : Nat → Env → Bytes → Ret × Env
  | 0, e, _ => (.success, e)
  | k + 1, e, s =>
    if s.isEmpty then (.success, e)
    else
      match line e (fgets 1023 s).1 with
      | .stop r e' => (r, e')
      | .next e' => loop k e' (fgets 1023 s).2

/-- `fly_parse_config_file` (conf.c:67-357).  `none` is a failed `fopen` or an unset path; as `errno` is
cleared after the call (88), every failure is reported as "not found". -/
def parse (e : Env) (file : Option Bytes) : Ret × Env :=
  match file with
  | none => (.notFound, setDefaults configs e)
  | some s => loop (s.length + 1) (setDefaults configs e) s

/-- `fly_config_value_str` (conf.c:416-426) for a known variable. -/
def valueStr (e : Env) (k : Bytes) : Option Bytes := e k

/-- `fly_config_value_long` (conf.c:428-445) for a known variable; `none` is the assertion on NULL. -/
def valueLong (e : Env) (k : Bytes) : Option Int :=
  match e k with
  | none => none
  | some v =>
    if clamp64 (atoll v) = atoll v then some (atoll v) else some 9223372036854775807

/-- `fly_config_value_bool` (conf.c:447-462) for a known variable; `none` is the assertion on NULL. -/
def valueBool (e : Env) (k : Bytes) : Option Bool :=
  match e k with
  | none => none
  | some v => some (hasPrefix v b!"true" || hasPrefix v b!"True")

end Fly.Conf
