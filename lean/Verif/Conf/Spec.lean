import Verif.Basic

/-! # What a configuration file means

Written from the English property only: a file is a list of lines, a line is empty, a comment or
`name = value`. -/

namespace Fly.Conf

def BlankChar (c : Nat) : Prop := c = 32 ∨ c = 9
def NameChar (c : Nat) : Prop := (65 ≤ c ∧ c ≤ 90) ∨ (97 ≤ c ∧ c ≤ 122) ∨ c = 95
def ValueChar (c : Nat) : Prop :=
  (65 ≤ c ∧ c ≤ 90) ∨ (97 ≤ c ∧ c ≤ 122) ∨ (48 ≤ c ∧ c ≤ 57) ∨ c = 46 ∨ c = 47 ∨ c = 45 ∨ c = 95

/-- The end of a line: LF or CR LF. -/
inductive Eol where
  | lf
  | crlf
deriving DecidableEq, Repr

def Eol.bytes : Eol → Bytes
  | .lf => [10]
  | .crlf => [13, 10]

/-- A line of a configuration file. -/
inductive Line where
  /-- only blanks -/
  | blank (w : Bytes) (eol : Eol)
  /-- blanks, `#`, any text -/
  | comment (w text : Bytes)
  /-- `name = value` with blanks `w1` … `w4` around the parts -/
  | item (w1 name w2 w3 value w4 : Bytes) (eol : Eol)
deriving DecidableEq, Repr

def Line.bytes : Line → Bytes
  | .blank w eol => w ++ eol.bytes
  | .comment w text => w ++ 35 :: (text ++ [10])
  | .item w1 name w2 w3 value w4 eol => w1 ++ name ++ w2 ++ 61 :: (w3 ++ value ++ w4 ++ eol.bytes)

/-- The bytes of a file. -/
def fileBytes (ls : List Line) : Bytes := ls.flatMap Line.bytes

/-- The line is written correctly and is shorter than 1024 bytes. -/
def Line.WF : Line → Prop
  | .blank w eol => (∀ c ∈ w, BlankChar c) ∧ (Line.blank w eol).bytes.length < 1024
  | .comment w text => (∀ c ∈ w, BlankChar c) ∧ 10 ∉ text ∧ (Line.comment w text).bytes.length < 1024
  | .item w1 name w2 w3 value w4 eol =>
      (∀ c ∈ w1, BlankChar c) ∧ (∀ c ∈ w2, BlankChar c) ∧ (∀ c ∈ w3, BlankChar c) ∧ (∀ c ∈ w4, BlankChar c) ∧
      name ≠ [] ∧ (∀ c ∈ name, NameChar c) ∧ value ≠ [] ∧ (∀ c ∈ value, ValueChar c) ∧
      (Line.item w1 name w2 w3 value w4 eol).bytes.length < 1024

/-- The value the last line naming `n` gives it. -/
def lastValue (n : Bytes) : List Line → Option Bytes
  | [] => none
  | l :: ls =>
    match lastValue n ls with
    | some v => some v
    | none =>
      match l with
      | .item _ name _ _ value _ _ => if name = n then some value else none
      | _ => none

/-- The kinds of values. -/
inductive Kind where
  | number
  | text
  | truth
deriving DecidableEq, Repr

/-- The documented items: name, environment variable, default, kind. -/
def documented : List (Bytes × Bytes × Option Bytes × Kind) := [
  (b!"mount_max", b!"FLY_MOUNT_MAX", some b!"100", .number),
  (b!"file_max", b!"FLY_FILE_MAX", some b!"1000", .number),
  (b!"workers", b!"FLY_WORKER", some b!"1", .number),
  (b!"worker_max", b!"FLY_WORKER_MAX", some b!"10", .number),
  (b!"encode_threshold", b!"FLY_ENCODE_THRESHOLD", some b!"1048576", .number),
  (b!"host", b!"FLY_HOST", some b!"0.0.0.0", .text),
  (b!"port", b!"FLY_PORT", some b!"1234", .number),
  (b!"ssl", b!"FLY_SSL", some b!"false", .truth),
  (b!"ssl_crt_path", b!"FLY_SSL_CRT_PATH", some b!"conf/server.crt", .text),
  (b!"ssl_key_path", b!"FLY_SSL_KEY_PATH", some b!"conf/server.key", .text),
  (b!"index_path", b!"FLY_INDEX_PATH", some b!"index.html", .text),
  (b!"log_path", b!"FLY_LOG_PATH", none, .text),
  (b!"log_stdout", b!"FLY_LOG_STDOUT", some b!"true", .truth),
  (b!"log_stderr", b!"FLY_LOG_STDERR", some b!"false", .truth),
  (b!"backlog", b!"FLY_BACKLOG", some b!"1024", .number),
  (b!"max_response_content_length", b!"FLY_MAX_RESPONSE_CONTENT_LENGTH", some b!"1048576", .number),
  (b!"max_request_content_length", b!"FLY_MAX_REQUEST_LENGTH", some b!"1048576", .number),
  (b!"request_timeout", b!"FLY_REQUEST_TIMEOUT", some b!"60", .number),
  (b!"connect_buffer_init_len", b!"FLY_CONNECT_BUFFER_INIT_LEN", some b!"1", .number),
  (b!"connect_buffer_per_len", b!"FLY_CONNECT_BUFFER_PER_LEN", some b!"4096", .number),
  (b!"create_pidfile", b!"FLY_CREATE_PIDFILE", some b!"false", .truth),
  (b!"pidfile_path", b!"FLY_PIDFILE_PATH", some b!"./log/fly.pid", .text),
  (b!"default_content_path", b!"FLY_DEFAULT_CONTENT_PATH", none, .text)]

/-- The number a string of decimal digits stands for. -/
def decimal (s : Bytes) : Nat := s.foldl (fun a c => 10 * a + (c - 48)) 0

/-- A correct value of a kind: a natural number below 2^31, `true`/`True`/`false`/`False`, or any text. -/
def GoodValue : Kind → Bytes → Prop
  | .number, v => v ≠ [] ∧ (∀ c ∈ v, 48 ≤ c ∧ c ≤ 57) ∧ decimal v < 2147483648
  | .truth, v => v = b!"true" ∨ v = b!"True" ∨ v = b!"false" ∨ v = b!"False"
  | .text, _ => True

/-- The line, if it is an item, names a documented item and gives it a correct value. -/
def Line.Good : Line → Prop
  | .item _ name _ _ value _ _ => ∃ env d k, (name, env, d, k) ∈ documented ∧ GoodValue k value
  | _ => True

/-- The name is not documented. -/
def Unknown (n : Bytes) : Prop := ∀ env d k, (n, env, d, k) ∉ documented

end Fly.Conf

namespace Fly.Conf

/-- Environment `e'` is `e` with every documented item at the value of its last line in `ls`, or at its
default; no other variable differs. -/
def Means (e e' : Bytes → Option Bytes) (ls : List Line) : Prop :=
  (∀ n env d k, (n, env, d, k) ∈ documented →
    e' env = (match lastValue n ls with | some v => some v | none => d)) ∧
  (∀ x, (∀ n env d k, (n, env, d, k) ∈ documented → env ≠ x) → e' x = e x)

/-- `name = value`, then a blank or the end of the line, then anything. -/
def ItemShape (s n v : Bytes) : Prop :=
  ∃ w1 w2 w3 c r, s = w1 ++ n ++ w2 ++ 61 :: (w3 ++ v ++ c :: r) ∧
    (∀ x ∈ w1, BlankChar x ∨ x = 13) ∧ n ≠ [] ∧ (∀ x ∈ n, NameChar x) ∧ (∀ x ∈ w2, BlankChar x) ∧
    (∀ x ∈ w3, BlankChar x) ∧ v ≠ [] ∧ (∀ x ∈ v, ValueChar x) ∧ (BlankChar c ∨ c = 13 ∨ c = 10)

/-- Nothing but blanks before a `#` or the line feed. -/
def IgnoredShape (s : Bytes) : Prop :=
  ∃ w c r, s = w ++ c :: r ∧ (∀ x ∈ w, BlankChar x ∨ x = 13) ∧ (c = 35 ∨ c = 10)

end Fly.Conf
