import Verif.Header.Model

/-! # Model of response preparation and serialization (src/response.c, src/math.c) -/

namespace Fly.Response

open Fly.Header (HList HField addModify)

/-! ## Decimal lengths -/

/-- The loop of `fly_number_ldigits` (src/math.c:21-24) for a non-negative argument; the fuel (the number
itself) is more than its digits. -/
def countDigits : Nat → Nat → Nat
  | 0, _ => 0
  | fuel + 1, n => if n = 0 then 0 else countDigits fuel (n / 10) + 1

/-- `fly_number_ldigits` / `fly_number_digits`, src/math.c:3-25, non-negative arguments. -/
def numberDigits (n : Nat) : Nat := if n = 0 then 1 else countDigits n n

/-- `printf("%ld")` of a non-negative number (C library; most significant digit first). -/
def printLd : Nat → Nat → Bytes → Bytes
  | 0, _, acc => acc
  | fuel + 1, n, acc => if n < 10 then (48 + n) :: acc else printLd fuel (n / 10) ((48 + n % 10) :: acc)

def decimal (n : Nat) : Bytes := printLd (n + 1) n []

/-- `snprintf(buf, len, "%ld", n)`: at most `len - 1` characters are stored. -/
def snprintfLd (len n : Nat) : Bytes := (decimal n).take (len - 1)

/-- The string made by `fly_add_content_length` (src/header.c:519-527) and
`fly_add_content_length_from_stat` (435-446). -/
def contLenStr (n : Nat) : Bytes := snprintfLd (numberDigits n + 1) n

/-! ## Status line -/

/-- `responses[]`, src/response.c:15-60: code and phrase.  The enum tag of a row is the same number as its
code (`FLY_STATUS_CODE`, src/response.h:139), so tags are written as numbers. -/
def responses : List (Nat × Bytes) :=
  [(100, b!"Continue"), (101, b!"Switching Protocols"),
   (200, b!"OK"), (201, b!"Created"), (202, b!"Accepted"), (203, b!"Non-Authoritative Information"), (204, b!"No Content"),
   (205, b!"Reset Content"),
   (300, b!"Multiple Choices"), (301, b!"Moved Permanently"), (302, b!"Found"), (303, b!"See Other"), (304, b!"Not Modified"),
   (307, b!"Temporary Redirect"),
   (400, b!"Bad Request"), (401, b!"Unauthorized"), (402, b!"Payment Required"), (403, b!"Forbidden"), (404, b!"Not Found"),
   (405, b!"Method Not Allowed"), (406, b!"Not Acceptable"), (407, b!"Proxy Authentication Required"), (408, b!"Request Timeout"),
   (409, b!"Conflict"), (409, b!"Gone"), (410, b!"Length Required"), (413, b!"Payload Too Large"), (414, b!"URI Too Long"),
   (415, b!"Unsupported Media Type"), (416, b!"Range Not Satisfiable"), (417, b!"Expectation Failed"), (426, b!"Upgrade Required"),
   (500, b!"Internal Server Error"), (501, b!"Not Implemented"), (502, b!"Bad Gateway"), (503, b!"Service Unavailable"),
   (504, b!"Gateway Timeout"), (505, b!"HTTP Version Not SUpported")]

/-- `enum status_code_type`, src/response.h:18-60 (without INVALID_STATUS_CODE). -/
def statusTypes : List Nat :=
  [100, 101, 200, 201, 202, 203, 204, 205, 300, 301, 302, 303, 304, 307, 400, 401, 402, 403, 404, 405, 406, 407, 408, 409, 410, 411,
   413, 414, 415, 416, 417, 426, 500, 501, 502, 503, 504, 505]

/-- `__fly_status_code_from_type`, src/response.c:167-174 (`none`: -1). -/
def codeOfType (t : Nat) : Option Nat := (responses.find? (·.1 == t)).map (·.1)

/-- `fly_status_code_from_long`, src/response.c:176-183 (`none`: INVALID_STATUS_CODE). -/
def typeOfLong (l : Int) : Option Nat := (responses.find? (fun r => decide ((r.1 : Int) = l))).map (·.1)

/-- `fly_stcode_explain`, src/response.c:208-215 (`none`: NULL). -/
def explain (t : Nat) : Option Bytes := (responses.find? (·.1 == t)).map (·.2)

/-- `versions[]` / `fly_version_str`, src/version.c:6-22. -/
inductive Version where
  | v2
  | v1_1
  deriving DecidableEq, Repr

def Version.full : Version → Bytes
  | .v2 => b!"HTTP/2"
  | .v1_1 => b!"HTTP/1.1"

/-- `__fly_status_line`, src/response.c:193-206, into 50 bytes (`FLY_STATUS_LINE_MAX`), and the check of
its caller (1409-1411).  An unknown type prints `-1 (null)` with glibc. -/
def statusLine (v : Version) (t : Nat) : Option Bytes :=
  let line := v.full ++ b!" " ++ (match codeOfType t with | some c => decimal c | none => b!"-1") ++ b!" " ++
    (match explain t with | some e => e | none => b!"(null)") ++ [13, 10]
  if line.length = 50 then none else some line

/-! ## Serialization -/

/-- Where the body comes from (`response->type`) with the bytes found there. -/
inductive Body where
  /-- `ENCODED`: content of `de->encbuf` -/
  | encoded (enc : Bytes)
  /-- `BODY`: `response->body`, NULL if absent -/
  | body (b : Option Bytes)
  /-- `PATH_FILE`: content of the file -/
  | file (content : Bytes)
  /-- `DEFAULT` -/
  | default
  | noContent
  deriving DecidableEq, Repr

/-- One header in the send buffer (src/response.c:1487-1494). -/
def headerLine (f : HField) : Bytes := f.name.getD [] ++ b!": " ++ f.value.getD [] ++ [13, 10]

/-- Result of `fly_response_set_send_ptr`: `send_len`, and the bytes stored in the buffer of that size.
If fewer bytes are stored the rest of the buffer is uninitialised. -/
structure SendBuf where
  sendLen : Nat
  bytes : Bytes
  deriving DecidableEq, Repr

/-- `fly_response_set_send_ptr`, src/response.c:1390-1585.  `none` is undefined behaviour: a NULL body or
file, or bytes stored past the end of the buffer.  A header list with `chain_count` 0 is skipped. -/
def setSendPtr (v : Version) (t : Nat) (h : HList) (responseLen count : Nat) (b : Body) : Option SendBuf :=
  match statusLine v t with
  | none => none
  | some line =>
    let total := line.length +
      (if h.count = 0 then 0 else (h.items.map fun f => (f.name.getD []).length + 2 + (f.value.getD []).length + 2).sum) + 2 + responseLen
    let head := line ++ (if h.count = 0 then [] else h.items.flatMap headerLine) ++ [13, 10]
    match b with
    | .encoded enc => some ⟨total, head ++ enc.take (total - head.length)⟩
    | .body none => none
    | .body (some bs) => if total < head.length + bs.length then none else some ⟨total, head ++ bs⟩
    | .file content =>
      let r := content.take count
      if total < head.length + r.length then none else some ⟨total, head ++ r⟩
    | .default => none
    | .noContent => some ⟨total, head⟩

/-! ## Choice of representation and Content-Length -/

/-- A file of a mount point; `pre` is its pre-encoded form made by the worker with that coding
(src/worker.c:1073-1123).  `st_size` is the length of the content. -/
structure File where
  content : Bytes
  pre : Option (Nat × Bytes)
  deriving DecidableEq, Repr

/-- Content codings by number; `identity = 0`. -/
abbrev Coding := Nat
def identity : Coding := 0

/-- What the request's Accept-Encoding negotiation left behind (see `Verif/Encode`). -/
structure Accepts where
  /-- `fly_encoding_matching` -/
  matching : Coding → Bool
  /-- `fly_decided_encoding_type` -/
  decided : Option Coding

/-- Result of preparing a response. -/
inductive Prepared where
  /-- the body source, `response_len`, the header list -/
  | ready (b : Body) (responseLen : Nat) (h : HList)
  /-- replaced by a 413 response -/
  | tooLarge
  deriving DecidableEq, Repr

/-- `fly_add_content_length` over HTTP/1 (src/header.c:519-533). -/
def setContentLength (h : HList) (n : Nat) : Option HList := addModify h b!"Content-Length" (contLenStr n)

/-- `fly_add_content_encoding` over HTTP/1 (src/header.c:504-517); `encName` is the name of a coding. -/
def addContentEncoding (encName : Coding → Bytes) (h : HList) (c : Coding) : HList :=
  Header.add h b!"Content-Encoding" (encName c) false

/-- `fly_response_event` up to `end_of_encoding`, src/response.c:564-721, for a response with a handler
body or a file (`response->body` wins).  `compress` is the encoder (oracle) and `maxLen` the size from
which `overflow` is reported; encoder errors (500) are not modelled. -/
def prepare (encName : Coding → Bytes) (compress : Coding → Bytes → Bytes) (overflow : Bytes → Bool) (threshold : Nat) (acc : Accepts)
    (dontEncode : Bool) (body : Option Bytes) (pf : Option File) (h : HList) : Option Prepared :=
  -- 564-596: type, response_len, encoded, encoding type, de
  let src : Body × Nat × Nat × Bool × Option Coding × Option Bytes × Bytes :=
    match body, pf with
    | some b, _ => (.body (some b), b.length, 0, false, none, none, b)
    | none, some ⟨content, some (c, enc)⟩ => (.encoded enc, enc.length, content.length, true, some c, some enc, content)
    | none, some ⟨content, none⟩ => (.file content, content.length, content.length, false, none, none, content)
    | none, none => (.noContent, 0, 0, false, none, none, [])
  let ty := src.1
  let len := src.2.1
  let orig := src.2.2.1
  let encoded := src.2.2.2.1
  let etype := src.2.2.2.2.1
  let de := src.2.2.2.2.2.1
  let raw := src.2.2.2.2.2.2
  if dontEncode then
    match setContentLength h len with
    | none => none
    | some h => some (.ready ty len h)
  else
    -- 604-608
    let stay := encoded && (match etype with | some c => acc.matching c | none => false)
    let len := if encoded && !stay then orig else len
    -- 610-616
    let coding := if stay then etype else if threshold ≤ len then acc.decided else none
    let h := match coding with
      | some c => addContentEncoding encName h c
      | none => h
    -- 619-714
    match (if stay then none else coding) with
    | some c =>
      if c = identity then
        match setContentLength h len with
        | none => none
        | some h => some (.ready (.body body) len h)
      else
        match body, pf with
        | none, none => none
        | _, _ =>
          let enc := compress c raw
          if overflow enc then some .tooLarge
          else
            match setContentLength h enc.length with
            | none => none
            | some h => some (.ready (.encoded enc) enc.length h)
    | none =>
      -- 715-721
      match setContentLength h (match de with | some e => e.length | none => len) with
      | none => none
      | some h => some (.ready ty len h)

/-- The bytes put in the send buffer for a prepared response (`response->count` is the file size,
src/response.c:1342). -/
def serialize (v : Version) (t : Nat) (count : Nat) : Prepared → Option SendBuf
  | .ready b len h => setSendPtr v t h len count b
  | .tooLarge => none

end Fly.Response
