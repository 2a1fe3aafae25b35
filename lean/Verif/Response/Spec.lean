import Verif.Header.Spec
import Verif.CStr

/-! # Specification of a serialized response -/

namespace Fly.Response

open Fly.Header (Pairs)

/-- Reason phrases of RFC 7231 section 6.1 (and RFC 7235 for 401, 407; RFC 7233 for 416; RFC 7232 for
304) for the statuses the framework names. -/
def rfcReason : List (Nat × Bytes) :=
  [(100, b!"Continue"), (101, b!"Switching Protocols"), (200, b!"OK"), (201, b!"Created"), (202, b!"Accepted"),
   (203, b!"Non-Authoritative Information"), (204, b!"No Content"), (205, b!"Reset Content"), (300, b!"Multiple Choices"),
   (301, b!"Moved Permanently"), (302, b!"Found"), (303, b!"See Other"), (304, b!"Not Modified"), (307, b!"Temporary Redirect"),
   (400, b!"Bad Request"), (401, b!"Unauthorized"), (402, b!"Payment Required"), (403, b!"Forbidden"), (404, b!"Not Found"),
   (405, b!"Method Not Allowed"), (406, b!"Not Acceptable"), (407, b!"Proxy Authentication Required"), (408, b!"Request Timeout"),
   (409, b!"Conflict"), (410, b!"Gone"), (411, b!"Length Required"), (413, b!"Payload Too Large"), (414, b!"URI Too Long"),
   (415, b!"Unsupported Media Type"), (416, b!"Range Not Satisfiable"), (417, b!"Expectation Failed"), (426, b!"Upgrade Required"),
   (500, b!"Internal Server Error"), (501, b!"Not Implemented"), (502, b!"Bad Gateway"), (503, b!"Service Unavailable"),
   (504, b!"Gateway Timeout"), (505, b!"HTTP Version Not Supported")]

/-- The three digits of a status code. -/
def threeDigits (c : Nat) : Bytes := [48 + c / 100 % 10, 48 + c / 10 % 10, 48 + c % 10]

/-- Status line + headers + empty line + body. -/
def wire (line : Bytes) (headers : Pairs) (body : Bytes) : Bytes :=
  line ++ headers.flatMap (fun p => p.1 ++ b!": " ++ p.2 ++ [13, 10]) ++ [13, 10] ++ body

/-- Reader: split at the first CRLF. -/
def takeLine : Bytes → Option (Bytes × Bytes)
  | [] => none
  | 13 :: 10 :: rest => some ([], rest)
  | b :: rest => (takeLine rest).map fun p => (b :: p.1, p.2)

/-- Reader: split a header line at the first colon and drop one space. -/
def splitHeader : Bytes → Option (Bytes × Bytes)
  | [] => none
  | 58 :: 32 :: v => some ([], v)
  | 58 :: _ => none
  | b :: rest => (splitHeader rest).map fun p => (b :: p.1, p.2)

/-- Reader: header lines until the empty line; the rest is the body.  Fuel: the number of lines is at most
the number of bytes. -/
def readHeaders : Nat → Bytes → Option (Pairs × Bytes)
  | 0, _ => none
  | fuel + 1, bs =>
    match takeLine bs with
    | none => none
    | some ([], rest) => some ([], rest)
    | some (l, rest) =>
      match splitHeader l, readHeaders fuel rest with
      | some p, some (ps, body) => some (p :: ps, body)
      | _, _ => none

/-- A client reading a response: status line, headers, body. -/
def readResponse (bs : Bytes) : Option (Bytes × Pairs × Bytes) :=
  match takeLine bs with
  | none => none
  | some (line, rest) => (readHeaders (rest.length + 1) rest).map fun p => (line, p.1, p.2)

end Fly.Response
