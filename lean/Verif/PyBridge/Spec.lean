import Verif.Response.Spec

/-! # What a client should receive for the response a handler returns -/

namespace Fly.PyBridge

open Fly.Header (Pairs)

/-- The server fields the handler did not set itself. -/
def missing (hs : Pairs) (l : Pairs) : Pairs := l.filter fun p => !(hs.map (·.1)).contains p.1

/-- A status the framework documents, with its reason phrase (RFC 7231); 410, 411 and 505 are left out. -/
def statuses : List (Nat × Bytes) :=
  [(100, b!"Continue"), (101, b!"Switching Protocols"), (200, b!"OK"), (201, b!"Created"), (202, b!"Accepted"),
   (203, b!"Non-Authoritative Information"), (204, b!"No Content"), (205, b!"Reset Content"), (300, b!"Multiple Choices"),
   (301, b!"Moved Permanently"), (302, b!"Found"), (303, b!"See Other"), (304, b!"Not Modified"), (307, b!"Temporary Redirect"),
   (400, b!"Bad Request"), (401, b!"Unauthorized"), (402, b!"Payment Required"), (403, b!"Forbidden"), (404, b!"Not Found"),
   (405, b!"Method Not Allowed"), (406, b!"Not Acceptable"), (407, b!"Proxy Authentication Required"), (408, b!"Request Timeout"),
   (409, b!"Conflict"), (413, b!"Payload Too Large"), (414, b!"URI Too Long"),
   (415, b!"Unsupported Media Type"), (416, b!"Range Not Satisfiable"), (417, b!"Expectation Failed"), (426, b!"Upgrade Required"),
   (500, b!"Internal Server Error"), (501, b!"Not Implemented"), (502, b!"Bad Gateway"), (503, b!"Service Unavailable"),
   (504, b!"Gateway Timeout")]

/-- The content types that can be given. -/
def contentTypes : List Bytes :=
  [b!"text/plain", b!"text/csv", b!"text/html", b!"text/css", b!"text/xml", b!"text/javascript", b!"text/richtext", b!"application/json",
   b!"application/octet_stream", b!"multipart/form-data"]

/-- A header field a client can read: a name without NUL, CR and colon that is not empty, a value without CR. -/
def Field (p : Bytes × Bytes) : Prop := p.1 ≠ [] ∧ 0 ∉ p.1 ∧ 13 ∉ p.1 ∧ 58 ∉ p.1 ∧ 13 ∉ p.2

/-- A text that reads back as the number `n`. -/
def Reads (s : Bytes) (n : Nat) : Prop := (∀ b ∈ s, 48 ≤ b ∧ b ≤ 57) ∧ s ≠ [] ∧ s.foldl (fun a d => a * 10 + (d - 48)) 0 = n

end Fly.PyBridge
