import Verif.ReqEvent.Model
import Verif.ReqHeader.Spec
import Verif.Request.Spec

/-! # Specification of a request on a connection -/

namespace Fly.ReqEvent
open Req (ReqLine)

/-- A complete request as text with its meaning: a request line (without CRLF), header lines (without CRLF), and
a body. -/
structure Msg where
  lineText : Bytes
  line : ReqLine
  headers : List Bytes
  fields : List (Bytes × Bytes)
  body : Bytes

/-- The header fields as the application gets them. -/
def Msg.header (m : Msg) : Header.HList := ReqHeader.cells m.fields

/-- The bytes on the wire. -/
def Msg.text (m : Msg) : Bytes :=
  m.lineText ++ b!"\r\n" ++ (m.headers.map (· ++ b!"\r\n")).flatten ++ b!"\r\n" ++ m.body

/-- A well-formed message: acceptable CR-free HTTP/1.1 request line shorter than 8000 bytes, at least one header line, no
CR, LF or NUL inside the header lines, none of them empty, the fields being those of these lines, and a body of
the announced length (none if no length or zero is announced). -/
structure Msg.Good (m : Msg) : Prop where
  line : Req.Accepted m.lineText m.line
  version : m.line.version = .v1_1
  cr : 13 ∉ m.lineText
  short : m.lineText.length + 2 < 8000
  some : m.headers ≠ []
  plain : ∀ x ∈ m.headers, x ≠ [] ∧ 13 ∉ x ∧ 10 ∉ x ∧ 0 ∉ x
  fields : ReqHeader.Fields (m.headers.map (· ++ b!"\r")) m.fields
  body : (m.body.length : Int) = Header.contentLength m.header
  fits : m.body.length < 9223372036854775808

/-- The bytes a schedule delivers. -/
def dataOf : List Rcv → Bytes
  | [] => []
  | .data bs _ :: rs => bs ++ dataOf rs
  | _ :: rs => dataOf rs

/-- A schedule that only delivers bytes, in any pieces, with pauses anywhere, never hitting the buffer limit. -/
def Plain (rs : List Rcv) : Prop := ∀ r ∈ rs, r = .block ∨ ∃ bs, bs ≠ [] ∧ r = .data bs false

/-- The request line of the bytes of a connection, if it is complete and accepted. -/
def LineOf (D : Bytes) (l : ReqLine) : Prop := ∃ n, search b!"\r\n" b!"\r\n" 0 D = some n ∧ Req.parseReqline (D.take n) = .ok l

/-- The first line of the connection has 8000 bytes or more (with CRLF). -/
def LongLine (D : Bytes) : Prop := ∃ n, search b!"\r\n" b!"\r\n" 0 D = some n ∧ 8000 ≤ n

/-- The answer to a complete request. -/
def answer (e : Env) (m : Msg) : Out :=
  match e.nego m.header with
  | .syntaxError => .reply (.status 400)
  | .notAcceptable => .reply (.status 406)
  | .error => .error
  | .ok =>
    if Header.contentLength m.header = 0 then .reply (select e m.line m.header none)
    else if Header.expect100 m.header then .reply (.status (if m.body.length > e.maxLen then 417 else 100))
    else if m.body.length > e.maxLen then .reply (.status 413)
    else .reply (select e m.line m.header (some m.body))

end Fly.ReqEvent
