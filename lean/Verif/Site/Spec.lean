import Verif.Site.Model
import Verif.Trip.Spec

/-! # What a client of a site sees -/

namespace Fly.Site
open ReqEvent (Msg Rcv)
open Req (Method)
open Header (Pairs)
open PyBridge (Cfg Reads)
open Response (Coding)
open Trip (Seen CfgOk Unserved)

/-- What is said about the file can be written in a response. -/
structure FileOk (f : Served) : Prop where
  tag : 13 ∉ f.tag
  modified : 13 ∉ f.modified
  mime : 13 ∉ f.mime

/-- The file still is what it was when it was mounted. -/
def Unchanged (c : Cfg) (f : Served) (content : Bytes) : Prop := f.size = content.length ∧ ∀ k e, f.pre = some (k, e) → e = c.compress k content

/-- There is a form of the file for this client: one encoded in advance that it accepts; or the file itself, where no coding is wanted; or one of the codings
proper, for a file above the threshold. -/
def Deliverable (c : Cfg) (f : Served) (now : Bytes) : Prop :=
  (∃ k e, f.pre = some (k, e) ∧ c.acc.matching k = true) ∨
  (f.pre = none ∧ (f.size < c.threshold ∨ c.acc.decided = none)) ∨
  (∃ k, c.threshold ≤ f.size ∧ c.acc.decided = some k ∧ k ≠ 0 ∧ c.overflow (c.compress k now) = false)

/-- What a request is about. -/
inductive Outcome where
  /-- the application -/
  | app (o : Trip.Outcome)
  /-- a file, asked for with GET -/
  | file (f : Served)
  /-- a directory, asked for with GET -/
  | directory
  /-- a file or directory, asked for with another method -/
  | notAllowed

/-- A request, the pieces it arrives in, the contents of the files when it is answered, how often the server finds that it cannot write yet and how much it can
write then, and what the request is about. -/
structure Exchange where
  msg : Msg
  pieces : List Rcv
  now : Bytes → Bytes
  blocked : Nat
  room : Nat
  out : Outcome

def Exchange.writes (x : Exchange) : List Send.Sys := List.replicate x.blocked .block ++ [.sent x.room]

def Makes (s : Site) (m : Msg) (now : Bytes → Bytes) : Outcome → Prop
  | .app o => m.line.method ≠ .head ∧ Trip.Makes s.full m o
  | .file f =>
    Unserved s.full m.line.uri m.line.method ∧ m.line.method = .get ∧ s.files m.line.uri = some f ∧ f.dir = false ∧ FileOk f ∧
      CfgOk (s.app.cfg m.header) ∧ Unchanged (s.app.cfg m.header) f (now m.line.uri) ∧ Deliverable (s.app.cfg m.header) f (now m.line.uri)
  | .directory =>
    Unserved s.full m.line.uri m.line.method ∧ m.line.method = .get ∧ (∃ f, s.files m.line.uri = some f ∧ f.dir = true) ∧ CfgOk s.app.cfg0 ∧ s.app.cfg0.dflt 404 = none
  | .notAllowed =>
    Unserved s.full m.line.uri m.line.method ∧ m.line.method ≠ .get ∧ (∃ f, s.files m.line.uri = some f) ∧ CfgOk s.app.cfg0 ∧ s.app.cfg0.dflt 405 = none

/-- The response leaves the connection open. -/
def Outcome.Stays : Outcome → Prop
  | .app o => o.Stays
  | _ => True

/-- A proper exchange: the request can be read, and the whole response fits in what can be written at once. -/
structure Proper (s : Site) (mem : Nat → Nat) (x : Exchange) : Prop where
  within : Keep.Within s.full.env x.msg
  arrives : Keep.Arrives x.msg x.pieces
  makes : Makes s x.msg x.now x.out
  fitting : ∀ b bs r, ReqEvent.answer s.full.env x.msg = .reply r → s.bytes x.now mem (.handler 0 x.msg.line x.msg.header b) r = some bs → bs.length ≤ x.room

/-- The form of a content: the content itself, or an accepted coding of it, the one it is kept in or another, which is announced. -/
def Form (c : Cfg) (kept : Option Coding) (content : Bytes) (announced : Pairs) (body : Bytes) : Prop :=
  (announced = [] ∧ body = content) ∨
  ∃ k, ((kept = some k ∧ c.acc.matching k = true) ∨ c.acc.decided = some k) ∧ announced = [(b!"Content-Encoding", c.encName k)] ∧ body = c.compress k content

/-- The fields of a response with a file. -/
def fileFields (c : Cfg) (f : Served) (len : Bytes) : Pairs :=
  [(b!"Content-Length", len), (b!"ETag", f.tag), (b!"Date", c.date), (b!"Last-Modified", f.modified), (b!"Content-Type", f.mime), (b!"Connection", b!"keep-alive")]

/-- The parts of a list written with commas. -/
def listed : Bytes → List Bytes
  | [] => [[]]
  | b :: l =>
    if b = 44 then [] :: (listed l).modifyHead fun x => if x.head? = some 32 then x.tail else x
    else (listed l).modifyHead (b :: ·)

/-- What the client should see. -/
def Shown (s : Site) (x : Exchange) (o : Seen) : Prop :=
  match x.out with
  | .app out => Trip.Shown s.full ⟨x.msg, x.pieces, x.blocked, x.room, out⟩ o
  | .file f =>
    ∃ len announced body, Reads len body.length ∧ Form (s.app.cfg x.msg.header) (f.pre.map (·.1)) (x.now x.msg.line.uri) announced body ∧
      o = (b!"HTTP/1.1 200 OK", fileFields (s.app.cfg x.msg.header) f len ++ announced, body)
  | .directory =>
    o = (b!"HTTP/1.1 404 Not Found",
      [(b!"Server", b!"fly"), (b!"Date", s.app.cfg0.date), (b!"Connection", b!"keep-alive"), (b!"Content-Length", b!"0")], [])
  | .notAllowed =>
    ∃ allow, b!"GET" ∈ listed allow ∧
      o = (b!"HTTP/1.1 405 Method Not Allowed",
        [(b!"Allow", allow), (b!"Server", b!"fly"), (b!"Date", s.app.cfg0.date), (b!"Connection", b!"keep-alive"), (b!"Content-Length", b!"0")], [])

/-! ## Over time -/

/-- The content that was written last. -/
def lastContent (c : Bytes) : List Ev → Bytes
  | [] => c
  | .write c' :: l => lastContent c' l
  | _ :: l => lastContent c l

/-- The hash that was made last. -/
def lastTag (t : Bytes) : List Ev → Bytes
  | [] => t
  | .notice t' :: l => lastTag t' l
  | _ :: l => lastTag t l

end Fly.Site
