import Verif.H2Site.Model
import Verif.Site.Spec
import Verif.H2Trip.Spec

/-! # What a client of a site sees over HTTP/2 -/

namespace Fly.H2Site
open Site (Site Served Unchanged listed)
open Header (Pairs)
open Hpack (Entry)
open PyBridge (Cfg Reads)
open Response (Coding)
open Trip (Unserved)
open H2Trip (Ask Conn Incoming cells Carries Takes Apart Shows size)

/-- The coding in which a file is to be sent: that of the form encoded in advance, if the client accepts it; otherwise the negotiated one, for a file that is not below the threshold. -/
def fileCoding (c : Cfg) (f : Served) (content : Bytes) : Option Coding :=
  match f.pre.filter fun p => c.acc.matching p.1 with
  | some p => some p.1
  | none => if c.threshold ≤ content.length then c.acc.decided else none

/-- The form of the file that is to be sent. -/
def fileBody (c : Cfg) (f : Served) (content : Bytes) : Bytes :=
  match fileCoding c f content with
  | some k => c.compress k content
  | none => content

/-- The server is able to send the file: its coding is a proper one with a result that is neither empty nor too long; a file that is sent as it is has no form encoded in advance
(`C194_stored_form_refuted`), is not empty (`C194_empty_file_refuted`) and has at most 4096 bytes (`C194_long_file_refuted`). -/
def Deliverable (c : Cfg) (f : Served) (content : Bytes) : Prop :=
  match fileCoding c f content with
  | some k => k ≠ 0 ∧ c.compress k content ≠ [] ∧ c.overflow (c.compress k content) = false
  | none => f.pre = none ∧ content ≠ [] ∧ content.length ≤ 4096

/-- What a request is about. -/
inductive Outcome where
  /-- the application -/
  | app (o : Trip.Outcome)
  /-- a file, asked for with GET -/
  | file (f : Served)
  /-- a file or directory, asked for with another method -/
  | notAllowed

/-- A request, how it is with the server, the contents of the files then, and what it is about. -/
structure Exchange where
  ask : Ask
  inc : Incoming
  now : Bytes → Bytes
  out : Outcome

/-- The fields of the request as a header list. -/
def Exchange.header (x : Exchange) : Header.HList := ⟨cells x.inc.alloc x.ask.fields, (cells x.inc.alloc x.ask.fields).length⟩

/-- What the server brings to the response. -/
def Exchange.cfg (s : Site) (x : Exchange) : Cfg :=
  match x.out with
  | .app o => H2Trip.Outcome.cfg s.full x.header o
  | .file _ => s.app.cfg x.header
  | .notAllowed => s.app.cfg0

/-- This is what the request is about. -/
def Makes (s : Site) (x : Exchange) : Prop :=
  match x.out with
  | .app o => x.ask.method ≠ .head ∧ H2Trip.Makes s.full x.ask (x.cfg s) o
  | .file f =>
    Unserved s.full x.ask.path x.ask.method ∧ x.ask.method = .get ∧ s.files x.ask.path = some f ∧ f.dir = false ∧
      Unchanged (x.cfg s) f (x.now x.ask.path) ∧ Deliverable (x.cfg s) f (x.now x.ask.path)
  | .notAllowed =>
    Unserved s.full x.ask.path x.ask.method ∧ x.ask.method ≠ .get ∧ (∃ f, s.files x.ask.path = some f) ∧ s.app.cfg0.dflt 405 = none

/-- The value of `allow`. -/
def allow (s : Site) (x : Exchange) : Bytes := Site.joinMethods (Site.validMethods s.app.table x.ask.path)

/-- What the client should see: the fields before and after `content-length`, and the content. -/
def Shown (s : Site) (x : Exchange) : Option (Pairs × Pairs × Bytes) :=
  match x.out with
  | .app o => (H2Trip.Shown (x.cfg s) o).map fun p => (p.1, [], p.2)
  | .file f =>
    some ([(b!":status", b!"200")],
      [(b!"etag", f.tag), (b!"date", (x.cfg s).date), (b!"last-modified", f.modified), (b!"content-type", f.mime)] ++
        (fileCoding (x.cfg s) f (x.now x.ask.path)).toList.map fun k => (b!"content-encoding", (x.cfg s).encName k),
      fileBody (x.cfg s) f (x.now x.ask.path))
  | .notAllowed =>
    some ([(b!":status", b!"405"), (b!"allow", allow s x), (b!"server", b!"fly"), (b!"date", s.app.cfg0.date)], [], [])

/-- A proper exchange.  `tab` and `tab'` are what the client has in its table before and after. -/
structure Proper (s : Site) (k : Conn) (limit : Nat) (tab tab' : List Entry) (x : Exchange) : Prop where
  good : x.ask.Good
  carries : Carries limit tab tab' x.inc x.ask
  sid : x.inc.sid < 2 ^ 31
  threshold : 0 < (x.cfg s).threshold
  codings : ∀ c b, (x.cfg s).compress c b ≠ []
  makes : Makes s x
  /-- the fields are of a kind the server can encode (see C61), not too long, and cannot be taken for those in the client's table -/
  fields : ∀ pre post body, Shown s x = some (pre, post, body) → (∀ p ∈ pre ++ post, Hpack.okHeader p) ∧ size (pre ++ post) ≤ 960 ∧ Apart tab' (pre ++ post)
  takes : ∀ pre post body, Shown s x = some (pre, post, body) → Takes x.inc.writes body.length
  /-- the content is smaller than the windows and fits in a frame -/
  roomy : ∀ pre post body, Shown s x = some (pre, post, body) → body ≠ [] →
    (body.length : Int) < x.inc.win.stream ∧ (body.length : Int) < x.inc.win.conn ∧ body.length ≤ k.maxFrame

/-- The exchanges of a connection are proper, and the client keeps its table as RFC 7541 says. -/
def Course (s : Site) (k : Conn) (limit : Nat) : List Entry → List Exchange → Prop
  | _, [] => True
  | tab, x :: xs => ∃ tab', Proper s k limit tab tab' x ∧ Course s k limit tab' xs

/-- The client sees what it should. -/
def Answered (s : Site) (k : Conn) (x : Exchange) (bs : Bytes) : Prop :=
  ∃ pre post body len, Shown s x = some (pre, post, body) ∧ Reads len body.length ∧ b!"GET" ∈ listed (allow s x) ∧
    Shows k.maxFrame x.inc.sid bs (pre ++ [(b!"content-length", len)] ++ post) body

end Fly.H2Site
