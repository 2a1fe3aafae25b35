import Verif.Nego.Spec
import Verif.Nego.Model
import Verif.Site.Spec

/-! # What a client that says what it takes sees of a site -/

namespace Fly.Nego
open ReqEvent (Msg)
open Header (Pairs)
open Site (Site)
open Trip (Seen CfgOk)

/-- The header fields of a request with their names in lower case. -/
def told (m : Msg) : Pairs := m.fields.map fun p => (Trip.lowerCase p.1, p.2)

/-- A request with all that belongs to it, and what its fields say. -/
structure Turn where
  ask : Site.Exchange
  wish : Wish

/-- A file that is kept encoded is not kept in a coding the client refuses. -/
def KeptAs (w : Wish) : Site.Outcome → Prop
  | .file f => ∀ k e c, f.pre = some (k, e) → code c = k → ¬ w.Refuses c
  | _ => True

/-- A proper turn: a request that says what it accepts in a form the server understands, and, if that is refused, has no content. -/
structure Turn.Proper (s : Site) (mem : Nat → Nat) (t : Turn) : Prop where
  good : t.ask.msg.Good
  says : Says (told t.ask.msg) t.wish
  plain : Header.expect100 t.ask.msg.header = false
  fits : t.ask.msg.body.length ≤ s.app.maxLen
  arrives : Keep.Arrives t.ask.msg t.ask.pieces
  served : t.wish.Met → Site.Makes s t.ask.msg t.ask.now t.ask.out ∧ t.ask.out.Stays ∧ KeptAs t.wish t.ask.out
  refused : ¬ t.wish.Met → t.ask.msg.body = [] ∧ CfgOk s.app.cfg0 ∧ s.app.cfg0.dflt 406 = none
  fitting : ∀ b bs r, ReqEvent.answer s.full.env t.ask.msg = .reply r →
    s.bytes t.ask.now mem (.handler 0 t.ask.msg.line t.ask.msg.header b) r = some bs → bs.length ≤ t.ask.room

/-- The header fields the application gives its response. -/
def own : Site.Outcome → Pairs
  | .app (.response _ _ hs _ _) => hs
  | _ => []

/-- What the client should see: 406 if it refuses everything; otherwise what it asked for, in no coding it does not take but where the application itself says so. -/
def Turn.Shown (s : Site) (t : Turn) (o : Seen) : Prop :=
  (t.wish.Met → Site.Shown s t.ask o ∧
    ∀ p ∈ o.2.1, p.1 = b!"Content-Encoding" → p ∈ own t.ask.out ∨ ∃ k, p.2 = Encode.nameOf k ∧ t.wish.Takes k) ∧
  (¬ t.wish.Met → o = (b!"HTTP/1.1 406 Not Acceptable",
    [(b!"Server", b!"fly"), (b!"Date", s.app.cfg0.date), (b!"Connection", b!"keep-alive"), (b!"Content-Length", b!"0")], []))

end Fly.Nego
