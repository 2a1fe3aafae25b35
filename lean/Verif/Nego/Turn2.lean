import Verif.Nego.Turn
import Verif.H2Site.Spec

/-! # The same over HTTP/2 -/

namespace Fly.Nego
open Header (Pairs)
open Site (Site)
open Trip (Seen CfgOk)
open H2Trip (Conn Decodes Takes Shows)
open Hpack (Entry)
open PyBridge (Reads)

/-- A request over HTTP/2 with all that belongs to it, and what its fields say. -/
structure Turn2 where
  ask : H2Site.Exchange
  wish : Wish

/-- A file that is kept encoded is not kept in a coding the client refuses. -/
def KeptAs2 (w : Wish) : H2Site.Outcome → Prop
  | .file f => ∀ k e c, f.pre = some (k, e) → code c = k → ¬ w.Refuses c
  | _ => True

/-- A proper turn. `tab` and `tab'` are what the client has in its table before and after. -/
structure Turn2.Proper (s : Site) (k : Conn) (limit : Nat) (tab tab' : List Entry) (t : Turn2) : Prop where
  says : Says t.ask.ask.fields t.wish
  served : t.wish.Met → H2Site.Proper s k limit tab tab' t.ask ∧ KeptAs2 t.wish t.ask.out
  refused : ¬ t.wish.Met → t.ask.ask.Sound ∧ Decodes limit tab tab' t.ask.inc t.ask.ask.fields ∧ t.ask.inc.discard = false ∧ t.ask.inc.sid < 2 ^ 31 ∧
    0 < s.app.cfg0.threshold ∧ s.app.cfg0.dflt 406 = none ∧ s.app.cfg0.date.length < 127 ∧ (∀ e ∈ tab', ¬ e.1 <+: b!":status") ∧ Takes t.ask.inc.writes 0

/-- The turns of a connection are proper, and the client keeps its table as RFC 7541 says. -/
def Course2 (s : Site) (k : Conn) (limit : Nat) : List Entry → List Turn2 → Prop
  | _, [] => True
  | tab, t :: ts => ∃ tab', t.Proper s k limit tab tab' ∧ Course2 s k limit tab' ts

/-- The header fields the application gives its response. -/
def own2 : H2Site.Outcome → Pairs
  | .app (.response _ _ hs _ _) => hs.map fun p => (Trip.lowerCase p.1, p.2)
  | _ => []

/-- What the client should see: 406 if it refuses everything; otherwise what it asked for, in no coding it does not take but where the application itself says so. -/
def Turn2.Answered (s : Site) (k : Conn) (t : Turn2) (bs : Bytes) : Prop :=
  (t.wish.Met → H2Site.Answered s k t.ask bs ∧ ∀ pre post body, H2Site.Shown s t.ask = some (pre, post, body) →
    ∀ p ∈ pre ++ post, p.1 = b!"content-encoding" → p ∈ own2 t.ask.out ∨ ∃ c, p.2 = Encode.nameOf c ∧ t.wish.Takes c) ∧
  (¬ t.wish.Met → ∃ len, Reads len 0 ∧ Shows k.maxFrame t.ask.inc.sid bs
    [(b!":status", b!"406"), (b!"server", b!"fly"), (b!"date", s.app.cfg0.date), (b!"content-length", len)] [])

end Fly.Nego
