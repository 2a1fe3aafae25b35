import Verif.PyCors.Model
import Verif.PyRoute.Spec
import Verif.PyBridge.Spec

/-! # What the CORS decorators promise -/

namespace Fly.PyCors
open PyRoute (Str Hdr Route)
open PyRoute.Spec (corsWanted)

/-- The text is the number `n` in decimal notation. -/
def Decimal (s : Str) (n : Int) : Prop :=
  (0 ≤ n ∧ PyBridge.Reads s n.natAbs) ∨ (n < 0 ∧ ∃ t, s = 45 :: t ∧ PyBridge.Reads t n.natAbs)

/-- `@all_allow_cors` is `@allow_cors` with these settings: every origin, all methods, with credentials, also in production. -/
def everything : Settings :=
  ⟨b!"*", [b!"GET", b!"POST", b!"HEAD", b!"OPTIONS", b!"PUT", b!"DELETE", b!"TRACE", b!"PATCH"].map .str, [], [], true, none, false⟩

/-- Among the decorators of a definition (the lowest first) one asks for CORS with settings `s` for the route with this path and method: the last route below it. -/
def Asks (ds : List Deco) (s : Settings) (path method : Str) (debugRoute : Bool) : Prop :=
  ∃ below od between d above, ds = below ++ .route path method debugRoute od :: between ++ d :: above ∧ (∀ p m a b, Deco.route p m a b ∉ between) ∧
    (d = .allow s ∨ (d = .allowAll ∧ s = everything))

/-- The fields the responses of the route should have. -/
def fields (s : Settings) (methods : List Str) : List (Str × Str) := corsWanted s.origin methods s.allow s.expose s.credentials

/-- The fields of the answer to a preflight request. -/
def PreflightFields (s : Settings) (methods : List Str) (l : List (Str × Str)) : Prop :=
  match s.maxAge with
  | none => l = fields s methods
  | some n => ∃ v, Decimal v n ∧ l = fields s methods ++ [(b!"Access-Control-Max-Age", v)]

def pairs (l : List Hdr) : List (Str × Str) := l.map fun h => (h.name, h.value)

/-- The definition has a route decorator with this path. -/
def HasRoute (ds : List Deco) (path method : Str) : Prop := ∃ a b, Deco.route path method a b ∈ ds

end Fly.PyCors
