import Verif.H2Serve.Model
import Verif.H2Wire.Spec
import Verif.Serve.Spec

/-! # What HTTP/2 clients and the application may rely on -/

namespace Fly.H2Serve
open H2Wire (Arrival Client Says Holds Setting Starts)
open H2Refuse (Step)
open Site (Site)
open Trip (Chosen Unserved)

/-- The site as it is when the application is in this state. -/
def inState {S : Type} (a : Host S) (s : S) : Site := Nego.negotiating ⟨Serve.inState a.app s, a.files, a.read⟩

/-- How a request changes the state: as the function of its route does with exactly what the client sent; not at all if there is none or the request is refused. -/
def Effect {S : Type} (a : Host S) : Step → S → S → Prop
  | .turn t, s, s' =>
    (t.wish.Met → (∃ f ps, Chosen a.app.base t.ask.ask.path t.ask.ask.method f ps ∧ s' = (a.app.fns f (H2Trip.dictionary t.ask.ask ps) s).2) ∨
      (Unserved a.app.base t.ask.ask.path t.ask.ask.method ∧ s' = s)) ∧
    (¬ t.wish.Met → s' = s)
  | _, s, s' => s' = s

/-- A request, its connection, and the state before and after. -/
structure Done (S : Type) where
  conn : Nat
  step : Step
  before : S
  after : S

/-- The requests one after the other lead from one state to another. -/
inductive Serial {S : Type} : S → List (Done S) → S → Prop where
  | nil (s : S) : Serial s [] s
  | cons (d : Done S) (ds : List (Done S)) (s : S) : Serial d.after ds s → Serial d.before (d :: ds) s

/-- Client `i` is now like this. -/
def put (cs : Nat → Option Client) (i : Nat) (c : Client) : Nat → Option Client := fun j => if j = i then some c else cs j

/-- The frames of any number of clients, in any order: each client begins with its settings and goes on as in C199.  The requests are listed in the order in which
they are complete; each is a proper one for the application in the state in which the requests before, of all clients, have left it. -/
inductive Talks {S : Type} (a : Host S) (p : Setup) : S → (Nat → Option Client) → List (Nat × Arrival) → List (Done S) → Prop where
  | done (s : S) (cs : Nat → Option Client) : Talks a p s cs [] []
  | hello (s : S) (cs : Nat → Option Client) (i : Nat) (f : Arrival) (ss : List (Nat × Nat)) (init : Nat) (es : List (Nat × Arrival)) (ds : List (Done S)) :
      cs i = none → Holds f.place 4 0 0 (H2.wireSettings ss) → (∀ x ∈ ss, Setting x) → Starts ss init → Talks a p s (put cs i (Client.fresh init)) es ds →
      Talks a p s cs ((i, f) :: es) ds
  | quiet (s : S) (cs : Nat → Option Client) (i : Nat) (c c' : Client) (f : Arrival) (es : List (Nat × Arrival)) (ds : List (Done S)) :
      cs i = some c → Says (inState a s) (p.conn i) p.limit p.maxBody c f [] c' → Talks a p s (put cs i c') es ds → Talks a p s cs ((i, f) :: es) ds
  | asks (s s' : S) (cs : Nat → Option Client) (i : Nat) (c c' : Client) (f : Arrival) (x : Step) (es : List (Nat × Arrival)) (ds : List (Done S)) :
      cs i = some c → Says (inState a s) (p.conn i) p.limit p.maxBody c f [x] c' → Effect a x s s' → Talks a p s' (put cs i c') es ds →
      Talks a p s cs ((i, f) :: es) (⟨i, x, s, s'⟩ :: ds)

/-- What a client reads: on the stream of its request what the application makes of it in the state in which the requests before have left it. -/
def Read {S : Type} (a : Host S) (p : Setup) (d : Done S) (r : Nat × Nat × Bytes) : Prop :=
  r.1 = d.conn ∧ r.2.1 = d.step.inc.sid ∧ d.step.Answered (inState a d.before) (p.conn d.conn) r.2.2

/-- Of a list with connections: what belongs to connection `i`. -/
def ofConn {α : Type} (i : Nat) (l : List (Nat × α)) : List α := (l.filter fun e => e.1 == i).map (·.2)

end Fly.H2Serve
