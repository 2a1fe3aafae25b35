import Verif.Serve.Model

/-! # What clients and the application may rely on -/

namespace Fly.Serve
open ReqEvent (Rcv St Reply Msg)
open Trip (Seen Each)

/-- The states before and after each request of connection `k`, when the requests were handled one after the other in this order. -/
def stepsOf {S : Type} (a : App S) (k : Nat) : S → List (Nat × Reply) → List (S × S)
  | _, [] => []
  | s, (j, r) :: log => if j = k then (s, a.next s r) :: stepsOf a k (a.next s r) log else stepsOf a k (a.next s r) log

/-- The state after the requests were handled one after the other in this order. -/
def stateAfter {S : Type} (a : App S) (s : S) (log : List (Nat × Reply)) : S := log.foldl (fun s e => a.next s e.2) s

/-- The requests of connection `k` in this order. -/
def ofConn (k : Nat) (log : List (Nat × Reply)) : List Reply := (log.filter fun e => e.1 == k).map (·.2)

/-- The functions of the application as they are when it is in this state. -/
def inState {S : Type} (a : App S) (s : S) : Trip.App := { a.base with fns := fun i p => (a.fns i p s).1 }

/-- A request that the application answers in every state, leaving the connection open, in at most `M` bytes. -/
structure Served {S : Type} (a : App S) (M : Nat) (m : Msg) : Prop where
  within : Keep.Within a.base.env m
  method : m.line.method ≠ .head
  makes : ∀ s, ∃ o, Trip.Makes (inState a s) m o ∧ o.Stays
  size : ∀ s r buf, ReqEvent.answer a.base.env m = .reply r → (inState a s).bytes r = some buf → buf.bytes.length ≤ M

/-- Every client with a list of requests makes only requests that the application answers, each in pieces that give the request. -/
def Proper {S : Type} (a : App S) (M : Nat) (plan : Nat → Option (List (Msg × List Rcv))) : Prop :=
  ∀ k ms, plan k = some ms → ∀ p ∈ ms, Served a M p.1 ∧ Keep.Arrives p.1 p.2

/-- The kernel takes nothing, or, after any number of blocked calls, a whole response. -/
def Whole (M : Nat) (ss : List Send.Sys) : Prop := ∃ b, ss = List.replicate b .block ∨ ∃ n, M ≤ n ∧ ss = List.replicate b .block ++ [.sent n]

/-- The kernel takes the responses of the clients with a list of requests as a whole.  (Other clients may be slow readers, see C16.) -/
def Fair (M : Nat) (plan : Nat → Option (List (Msg × List Rcv))) (es : List Ev) : Prop := ∀ k ss, Ev.poll k ss ∈ es → (plan k).isSome → Whole M ss

/-- What a client sees as the response to a request that was handled in state `s`: what the function made of it then. -/
def Answer {S : Type} (a : App S) (m : Msg) (s : S) (o : Seen) : Prop :=
  ∃ out, Trip.Makes (inState a s) m out ∧ Trip.Shown (inState a s) ⟨m, [], 0, 0, out⟩ o

/-- How a request changes the state: as the function of its route does with exactly what the client sent; not at all if there is none. -/
def Effect {S : Type} (a : App S) (m : Msg) (s s' : S) : Prop :=
  (∃ f ps, Trip.Chosen a.base m.line.uri m.line.method f ps ∧ s' = (a.fns f (Trip.dictionary m ps) s).2) ∨
  (Trip.Unserved a.base m.line.uri m.line.method ∧ s' = s)

/-- The requests that were handled, and how each changed the state. -/
abbrev Handled {S : Type} (a : App S) (ms : List Msg) (steps : List (S × S)) : Prop := Each (fun m p => Effect a m p.1 p.2) ms steps

/-- The responses the client has read are those to its first requests, each made in the state in which the request was handled. -/
abbrev Answered {S : Type} (a : App S) (ms : List Msg) (steps : List (S × S)) (os : List Seen) : Prop :=
  Each (fun x o => Answer a x.1 x.2.1 o) ((ms.zip steps).take os.length) os

/-- How often the worker turned to connection `k` and the kernel took what it wrote, if it wrote. -/
def turns (k : Nat) (es : List Ev) : Nat :=
  es.countP fun
    | .poll j ss => j == k && (match ss.getLast? with | some (.sent _) => true | _ => false)
    | _ => false

end Fly.Serve
