import Verif.Master.Model

/-! # What a user expects of the master process -/

namespace Fly.Master

/-- The configured number of workers: the wanted number, but not more than the maximum. -/
def configured (req max : Int) : Nat := (if req ≤ max then req else max).toNat

/-- A worker that ends in a way that is not meant to end the server: success, an error of its own (status 12),
or a signal. -/
def Benign (c : Change) : Prop :=
  c = .exited 0 ∨ c = .exited 12 ∨ c = .killed ∨ c = .dumped

/-- Only ends of workers, and the master reading its signals. -/
def OnlyEnds (es : List Ev) : Prop :=
  ∀ e ∈ es, e = .handle ∨ ∃ p c, e = .child p c ∧ (Benign c ∨ ∃ n, c = .exited n)

/-- Workers end one after the other, and the master hears of each before the next. -/
def oneByOne (es : List (Nat × Change)) : List Ev := es.flatMap (fun e => [.child e.1 e.2, .handle])

end Fly.Master
