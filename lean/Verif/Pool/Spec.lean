import Verif.Pool.Model

/-! # What a pool is to its users -/

namespace Fly.Pool
open Fly.Link (Links)

inductive Op where
  /-- allocate; `malloc` returns `b` for the pool's own record, `e` for the memory handed out and `n` for a node of the index -/
  | alloc (b e n : Nat)
  /-- free any address, handed out by this pool or not -/
  | free (p : Nat)
  deriving Repr

/-- The addresses in the hands of the user. -/
def specStep (live : List Nat) : Op → List Nat
  | .alloc _ e _ => live ++ [e]
  | .free p => live.filter fun x => x ≠ p

def step (s : Pool) : Op → Option Pool
  | .alloc b e n => (alloc s b e n).map (·.1)
  | .free p => pbfree s p

def run : Pool → List Op → Option Pool
  | s, [] => some s
  | s, o :: os => (step s o).bind fun s => run s os

/-- The contract of `malloc`: it returns no address that is still allocated (`s.live`, or as a node of the index). -/
def MallocOk (s : Pool) : Op → Prop
  | .alloc b e n => b ∉ s.live ∧ e ∉ s.live ∧ b ≠ e ∧ ∀ x ∈ s.index.tree.toList, x.addr ≠ n
  | .free _ => True

def AllMallocOk : Pool → List Op → Prop
  | _, [] => True
  | s, o :: os => MallocOk s o ∧ ∀ s', step s o = some s' → AllMallocOk s' os

end Fly.Pool
