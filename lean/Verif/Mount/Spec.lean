import Verif.Mount.Model

/-! # Specification of the index of mounted files -/

namespace Fly.Mount

/-- Lexicographic order of byte strings, by bytes from the left, a proper prefix being smaller. -/
inductive Before : Bytes → Bytes → Prop where
  | prefix (b : Nat) (r : Bytes) : Before [] (b :: r)
  | byte (a b : Nat) (r s : Bytes) : a < b → Before (a :: r) (b :: s)
  | cons (a : Nat) (r s : Bytes) : Before r s → Before (a :: r) (a :: s)

/-- `p` is `path` without its leading slashes. -/
def Stripped (path p : Bytes) : Prop := ∃ n, path = List.replicate n 47 ++ p ∧ p.head? ≠ some 47

/-- The file a request path asks for: the path without leading slashes, the index if nothing is left. -/
def Wanted (index : Bytes) (path name : Bytes) : Prop :=
  ∃ p, Stripped path p ∧ ((p ≠ [] ∧ name = p) ∨ (p = [] ∧ name = index))

/-- What the allocators guarantee for a history of changes: a new file and a new tree node get an
address that no live file or node has; only live files are removed. -/
def Fair : World → List Change → Prop
  | _, [] => True
  | w, c :: cs =>
    (match c with
      | .add pf a => (∀ f ∈ w.files, f.addr ≠ pf.addr) ∧ (∀ e ∈ w.idx.tree.toList, e.addr ≠ a)
      | .remove p => ∃ f ∈ w.files, f.addr = p) ∧
    ∀ w', change w c = some w' → Fair w' cs

/-- No file is ever added under a name that a mounted file has already. -/
def NoDup : List (Bytes × Nat) → List Change → Prop
  | _, [] => True
  | live, .add pf _ :: cs =>
    (∀ x ∈ live, x.1 ≠ pf.name.1) ∧ NoDup (live ++ [(pf.name.1, pf.addr)]) cs
  | live, .remove p :: cs => NoDup (live.filter (fun x => x.2 != p)) cs

/-- The files that are mounted after a history. -/
def mounted : List PF → List Change → List PF
  | fs, [] => fs
  | fs, .add pf _ :: cs => mounted (fs ++ [pf]) cs
  | fs, .remove p :: cs => mounted (fs.filter (fun f => f.addr != p)) cs

/-- `f` lies below directory `d` of the same mount point. -/
def Below (d f : PF) : Prop := f.mount = d.mount ∧ ∃ r, f.name.1 = d.name.1 ++ 47 :: r

end Fly.Mount
