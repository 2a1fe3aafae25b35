import Verif.RBTree.Model

/-! # Specification of the ordered index: a finite map with owner handles

Independent of the tree: the abstract index is just the list of live items. -/

namespace Fly.RB

variable {K D : Type}

/-- The comparison callback is a total order that reports `eq` exactly on identical keys. -/
structure LawfulCmp (cmp : K → K → Ordering) : Prop where
  eq_iff : ∀ a b, cmp a b = .eq ↔ a = b
  lt_iff_gt : ∀ a b, cmp a b = .lt ↔ cmp b a = .gt
  lt_trans : ∀ a b c, cmp a b = .lt → cmp b c = .lt → cmp a c = .lt

/-- A live item of the abstract index. -/
structure Item (K D : Type) where
  key : K
  data : D
  handle : Option Nat
  deriving DecidableEq, Repr

/-- Operations offered to the users of the index.  `a` is the address malloc returns. -/
inductive Op (K D : Type) where
  /-- insert `key ↦ data`, remembering the node in the owner's variable `h` -/
  | insert (a : Nat) (k : K) (d : D) (h : Option Nat)
  /-- delete through the owner's variable -/
  | deleteHandle (h : Nat)
  /-- look the key up and delete the node found, if any -/
  | deleteKey (k : K)

/-- What each operation means for the set of live items. -/
def specStep [DecidableEq K] (m : List (Item K D)) : Op K D → List (Item K D)
  | .insert _ k d h => if ∃ i ∈ m, i.key = k then m else m ++ [⟨k, d, h⟩]
  | .deleteHandle h => m.filter fun i => i.handle ≠ some h
  | .deleteKey k => m.filter fun i => i.key ≠ k

/-- Abstract lookup. -/
def specFind [DecidableEq K] (m : List (Item K D)) (k : K) : Option (Item K D) :=
  m.find? fun i => i.key = k

/-- The model's meaning of an operation. -/
def step (cmp : K → K → Ordering) (s : State K D) : Op K D → Option (State K D)
  | .insert a k d h => (s.insert cmp a k d h).map (·.1)
  | .deleteHandle h =>
    match s.handles h with
    | none => none                       -- NULL node pointer
    | some a => s.delete a
  | .deleteKey k =>
    match find cmp k s.tree with
    | none => some s
    | some e => s.delete e.addr

/-- Run a history. -/
def run (cmp : K → K → Ordering) : State K D → List (Op K D) → Option (State K D)
  | s, [] => some s
  | s, op :: ops =>
    match step cmp s op with
    | none => none
    | some s' => run cmp s' ops

/-- What the caller and malloc guarantee for one operation: malloc does not return the address of
a live node, an owner variable is not shared by two live items, and only a variable that owns a
live item is used for deletion. -/
def okOp (s : State K D) (m : List (Item K D)) : Op K D → Prop
  | .insert a _ _ h => (∀ e ∈ s.tree.toList, e.addr ≠ a) ∧ (∀ i ∈ m, h = none ∨ i.handle ≠ h)
  | .deleteHandle h => ∃ i ∈ m, i.handle = some h
  | .deleteKey _ => True

/-- A history all of whose operations respect `okOp`. -/
def Valid [DecidableEq K] (cmp : K → K → Ordering) :
    State K D → List (Item K D) → List (Op K D) → Prop
  | _, _, [] => True
  | s, m, op :: ops =>
    okOp s m op ∧ ∀ s', step cmp s op = some s' → Valid cmp s' (specStep m op) ops

/-- The abstract index after a history. -/
def specRun [DecidableEq K] (m : List (Item K D)) (ops : List (Op K D)) : List (Item K D) :=
  ops.foldl specStep m

end Fly.RB
