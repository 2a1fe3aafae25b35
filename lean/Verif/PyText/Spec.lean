import Verif.PyText.Model

/-! # What an application expects of its texts -/

namespace Fly.PyText

/-- The field that an element stands for. -/
def field (s : Texts) : Item → Option (Bytes × Bytes)
  | .dict (some (.str n)) (some (.str v)) => some (s n, s v)
  | _ => none

/-- The fields the application gave, if it gave nothing else. -/
def given (s : Texts) : List Item → Option Pairs
  | [] => some []
  | i :: l =>
    match field s i, given s l with
    | some f, some fs => some (f :: fs)
    | _, _ => none

/-- The fields that the response should have. -/
def expected (s : Texts) (c : Call) : Option Pairs := if c.reached then given s c.items else none

def Capital (b : Nat) : Prop := 65 ≤ b ∧ b ≤ 90

/-- The text without capital letters. -/
def small (t : Bytes) : Bytes := t.map fun b => if 65 ≤ b ∧ b ≤ 90 then b + 32 else b

/-- No name in the list has a capital letter. -/
def SmallNames (s : Texts) (items : List Item) : Prop := ∀ n v, Item.dict (some (.str n)) v ∈ items → ∀ b ∈ s n, ¬ Capital b

/-- Equal but for capital letters. -/
def Alike : Option Pairs → Option Pairs → Prop
  | none, none => True
  | some a, some b => a.map (fun p => (small p.1, small p.2)) = b.map fun p => (small p.1, small p.2)
  | _, _ => False

end Fly.PyText
