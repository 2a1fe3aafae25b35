import Verif.Header.Model

/-! # Specification: what the fields of a HTTP/1 request say about its body -/

namespace Fly.BodyLen

/-- The same letter, or the same ASCII letter in the other case. -/
def SameLetter (a b : Nat) : Prop := a = b ∨ (65 ≤ a ∧ a ≤ 90 ∧ a + 32 = b) ∨ (65 ≤ b ∧ b ≤ 90 ∧ b + 32 = a)

/-- The same text up to the case of ASCII letters. -/
def SameText : Bytes → Bytes → Prop
  | [], [] => True
  | x :: a, y :: b => SameLetter x y ∧ SameText a b
  | _, _ => False

/-- The number a string of decimal digits stands for. -/
def number (s : Bytes) : Nat := s.foldl (fun a c => 10 * a + (c - 48)) 0

/-- A decimal number. -/
def Digits (v : Bytes) : Prop := v ≠ [] ∧ ∀ c ∈ v, 48 ≤ c ∧ c ≤ 57

/-- The fields of a request, in the order received, in the list kept by the server. -/
def received (ps : List (Bytes × Bytes)) : Header.HList := ps.foldl (fun h p => Header.addRequest h p.1 p.2) Header.HList.init

end Fly.BodyLen
