import Verif.H2Credit.Model
import Verif.H2Frame.Spec

/-! # What a client should read -/

namespace Fly.H2Credit

/-- RFC 7540 §6.9: a WINDOW_UPDATE frame of four bytes. -/
def wireUpdate (sid size : Nat) : Bytes :=
  H2.wireHeader 4 8 0 false sid ++ [size / 16777216, size / 65536 % 256, size / 256 % 256, size % 256]

/-- What has been credited. -/
def granted : List Step → Nat
  | [] => 0
  | .credit u :: h => u + granted h
  | .push _ :: h => granted h

/-- Increments RFC 7540 §6.9 allows. -/
def Allowed (u : Nat) : Prop := 1 ≤ u ∧ u ≤ 2147483647

/-- Every credit is allowed, and the socket never stops inside a frame. -/
def Whole : List Step → Prop
  | [] => True
  | .credit u :: h => Allowed u ∧ Whole h
  | .push k :: h => k % 13 = 0 ∧ Whole h

end Fly.H2Credit
