import Verif.Basic

/-! # C library functions on strings, shared by several areas

Strings are byte lists without the terminating NUL. -/

namespace Fly

/-- `isspace` in the C locale: space, \t \n \v \f \r. -/
def isSpace (b : Nat) : Bool := b == 32 || (decide (9 ≤ b) && decide (b ≤ 13))

def isDigit (b : Nat) : Bool := decide (48 ≤ b) && decide (b ≤ 57)

/-- The digits at the front of `s`, added to `acc`. -/
def digitsVal : Nat → Bytes → Nat
  | acc, [] => acc
  | acc, b :: s => if isDigit b then digitsVal (acc * 10 + (b - 48)) s else acc

/-- `atoll`/`atol`/`atoi`: optional white space, optional sign, digits.  Numbers too large for the C type
(undefined in C) are not cut. -/
def atoll (s : Bytes) : Int :=
  match s.dropWhile isSpace with
  | 45 :: t => - (digitsVal 0 t : Int)
  | 43 :: t => digitsVal 0 t
  | t => digitsVal 0 t

end Fly
