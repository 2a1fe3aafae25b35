import Verif.Basic

/-! # What users expect of log files -/

namespace Fly.Log

/-- A line of text: no NUL, and a line break at its end only. -/
def IsLine (l : Bytes) : Prop := ∃ t, l = t ++ [10] ∧ 10 ∉ t ∧ 0 ∉ t

/-- A file as an editor shows it: its lines, with their line breaks; what is behind the last line break is a line without one. -/
def readLines : Bytes → List Bytes
  | [] => []
  | c :: r =>
    if c = 10 then [10] :: readLines r
    else
      match readLines r with
      | [] => [[c]]
      | l :: ls => (c :: l) :: ls

/-- A printed offset in seconds. -/
def offset (plus : Bool) (h m : Nat) : Int := if plus then ((h * 3600 + m * 60 : Nat) : Int) else - ((h * 3600 + m * 60 : Nat) : Int)

end Fly.Log
