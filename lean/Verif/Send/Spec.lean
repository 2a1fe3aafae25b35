import Verif.Send.Model

/-! # Schedules -/

namespace Fly.Send

/-- How many calls of a schedule take at least one byte. -/
def taking : List Sys → Nat
  | [] => 0
  | .sent 0 :: ss => taking ss
  | .sent (_ + 1) :: ss => taking ss + 1
  | _ :: ss => taking ss

theorem taking_append (a b : List Sys) : taking (a ++ b) = taking a + taking b := by
  induction a with
  | nil => simp [taking]
  | cons s ss ih =>
    cases s with
    | sent n => cases n <;> simp only [List.cons_append, taking, ih] <;> omega
    | _ => simpa only [List.cons_append, taking] using ih

theorem taking_blocks (k : Nat) (ss : List Sys) : taking (List.replicate k .block ++ ss) = taking ss := by
  induction k with
  | zero => simp
  | succ k ih => simpa only [List.replicate_succ, List.cons_append, taking] using ih

end Fly.Send
