import Verif.H2Ack.Spec

/-! # What a client has not acknowledged -/

namespace Fly.H2A

/-- How many SETTINGS frames of the server have been sent since the last acknowledgement, if `n` had been and those of `w` were waiting (`waits`) at the beginning. -/
def sentSince (w : List Bool) (n : Nat) : List Step → Nat
  | [] => n
  | .ack :: h => sentSince w 0 h
  | .flush k :: h => sentSince (w.drop k) (n + (w.take k).count true) h
  | x :: h => sentSince (waits w x) n h

end Fly.H2A
