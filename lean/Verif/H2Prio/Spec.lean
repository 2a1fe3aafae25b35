import Verif.H2Prio.Model

/-! # What a client may expect of PRIORITY frames (RFC 7540 §5.3) -/

namespace Fly.H2P

/-- The streams met by following the successor pointers `k` times from `a`. -/
def follow (h : Heap) : Nat → Nat → List Nat
  | 0, _ => []
  | k + 1, a => a :: (match h a with | some n => follow h k n.next | none => [])

/-- The streams recorded as depending on `p`: from its first dependent stream around the ring. -/
def ringIs (h : Heap) (p : Nat) (sids : List Nat) : Prop :=
  ∃ n, h p = some n ∧ match sids with
    | [] => n.count = 0
    | s :: _ => n.count ≠ 0 ∧ n.deps = s ∧ follow h (sids.length + 1) s = sids ++ [s]

/-- The weight a client gives with the octet `w` (RFC 7540 §6.3: "Add one to the value to obtain a
weight between 1 and 256"). -/
def rfcWeight (w : Nat) : Nat := w + 1

/-- No frame is heavier than one that came two or more frames before it. -/
def Falling (fs : List Frame) : Prop := ∀ pre mid post f g, fs = pre ++ f :: (mid ++ g :: post) → mid ≠ [] →
  storedWeight g.weight ≤ storedWeight f.weight

/-- Processing that never ends, however many rounds it is given. -/
def Forever (h : Heap) (fs : List Frame) : Prop := ∀ fuel, onFrames fuel h fs = .running

/-- Finished, with a memory that passes the test `p` (for examples). -/
def Res.doneWith (p : Heap → Bool) : Res → Bool
  | .done h => p h
  | _ => false

def Res.isCrash : Res → Bool
  | .crash => true
  | _ => false

def Res.isRunning : Res → Bool
  | .running => true
  | _ => false

end Fly.H2P
