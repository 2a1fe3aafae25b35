import Verif.H2Ack.Model

/-! # What is expected of the exchange of settings

RFC 7540 §6.5: SETTINGS describe the sender; an acknowledgement says that the *receiver* has applied what the
*sender* asked for, so the client's acknowledgement says nothing about what the client wants. -/

namespace Fly.H2A
open Fly.H2 (Settings)

/-- The same history, but for the acknowledgements. -/
def withoutAcks (h : List Step) : List Step := h.filter (· ≠ .ack)

/-- The client's settings after its SETTINGS frames, each applied to the settings before it (what one frame
does is C56). -/
def asked (p : Settings) : List Step → Settings
  | [] => p
  | .settings l _ :: h => asked (peerSettings p l).1 h
  | _ :: h => asked p h

/-- The value in force of the setting with this identifier (RFC 7540 §6.5.2). -/
def value (p : Settings) : Nat → Option Nat
  | 1 => some p.headerTableSize
  | 2 => some p.enablePush
  | 3 => some p.maxConcurrentStreams
  | 4 => some p.initialWindowSize
  | 5 => some p.maxFrameSize
  | 6 => some p.maxHeaderListSize
  | _ => none

/-- The frames waiting to be sent after a step, if those were waiting before: `true` for a SETTINGS frame of
the server, `false` for any other.  A SETTINGS frame of the client is answered by two frames. -/
def waits (w : List Bool) : Step → List Bool
  | .settings _ _ => w ++ [true, false]
  | .ack => w
  | .other => w ++ [false]
  | .flush n => w.drop n

/-- … and after a history. -/
def waitsAll (w : List Bool) (h : List Step) : List Bool := h.foldl waits w

/-- The frames sent during a history. -/
def told (w : List Bool) : List Step → List Bool
  | [] => []
  | .flush n :: h => w.take n ++ told (w.drop n) h
  | x :: h => told (waits w x) h

/-- No acknowledgement comes while a SETTINGS frame of the server is waiting to be sent. -/
def Calm (w : List Bool) : List Step → Prop
  | [] => True
  | .ack :: h => true ∉ w ∧ Calm w h
  | x :: h => Calm (waits w x) h

/-- A client that keeps to the protocol: it acknowledges what has been sent to it, once.  `n` SETTINGS frames
have been sent to it and not been acknowledged. -/
def Compliant (w : List Bool) (n : Nat) : List Step → Prop
  | [] => True
  | .ack :: h => 0 < n ∧ Compliant w (n - 1) h
  | .flush k :: h => Compliant (w.drop k) (n + (w.take k).count true) h
  | x :: h => Compliant (waits w x) n h

/-- Is it a SETTINGS frame of the client? -/
def Step.isSettings : Step → Bool
  | .settings _ _ => true
  | _ => false

/-- The memory of every payload is as long as the payload. -/
def Roomy (env : List (Nat × Nat)) (h : List Step) : Prop :=
  ∀ x ∈ h, match x with
    | .settings _ mem => 6 * env.length ≤ mem.length
    | _ => True

def Block.isPayload : Block → Bool
  | .payload _ => true
  | .frame _ => false

/-- The values RFC 9113 §6.5.2 allows: ENABLE_PUSH is 0 or 1, INITIAL_WINDOW_SIZE below 2^31; MAX_FRAME_SIZE (5) and
MAX_HEADER_LIST_SIZE (6), which the server treats otherwise (C56), are not looked at. -/
def Allowed (q : Nat × Nat) : Prop := (q.1 = 2 → q.2 ≤ 1) ∧ (q.1 = 4 → q.2 ≤ 2147483647)

end Fly.H2A
