import Verif.H2Frame.Model

/-! # WINDOW_UPDATE frames on their way to the client (`src/v2.c`)

The WINDOW_UPDATEs of one stream, with the bytes the socket takes.

Simplifications: other frames do not wait; the connection does not fail. -/

namespace Fly.H2Credit

/-- A waiting WINDOW_UPDATE: its size field, and whether its header has gone out (`send_fase`). -/
structure Waiting where
  size : Nat
  inPayload : Bool := false
  deriving DecidableEq, Repr

/-- The retry loop of `fly_send_window_update_frame`, src/v2.c:1336-1354: a waiting WINDOW_UPDATE that can be combined is released, whether it has begun to go out or not, and its size added.  `fuel` is the number of
frames that wait (each turn removes one).  The sum is a `uint32_t`. -/
def combine : Nat → List Waiting → Nat → List Waiting × Nat
  | 0, q, u => (q, u)
  | fuel + 1, q, u =>
    match q.findIdx? fun f => decide ((u + f.size) % 2 ^ 32 ≤ H2.windowSizeMax) with
    | none => (q, u)
    | some i =>
      match q[i]? with
      | some f => combine fuel (q.eraseIdx i) ((u + f.size) % 2 ^ 32)
      | none => (q, u)

/-- `fly_send_window_update_frame`, src/v2.c:1319-1376. -/
def credit (q : List Waiting) (u : Nat) : List Waiting :=
  let r := combine q.length q u
  r.1 ++ [⟨H2.read31nb (H2.windowPayload r.2 false), false⟩]

/-- `FLY_HV2_FRAME_TYPE_WINDOW_UPDATE`, src/v2.h. -/
def typeWindowUpdate : Nat := 8

/-- The frame header, src/v2.c:1335. -/
def header (sid : Nat) : Bytes := H2.frameHeader 4 typeWindowUpdate 0 false sid

/-- `fly_state_send_frame`, src/v2.c:2882-2985, with `__fly_send_frame`, 3280-3363, while the socket takes `k` bytes and no more: what is written and what waits then.  In the payload `total` begins at 0 again,
and so it does in the header. -/
def push (sid : Nat) : Nat → List Waiting → Bytes × List Waiting
  | _, [] => ([], [])
  | k, f :: q =>
    let h := if f.inPayload then [] else header sid
    if k < h.length then (h.take k, f :: q)
    else
      let p := H2.windowPayload f.size false
      if k - h.length < p.length then (h ++ p.take (k - h.length), ⟨f.size, true⟩ :: q)
      else
        let r := push sid (k - h.length - p.length) q
        (h ++ p ++ r.1, r.2)

/-- What happens: `u` bytes are credited, or the socket takes `k` bytes. -/
inductive Step where
  | credit (u : Nat)
  | push (k : Nat)
  deriving DecidableEq, Repr

/-- A history: what has been written, what waits. -/
def run (sid : Nat) (q : List Waiting) : List Step → Bytes × List Waiting
  | [] => ([], q)
  | .credit u :: h => run sid (credit q u) h
  | .push k :: h =>
    let r := push sid k q
    let r' := run sid r.2 h
    (r.1 ++ r'.1, r'.2)

end Fly.H2Credit
