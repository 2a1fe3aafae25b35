import Verif.H2Wire.Model

/-! # From the bytes of an HTTP/2 client to its frames

The receiving end of `fly_hv2_request_event_handler` (src/v2.c:1632-2130): bytes are appended to the buffer of the connection as they arrive
(`fly_receive_v2`, src/v2.c:524-633), and the loop takes one frame after the other out of it as long as complete frames are there. -/

namespace Fly.H2Feed

open Buffer (Cursor)

/-- A frame as it is handled. -/
structure Raw where
  type : Nat
  flags : Nat
  sid : Nat
  payload : Bytes
  deriving DecidableEq, Repr

/-- One turn of the loop. -/
inductive Turn where
  /-- `goto blocking`: wait for more -/
  | wait
  /-- the frame is longer than allowed: GOAWAY with PROTOCOL_ERROR -/
  | tooLong
  /-- a null pointer is followed -/
  | undef
  /-- the frame is handled and taken out of the buffer, these bytes are left -/
  | frame (f : Raw) (left : Bytes)
  deriving DecidableEq, Repr

/-- One turn, src/v2.c:1647-1651 (is there a frame header?), 1664-1679 and 1743-1744 (the frame header and the payload), 1744-1751 (is it too long, has all of it arrived?)
and 2087-2095 (`fly_buffer_chain_release_from_length`).  `b` are the bytes in use (`conn->buffer->use_len`), `lay` tells in which pieces of memory they lie and what is
behind them.  Simplification: what the frame does is in Verif.H2Wire. -/
def turn (lay : Bytes → Cursor) (max : Nat) (b : Bytes) : Turn :=
  if b.length < 9 then .wait
  else
    match H2Wire.headOf (lay b) with
    | none => .undef
    | some h =>
      if max < h.length then .tooLong
      else if b.length < 9 + h.length then .wait
      else
        match h.payload with
        | none => .undef
        | some p =>
          match Buffer.memcpy h.length p with
          | none => .undef
          | some d => .frame ⟨h.type, h.flags, h.sid, d⟩ (b.drop (9 + h.length))

/-- How the loop ends. -/
inductive End where
  | waits (left : Bytes)
  | tooLong
  | undef
  deriving DecidableEq, Repr

/-- The loop, src/v2.c:1634-2128; every frame takes nine bytes at least, so that the number of bytes bounds the turns.  `pause` tells with which frames a response is
begun: then `available_row` has been cleared (src/event.c:392) and the loop ends (1647-1662), whatever is in the buffer.  Simplification: a connection that is ended by what a frame
does (GOAWAY, `goto emergency`) is in Verif.H2Loop. -/
def loop (lay : Bytes → Cursor) (max : Nat) (pause : Raw → Bool) : Nat → Bytes → List Raw × End
  | 0, b => ([], .waits b)
  | n + 1, b =>
    match turn lay max b with
    | .wait => ([], .waits b)
    | .tooLong => ([], .tooLong)
    | .undef => ([], .undef)
    | .frame f left =>
      if pause f then ([f], .waits left)
      else
        let r := loop lay max pause n left
        (f :: r.1, r.2)

/-- The bytes that arrive, read by read: each is appended to the buffer (`fly_receive_v2`, src/v2.c:524-633) and the loop runs.  An empty read stands for an event with which nothing arrives. -/
def feed (lay : Bytes → Cursor) (max : Nat) (pause : Raw → Bool) : Bytes → List Bytes → List Raw × End
  | b, [] => ([], .waits b)
  | b, r :: rs =>
    match loop lay max pause (b ++ r).length (b ++ r) with
    | (fs, .waits left) =>
      let q := feed lay max pause left rs
      (fs ++ q.1, q.2)
    | (fs, e) => (fs, e)

/-- The frames the loop takes, with the places in the buffer where they lie while they are handled (`bufc` in src/v2.c:1664-1743). -/
def loopAt (lay : Bytes → Cursor) (max : Nat) (pause : Raw → Bool) : Nat → Bytes → List (Raw × Cursor)
  | 0, _ => []
  | n + 1, b =>
    match turn lay max b with
    | .frame f left => (f, lay b) :: if pause f then [] else loopAt lay max pause n left
    | _ => []

/-- The same for the bytes of all reads. -/
def feedAt (lay : Bytes → Cursor) (max : Nat) (pause : Raw → Bool) : Bytes → List Bytes → List (Raw × Cursor)
  | _, [] => []
  | b, r :: rs =>
    loopAt lay max pause (b ++ r).length (b ++ r) ++
      match (loop lay max pause (b ++ r).length (b ++ r)).2 with
      | .waits left => feedAt lay max pause left rs
      | _ => []

end Fly.H2Feed
