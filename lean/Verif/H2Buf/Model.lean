import Verif.H2Feed.Model

/-! # The frames of an HTTP/2 client, from its socket through the chunks of the connection buffer

Verif.H2Feed leaves open where the bytes lie.  Here they lie in the buffer of src/buffer.c (Verif.Buffer), chunk by chunk, from the connection preface on. -/

namespace Fly.H2Buf

open Buffer (Buf Chunk)
open H2Feed (Raw)

/-- `fly_buffer_chain_refresh` on the first chunk, src/buffer.c:362-368: all of the chunk may be written again. -/
def refresh (b : Buf) : Buf :=
  match b.chunks with
  | [] => b
  | c :: rest => { b with chunks := { c with useOff := 0, filled := 0 } :: rest }

/-- One turn of the loop, with the buffer that is left. -/
inductive Turn where
  | wait
  | tooLong
  | undef
  | frame (f : Raw) (left : Buf)
  deriving DecidableEq, Repr

/-- One turn of `fly_hv2_request_event_handler`, src/v2.c:1647-1651, 1664-1679, 1743-1751 and 2082-2096: the frame header is read at the first used byte, the frame is released from the first chunk
on and an empty buffer is refreshed.  Simplification: what the frame does is in Verif.H2Wire. -/
def turn (max : Nat) (b : Buf) : Turn :=
  if b.useLen < 9 then .wait
  else
    match Buffer.firstPtr b with
    | none => .undef
    | some c =>
      match H2Wire.headOf c with
      | none => .undef
      | some h =>
        if max < h.length then .tooLong
        else if b.useLen < 9 + h.length then .wait
        else
          match h.payload with
          | none => .undef
          | some p =>
            match Buffer.memcpy h.length p with
            | none => .undef
            | some d =>
              match Buffer.release b (9 + h.length) with
              | none => .undef
              | some b' => .frame ⟨h.type, h.flags, h.sid, d⟩ (if b'.useLen = 0 then refresh b' else b')

/-- How the loop ends. -/
inductive Stop where
  | waits (b : Buf)
  | tooLong
  | undef
  deriving DecidableEq, Repr

/-- The loop, src/v2.c:1634-2128 (as `H2Feed.loop`). -/
def loop (max : Nat) (pause : Raw → Bool) : Nat → Buf → List Raw × Stop
  | 0, b => ([], .waits b)
  | n + 1, b =>
    match turn max b with
    | .wait => ([], .waits b)
    | .tooLong => ([], .tooLong)
    | .undef => ([], .undef)
    | .frame f left =>
      if pause f then ([f], .waits left)
      else
        let r := loop max pause n left
        (f :: r.1, r.2)

/-- What a connection has come to. -/
inductive State where
  /-- it waits for an event; these bytes of the client have not been read yet -/
  | waits (b : Buf) (wire : Bytes)
  /-- the same, before the connection preface -/
  | opening (b : Buf) (wire : Bytes)
  /-- a frame longer than allowed: GOAWAY -/
  | tooLong
  /-- a wrong connection preface: GOAWAY -/
  | refused
  /-- the buffer may not grow any more -/
  | overflow
  /-- the handler does not return -/
  | spins
  /-- a null pointer is followed -/
  | undef
  deriving DecidableEq, Repr

/-- `fly_receive_v2`, src/v2.c:524-633: `recv` returns at most as many bytes as fit behind the last used one (`fly_buffer_lunuse_len`), and `fly_update_buffer` counts them.  `n` is how many
there are at that time at most; with none (`EAGAIN`) the buffer is not touched (571-572). -/
def receive (mem : Nat → Bytes) (b : Buf) (wire : Bytes) (n : Nat) : Option Buffer.Upd :=
  let r := wire.take (min n (Buffer.room b))
  if r = [] then some (.success b) else Buffer.receive mem b r

/-- Event by event, `fly_hv2_request_event_blocking_handler`, src/v2.c:1541-1600: `n` bytes at most are read and the loop runs.  After an event with which nothing arrives the loop runs on what is in the buffer
(a response has been sent, src/v2.c:1647). -/
def feed (mem : Nat → Bytes) (max : Nat) (pause : Raw → Bool) : Buf → Bytes → List Nat → List Raw × State
  | b, wire, [] => ([], .waits b wire)
  | b, wire, n :: ns =>
    match receive mem b wire n with
    | none => ([], .undef)
    | some (.limit _) => ([], .overflow)
    | some (.success b1) =>
      match loop max pause b1.useLen b1 with
      | (fs, .waits b2) =>
        let q := feed mem max pause b2 (wire.drop (min n (Buffer.room b))) ns
        (fs ++ q.1, q.2)
      | (fs, .tooLong) => (fs, .tooLong)
      | (fs, .undef) => (fs, .undef)

/-- `fly_hv2_init_handler`, src/v2.c:635-733, event by event until the preface is there: 670-685 (receive), 687-700 (compare; a wrong one is answered with GOAWAY), 702-706 (the preface is released and the frames
behind it are handled at once), 708-724 (wait).  Simplification: the enlargement of `chain_max` (651-656) is in the buffer given. -/
def start (mem : Nat → Bytes) (max : Nat) (pause : Raw → Bool) : Buf → Bytes → List Nat → List Raw × State
  | b, wire, [] => ([], .opening b wire)
  | b, wire, n :: ns =>
    match receive mem b wire n with
    | none => ([], .undef)
    | some (.limit _) => ([], .overflow)
    | some (.success b1) =>
      let wire1 := wire.drop (min n (Buffer.room b))
      if wire.take (min n (Buffer.room b)) = [] ∧ b1.useLen ≤ 24 then start mem max pause b1 wire1 ns
      else
        match Buffer.initPreface b1 with
        | .crash => ([], .undef)
        | .error => ([], .refused)
        | .wait => if b1.useLen > 24 then ([], .spins) else start mem max pause b1 wire1 ns
        | .ok =>
          match Buffer.release b1 24 with
          | none => ([], .undef)
          | some b2 =>
            match loop max pause b2.useLen b2 with
            | (fs, .waits b3) =>
              let q := feed mem max pause b3 wire1 ns
              (fs ++ q.1, q.2)
            | (fs, .tooLong) => (fs, .tooLong)
            | (fs, .undef) => (fs, .undef)

/-- The frames the loop takes, with the places in the buffer where they lie while they are handled (`bufc` in src/v2.c:1664-1743). -/
def loopAt (max : Nat) (pause : Raw → Bool) : Nat → Buf → List (Raw × Buffer.Cursor)
  | 0, _ => []
  | n + 1, b =>
    match turn max b, Buffer.firstPtr b with
    | .frame f left, some c => (f, c) :: if pause f then [] else loopAt max pause n left
    | _, _ => []

/-- The same for all events after the preface (`feed`, src/v2.c:1541-1600). -/
def feedAt (mem : Nat → Bytes) (max : Nat) (pause : Raw → Bool) : Buf → Bytes → List Nat → List (Raw × Buffer.Cursor)
  | _, _, [] => []
  | b, wire, n :: ns =>
    match receive mem b wire n with
    | some (.success b1) =>
      loopAt max pause b1.useLen b1 ++
        match (loop max pause b1.useLen b1).2 with
        | .waits b2 => feedAt mem max pause b2 (wire.drop (min n (Buffer.room b))) ns
        | _ => []
    | _ => []

/-- The same for all events (`start`, src/v2.c:635-733). -/
def startAt (mem : Nat → Bytes) (max : Nat) (pause : Raw → Bool) : Buf → Bytes → List Nat → List (Raw × Buffer.Cursor)
  | _, _, [] => []
  | b, wire, n :: ns =>
    match receive mem b wire n with
    | some (.success b1) =>
      let wire1 := wire.drop (min n (Buffer.room b))
      if wire.take (min n (Buffer.room b)) = [] ∧ b1.useLen ≤ 24 then startAt mem max pause b1 wire1 ns
      else
        match Buffer.initPreface b1 with
        | .wait => if b1.useLen > 24 then [] else startAt mem max pause b1 wire1 ns
        | .ok =>
          match Buffer.release b1 24 with
          | none => []
          | some b2 =>
            loopAt max pause b2.useLen b2 ++
              match (loop max pause b2.useLen b2).2 with
              | .waits b3 => feedAt mem max pause b3 wire1 ns
              | _ => []
        | _ => []
    | _ => []

end Fly.H2Buf
