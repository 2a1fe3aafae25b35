import Verif.H2Frame.Model

/-! # The server's SETTINGS frames and their acknowledgement (`src/v2.c`)

The frames of the root stream from the moment they are queued to the moment their memory is released.  A
frame the client has to acknowledge is in two lists: those to be sent, `state->send`, and those to be
acknowledged, `stream->yetack`.

Simplifications: addresses are numbers given out in order and never given out again, so that a stale pointer
is always noticed; what a list operation does to the neighbours of an element is left out (all elements of a
list are live where the theorems say so); a frame is sent in one piece (`Send`); frames other than SETTINGS
(PING, GOAWAY, HEADERS, …) are one kind, `other`, none of which needs an acknowledgement; a failed `malloc`
ends the process. -/

namespace Fly.H2A
open Fly.H2 (Settings)

/-- What a queued frame is. -/
inductive Kind where
  | settings | settingsAck | other
  deriving DecidableEq, Repr

/-- `struct fly_hv2_send_frame`, src/v2.h; `payload` are the bytes from the pointer `payload` on, `moved`
says that the pointer is no longer the one that was allocated. -/
structure SFrame where
  kind : Kind
  payload : Bytes
  moved : Bool := false
  needAck : Bool
  deriving DecidableEq, Repr

/-- Memory taken from the pools: a frame, or the payload of the frame at this address. -/
inductive Block where
  | frame (a : Nat)
  | payload (a : Nat)
  deriving DecidableEq, Repr

/-- The connection.  `peer` are the settings `p_…` (src/v2.h:113-141), `at` the contents of the frames,
`live` the allocated blocks, `next` the next address, `send` is `state->send`, `yetack` is the root stream's
`yetack`, `count` its `yetack_count`. -/
structure St where
  peer : Settings
  «at» : Nat → SFrame
  live : List Block := []
  next : Nat := 0
  send : List Nat := []
  yetack : List Nat := []
  count : Int := 0

/-- A connection with these settings of the peer, nothing queued. -/
def St.init (peer : Settings) : St := { peer := peer, «at» := fun _ => ⟨.other, [], false, false⟩ }

/-- `fly_pbfree`, src/alloc.c:161-183: an address that is not a block's is passed over. -/
def pbfree (live : List Block) (b : Block) : List Block := live.filter (· ≠ b)

/-- `fly_hv2_send_frame_init`, src/v2.c:737-755, the allocation of the payload (3257), and
`__fly_hv2_add_yet_send_frame`, 3179-3193; a frame to be acknowledged is put on the other list before,
`__fly_hv2_add_yet_ack_frame`, 3422-3429. -/
def enqueue (s : St) (k : Kind) (payload : Bytes) (needAck : Bool) : St :=
  { s with
    «at» := fun a => if a = s.next then ⟨k, payload, false, needAck⟩ else s.at a
    live := .frame s.next :: ((if payload.isEmpty then [] else [.payload s.next]) ++ s.live)
    next := s.next + 1
    send := s.send ++ [s.next]
    yetack := if needAck then s.yetack ++ [s.next] else s.yetack
    count := if needAck then s.count + 1 else s.count }

/-- `fly_send_settings_frame_of_server`, src/v2.c:3372-3409, and `fly_send_settings_frame`, 3240-3278:
`env` are the settings found in the environment, with their identifiers and their values as `uint32_t`, in
the order of the table 3379-3387; `mem` is what the memory of the payload held. -/
def sendServerSettings (env : List (Nat × Nat)) (mem : Bytes) (s : St) : St :=
  enqueue s .settings (Fly.H2.settingsPayload (mem.take (6 * env.length)) env) true

/-- The settings of one frame of the peer, `fly_hv2_peer_settings`, src/v2.c:1169-1214: those before a bad
one are applied.  `false`: there was a bad one. -/
def peerSettings (p : Settings) : List (Nat × Nat) → Settings × Bool
  | [] => (p, true)
  | (id, v) :: rest =>
    match Fly.H2.applySetting p id v with
    | .ok p' => peerSettings p' rest
    | _ => (p, false)

/-- A SETTINGS frame without ACK, src/v2.c:1953-1974: the server's settings are sent each time
(`first_send_settings` is never set, as nobody calls `__fly_send_settings_frame`); then an acknowledgement
(`fly_settings_frame_ack`, 2205-2208), or GOAWAY for bad settings. -/
def onSettings (env : List (Nat × Nat)) (mem : Bytes) (l : List (Nat × Nat)) (s : St) : St :=
  let s := sendServerSettings env mem s
  let r := peerSettings s.peer l
  enqueue { s with peer := r.1 } (if r.2 then .settingsAck else .other) [] false

/-- The `switch` of `fly_received_settings_frame_ack`, src/v2.c:3449-3475. -/
def ackSetting (p : Settings) (id value : Nat) : Settings :=
  if id = 1 then { p with headerTableSize := value }
  else if id = 2 then { p with enablePush := value }
  else if id = 3 then { p with maxConcurrentStreams := value }
  else if id = 4 then { p with initialWindowSize := value }
  else if id = 5 then
    if value > Fly.H2.frameSizeMax then { p with maxFrameSize := Fly.H2.frameSizeMax } else { p with maxFrameSize := value }
  else if id = 6 then { p with maxHeaderListSize := value }
  else p

/-- The loop over the payload, src/v2.c:3445-3476, six bytes per turn: `fly_hv2_settings_id_nb`, 1092-1104;
`fly_hv2_settings_value_nb`, 1150-1166, puts four bytes together and returns a `uint16_t`. -/
def ackPayload (p : Settings) : Bytes → Settings
  | i0 :: i1 :: v0 :: v1 :: v2 :: v3 :: rest =>
    ackPayload (ackSetting p (Fly.H2.be [i0, i1]) (Fly.H2.be [v0, v1, v2, v3] % 65536)) rest
  | _ => p

/-- `fly_hv2_release_yet_ack_frame`, src/v2.c:3412-3420, of a frame whose payload has been read to the end:
a payload of more than nothing is given back at the address its pointer has come to, which is no block's. -/
def releaseAcked (s : St) (a : Nat) : List Block :=
  let live := if (s.at a).payload.isEmpty then s.live
    else if (s.at a).moved then s.live else pbfree s.live (.payload a)
  pbfree live (.frame a)

/-- The loop of `fly_received_settings_frame_ack`, src/v2.c:3436-3482, over the list `yetack`, which begins
anew after each frame.  All frames on it are SETTINGS frames.  `none`: the frame's memory has been released. -/
def ackLoop : List Nat → St → Option St
  | [], s => some { s with yetack := [] }
  | a :: rest, s =>
    if .frame a ∈ s.live then
      let f := s.at a
      let s := { s with peer := ackPayload s.peer f.payload, «at» := fun b => if b = a then { f with moved := !f.payload.isEmpty } else s.at b }
      ackLoop rest { s with live := releaseAcked s a, count := s.count - 1 }
    else none

/-- `fly_received_settings_frame_ack`, src/v2.c:3432-3483. -/
def onAck (s : St) : Option St := if s.count = 0 then some s else ackLoop s.yetack s

/-- A frame that has been sent. -/
structure Sent where
  kind : Kind
  payload : Bytes
  deriving DecidableEq, Repr

/-- `fly_state_send_frame`, src/v2.c:2882-2985, for at most `n` frames, after which the socket takes no
more: the first frame is sent, taken from the queue (`__fly_hv2_remove_yet_send_frame`, 3163-3176) and
released unless it is to be acknowledged (2951-2955).  `none`: the frame's memory has been released. -/
def flush : Nat → St → Option (St × List Sent)
  | 0, s => some (s, [])
  | n + 1, s =>
    match s.send with
    | [] => some (s, [])
    | a :: rest =>
      if .frame a ∈ s.live then
        let f := s.at a
        let live := if f.needAck then s.live else pbfree (pbfree s.live (.payload a)) (.frame a)
        match flush n { s with send := rest, live := live } with
        | none => none
        | some r => some (r.1, ⟨f.kind, f.payload⟩ :: r.2)
      else none

/-- What happens to the connection: a SETTINGS frame with these settings arrives (`mem` is what the memory
of the payload of the server's own frame held), an acknowledgement arrives, the server queues another
frame, the socket takes `n` frames. -/
inductive Step where
  | settings (l : List (Nat × Nat)) (mem : Bytes)
  | ack
  | other
  | flush (n : Nat)
  deriving DecidableEq, Repr

/-- One of them. -/
def step (env : List (Nat × Nat)) (s : St) : Step → Option (St × List Sent)
  | .settings l mem => some (onSettings env mem l s, [])
  | .ack => (onAck s).map fun s => (s, [])
  | .other => some (enqueue s .other [] false, [])
  | .flush n => flush n s

/-- A history; `none`: released memory was used. -/
def run (env : List (Nat × Nat)) (s : St) : List Step → Option (St × List Sent)
  | [] => some (s, [])
  | x :: xs => (step env s x).bind fun r => (run env r.1 xs).map fun r' => (r'.1, r.2 ++ r'.2)

end Fly.H2A
