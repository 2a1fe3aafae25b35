import Verif.Buffer.Model

/-! # Model of the HTTP/2 wire codecs of `src/v2.c`

Frame headers, 31/32-bit fields, SETTINGS, PING, GOAWAY, RST_STREAM and WINDOW_UPDATE payloads.
The code has two variants for big and little endian hosts that store the bytes of a host integer in
opposite order; both denote the same network-order integer, which is what is modelled
(`FLY_BIG_ENDIAN` undefined unless stated otherwise).

Reading goes through the chained connection buffer: `Cursor` is a pointer into it (Buffer/Model).
`none` is a NULL dereference. -/

namespace Fly.H2

open Fly.Buffer

/-- Network byte order value of a byte string. -/
def be : Bytes → Nat
  | [] => 0
  | b :: bs => b * 256 ^ bs.length + be bs

/-- The `n` low bytes of a host integer in network byte order. -/
def toBE : Nat → Nat → Bytes
  | 0, _ => []
  | n + 1, v => v / 256 ^ n % 256 :: toBE n v

/-- `n` times: read the byte under the pointer, then `fly_update_chain(&c, p, 1)`.  The pointer may
become NULL after the last byte. -/
def takeSlow : Nat → Cursor → Option (Bytes × Option Cursor)
  | 0, c => some ([], some c)
  | n + 1, c =>
    match c.cur with
    | [] => none
    | x :: _ =>
      match advance c 1 with
      | some c' => (takeSlow n c').map fun r => (x :: r.1, r.2)
      | none => if n = 0 then some ([x], none) else none

/-- The common shape of the readers: if `p + n > lptr` read byte by byte across chunks, else index
directly and add `n`. -/
def takeN (n : Nat) (c : Cursor) : Option (Bytes × Option Cursor) :=
  if c.cur.length ≤ n then takeSlow n c
  else some (c.cur.take n, some ⟨c.cur.drop n, c.rest⟩)

/-- One byte at offset `i` of the frame header: `if (fh+i > lptr) update_chain(i)`, src/v2.c:117-155. -/
def byteAt (i : Nat) (c : Cursor) : Option Nat :=
  if c.cur.length ≤ i then (advance c i).bind fun c' => c'.cur.head? else c.cur[i]?

/-- `fly_hv2_length_from_frame_header`, src/v2.c:79-114. -/
def lengthOf (c : Cursor) : Option Nat := (takeN 3 c).map fun r => be r.1

/-- `fly_hv2_type_from_frame_header`, src/v2.c:116-126. -/
def typeOf (c : Cursor) : Option Nat := byteAt 3 c

/-- `fly_hv2_flags_from_frame_header`, src/v2.c:128-139. -/
def flagsOf (c : Cursor) : Option Nat := byteAt 4 c

/-- `fly_hv2_r_from_frame_header`, src/v2.c:141-151: tests the lowest bit of byte 5. -/
def rOf (c : Cursor) : Option Bool := (byteAt 5 c).map fun b => b % 2 = 1

/-- Clear the highest bit of a byte (`& ((1<<7)-1)`). -/
def clearTop (b : Nat) : Nat := b % 128

/-- `fly_hv2_sid_from_frame_header`, src/v2.c:153-191. -/
def sidOf (c : Cursor) : Option Nat :=
  if c.cur.length ≤ 9 then
    ((advance c 5).bind (takeSlow 4)).bind fun r =>
      match r.1 with
      | [a, b, d, e] => some (be [clearTop a, b, d, e])
      | _ => none
  else
    match c.cur.drop 5 with
    | a :: b :: d :: e :: _ => some (be [clearTop a, b, d, e])
    | _ => none

/-- `fly_hv2_frame_payload_from_frame_header`, src/v2.c:193-200. -/
def payloadOf (c : Cursor) : Option Cursor :=
  if c.cur.length ≤ 9 then advance c 9 else some ⟨c.cur.drop 9, c.rest⟩

/-- `fly_fh_setting`, src/v2.c:2142-2170. -/
def frameHeader (length type flags : Nat) (r : Bool) (sid : Nat) : Bytes :=
  toBE 3 length ++ [type, flags, (if r then 128 else 0) ||| sid / 256 ^ 3 % 256] ++ toBE 3 sid

/-- `__fly_hv2_32bit` (855-890), `fly_hv2_settings_value` (1103-1146): four bytes. -/
def read32 (c : Cursor) : Option (Nat × Option Cursor) := (takeN 4 c).map fun r => (be r.1, r.2)

/-- `fly_hv2_settings_id`, src/v2.c:1058-1086. -/
def read16 (c : Cursor) : Option (Nat × Option Cursor) := (takeN 2 c).map fun r => (be r.1, r.2)

/-- `fly_opaque_data`, src/v2.c:803-853. -/
def read64 (c : Cursor) : Option (Nat × Option Cursor) := (takeN 8 c).map fun r => (be r.1, r.2)

/-- `__fly_hv2_31bit`, src/v2.c:933-975 (little endian host): in the contiguous case the top bit of
the first byte is cleared, in the chunk-crossing case the top bit of the LAST byte (953). -/
def read31 (c : Cursor) : Option (Nat × Option Cursor) :=
  if c.cur.length ≤ 4 then
    (takeSlow 4 c).bind fun r =>
      match r.1 with
      | [a, b, d, e] => some (be [a, b, d, clearTop e], r.2)
      | _ => none
  else
    match c.cur with
    | a :: b :: d :: e :: t => some (be [clearTop a, b, d, e], some ⟨t, c.rest⟩)
    | _ => none

/-- The same function on a big endian host, 937-945: both cases clear the first byte's top bit. -/
def read31BigEndianHost (c : Cursor) : Option (Nat × Option Cursor) :=
  (takeN 4 c).bind fun r =>
    match r.1 with
    | [a, b, d, e] => some (be [clearTop a, b, d, e], r.2)
    | _ => none

/-! ## SETTINGS -/

/-- One turn of `fly_settings_frame_payload_set`, src/v2.c:2176-2201: six bytes at `pl`. -/
def settingBytes (id value : Nat) : Bytes := toBE 2 id ++ toBE 4 value

/-- `fly_settings_frame_payload_set`, src/v2.c:2172-2203, into the allocated payload `mem`: `pl` is
not advanced between the settings, all are written at offset 0. -/
def settingsPayload (mem : Bytes) : List (Nat × Nat) → Bytes
  | [] => mem
  | (id, v) :: rest => settingsPayload (writeAt mem 0 (settingBytes id v)) rest

/-- Peer settings kept in `fly_hv2_state_t` (src/v2.h:113-141). `windowSize` is `window_size`. -/
structure Settings where
  headerTableSize : Nat
  enablePush : Nat
  maxConcurrentStreams : Nat
  initialWindowSize : Nat
  maxFrameSize : Nat
  maxHeaderListSize : Nat
  windowSize : Int
  deriving DecidableEq, Repr

inductive SettingsResult where
  | ok (s : Settings)
  | protocolError
  | flowControlError
  deriving DecidableEq, Repr

def frameSizeMax : Nat := 2 ^ 24 - 1
def frameSizeDefault : Nat := 2 ^ 14
def windowSizeMax : Nat := 2 ^ 31 - 1

/-- Conversion of a C integer to `uint32_t`. -/
def toU32 (i : Int) : Nat := (i % 2 ^ 32).toNat

/-- The `switch` of `fly_hv2_peer_settings`, src/v2.c:1177-1208, for one setting. -/
def applySetting (s : Settings) (id value : Nat) : SettingsResult :=
  if id = 1 then .ok { s with headerTableSize := value }
  else if id = 2 then
    if value = 0 ∨ value = 1 then .ok { s with enablePush := value } else .protocolError
  else if id = 3 then .ok { s with maxConcurrentStreams := value }
  else if id = 4 then
    if value > windowSizeMax then .flowControlError
    else .ok { s with initialWindowSize := toU32 ((value : Int) - ((s.initialWindowSize : Int) - s.windowSize)) }
  else if id = 5 then
    if value > frameSizeMax then .ok { s with maxFrameSize := frameSizeMax }
    else .ok { s with maxFrameSize := value }
  else if id = 6 then
    if frameSizeDefault ≤ value ∧ value ≤ frameSizeMax then .ok { s with maxHeaderListSize := value }
    else .protocolError
  else .ok s

/-- `fly_hv2_peer_settings`, src/v2.c:1169-1214: loop while `total < len`, six bytes per turn
(`n` turns; `len = 6 n` after the frame size check). -/
def peerSettings (s : Settings) : Nat → Option Cursor → Option SettingsResult
  | 0, _ => some (.ok s)
  | _ + 1, none => none
  | n + 1, some c =>
    match read16 c with
    | none | some (_, none) => none
    | some (id, some c1) =>
      match read32 c1 with
      | none => none
      | some (v, c2) =>
        match applySetting s id v with
        | .ok s' => peerSettings s' n c2
        | e => some e

/-! ## Control frames -/

/-- A frame queued for sending: header and payload bytes. -/
structure OutFrame where
  header : Bytes
  payload : Bytes
  deriving DecidableEq, Repr

/-- `FLY_HV2_FRAME_TYPE_*`, src/v2.h. -/
def typeRst : Nat := 3
def typeGoaway : Nat := 7

/-- `fly_send_ping_frame`, src/v2.c:1219-1262: the type is `FLY_HV2_FRAME_TYPE_GOAWAY` (1229). -/
def pingReply (opaqueData : Nat) : OutFrame :=
  ⟨frameHeader 8 typeGoaway 0 false 0, toBE 8 opaqueData⟩

/-- `__fly_goaway_payload`/`fly_send_goaway_frame`, src/v2.c:1264-1317. -/
def goawayFrame (maxHandledSid code : Nat) (r : Bool) : OutFrame :=
  ⟨frameHeader 8 typeGoaway 0 false 0,
   ((if r then 128 else 0) ||| maxHandledSid / 256 ^ 3 % 256) :: toBE 3 maxHandledSid ++ toBE 4 code⟩

/-- `fly_send_rst_stream_frame`, src/v2.c:1378-1415. -/
def rstFrame (sid code : Nat) : OutFrame := ⟨frameHeader 4 typeRst 0 false sid, toBE 4 code⟩

/-- Payload of a WINDOW_UPDATE, src/v2.c:1356-1371. -/
def windowPayload (size : Nat) (r : Bool) : Bytes :=
  ((if r then 128 else 0) ||| size / 256 ^ 3 % 256) :: toBE 3 size

/-- `fly_hv2_31bit_nb`, src/v2.c:914-931, on a queued payload. -/
def read31nb : Bytes → Nat
  | a :: b :: d :: e :: _ => be [clearTop a, b, d, e]
  | _ => 0

/-- Frames of one stream waiting to be sent: the size field of the WINDOW_UPDATEs, anything else is
`none`.  Order as in `stream->yetsend`. -/
abbrev YetSend := List (Option Nat)

/-- The retry loop of `fly_send_window_update_frame`, src/v2.c:1336-1354: look for a queued
WINDOW_UPDATE that can be combined; release it, add its size and start over.  `fuel` is the number
of queued frames (each turn removes one).  `update_size + __usize` is a `uint32_t` sum. -/
def combine : Nat → YetSend → Nat → YetSend × Nat
  | 0, q, u => (q, u)
  | fuel + 1, q, u =>
    match q.findIdx? fun o => match o with
        | some s => decide ((u + s) % 2 ^ 32 ≤ windowSizeMax)
        | none => false with
    | none => (q, u)
    | some i =>
      match q[i]? with
      | some (some s) => combine fuel (q.eraseIdx i) ((u + s) % 2 ^ 32)
      | _ => (q, u)

/-- `fly_send_window_update_frame`, src/v2.c:1319-1376: queue a WINDOW_UPDATE of `u` bytes.  The new
frame goes to the end of the queue (`__fly_hv2_add_yet_send_frame` pushes at the tail); the size is
what a reader of the queued payload sees. -/
def sendWindowUpdate (q : YetSend) (u : Nat) : YetSend :=
  let r := combine q.length q u
  r.1 ++ [some (read31nb (windowPayload r.2 false))]

end Fly.H2
