import Verif.H2Stream.Model
import Verif.H2Site.Model

/-! # An HTTP/2 connection from the bytes of the frames received to the frames sent

`fly_hv2_request_event_handler`, src/v2.c:1632-2130, put together from Verif.H2Frame (frame headers, settings), Verif.Hpack (header blocks), Verif.H2Stream (what a frame does
to the connection and its streams) and Verif.H2Site (requests and responses).  What is left out: how the bytes get into the buffer and out of it (Verif.Buffer), the frames
the server sends of its own (settings, window updates; they are listed by Verif.H2Stream, for their bytes see Verif.H2Frame) and the order in which responses and frames received
take turns (Verif.H2Loop): here a response is sent before the next frame is read. -/

namespace Fly.H2Wire
open Buffer (Cursor advance)
open Hpack (DTab)
open H2 (Settings)
open H2S (Out)
open H2Trip (Writes cells send dynOf)
open Site (Site)
open Send (Win)

/-- A frame header and where the payload is, src/v2.c:1664-1744. -/
structure Head where
  length : Nat
  type : Nat
  flags : Nat
  sid : Nat
  payload : Option Cursor
  deriving DecidableEq, Repr

/-- src/v2.c:1672-1743. -/
def headOf (c : Cursor) : Option Head :=
  match H2.lengthOf c, H2.typeOf c, H2.flagsOf c, H2.sidOf c with
  | some length, some type, some flags, some sid => some ⟨length, type, flags, sid, H2.payloadOf c⟩
  | _, _, _, _ => none

/-- `fly_hv2_pad_length`, src/v2.c:783-796, and `fly_hv2_weight`, 997-1010: one byte.  `none`: a null pointer is read. -/
def oneByte : Option Cursor → Option (Option Cursor)
  | none => none
  | some c => (H2.takeN 1 c).map (·.2)

/-- The pointer behind the length of the padding, src/v2.c:1810-1813, 1868-1871, and what is left of the length. -/
def skipPad (h : Head) : Option (Nat × Option Cursor) :=
  if H2S.flag h.flags 3 then (oneByte h.payload).map fun p => ((h.length + 2 ^ 32 - 1) % 2 ^ 32, p)
  else some (h.length, h.payload)

/-- The header block of a HEADERS frame, src/v2.c:1868-1878: behind the length of the padding and the priority (`fly_hv2_flag`, 798-801, `fly_hv2_stream_dependency`, 992-995, and
`fly_hv2_weight`). -/
def headerBlock (h : Head) : Option (Nat × Option Cursor) :=
  match skipPad h with
  | none => none
  | some (len, p) =>
    if H2S.flag h.flags 5 then
      match p with
      | none => none
      | some c =>
        match H2.read31 c with
        | none => none
        | some (_, c) => (oneByte c).map fun c => ((len + 2 ^ 32 - 5) % 2 ^ 32, c)
    else some (len, p)

/-- A connection: its streams, the table of the header compression, the settings of the client. -/
structure Link where
  c : H2S.Conn
  t : DTab
  set : Settings

/-- `fly_hv2_state_init` and `fly_hv2_default_settings`, src/v2.c:206-221; `g` is what the memory of the table holds. -/
def Link.init (maxBody : Nat) (g : Hpack.DNode) (limit : Nat) : Link :=
  ⟨H2S.Conn.init maxBody, DTab.init g limit, ⟨4096, 1, 2 ^ 32 - 1, 65535, 16384, 2 ^ 32 - 1, 65535⟩⟩

/-- The payload of a frame is looked at, src/v2.c:1753-1796: its stream is there or may be created, and it may come now. -/
def looksAt (c : H2S.Conn) (h : Head) : Bool :=
  ((H2S.search c h.sid).isSome || !H2S.refuse c h.sid) && (c.comm || h.type == 4)

/-- The settings loop's answer for Verif.H2Stream. -/
def settingsRes : H2.SettingsResult → H2S.SettingsRes
  | .ok _ => .ok
  | .protocolError => .protocolError
  | .flowControlError => .flowControlError

/-- The payload is decoded: what the frame is for Verif.H2Stream, and the table and the settings afterwards.  Simplifications: the dependencies in PRIORITY frames and the
data in PING frames are not looked at; a block that is wrong leaves the table as it was (the connection is ended). -/
def decode (l : Link) (h : Head) : Option (H2S.Frame × DTab × Settings) :=
  let f : H2S.Frame := { type := h.type, flags := h.flags, sid := h.sid, length := h.length }
  if !looksAt l.c h then some (f, l.t, l.set)
  else
    match h.type with
    | 0 => -- 1810-1815, `fly_buffer_memcpy` in 4647
      match skipPad h with
      | none => none
      | some (0, _) => some (f, l.t, l.set)
      | some (_, none) => none
      | some (n, some c) => (Buffer.memcpy n c).map fun d => ({ f with data := d }, l.t, l.set)
    | 1 => -- 1868-1885
      match headerBlock h with
      | none => none
      | some (n, p) =>
        match Hpack.parseHeaders n ⟨l.t, []⟩ n 0 p with
        | none => none
        | some .error => some ({ f with hdrsOk := false }, l.t, l.set)
        | some (.ok st) => some ({ f with hdrs := st.headers }, st.dtab, l.set)
    | 4 => -- 1942-1972
      if H2S.flag h.flags 0 then some (f, l.t, l.set)
      else
        match H2.peerSettings l.set ((h.length + 5) / 6) h.payload with
        | none => none
        | some r =>
          some ({ f with settings := settingsRes r }, l.t, match r with
            | .ok s => s
            | _ => l.set)
    | 7 => -- 2019-2026
      match h.payload with
      | none => none
      | some c => (H2.read31 c).map fun r => ({ f with lastSid := r.1 }, l.t, l.set)
    | 8 => -- 2038-2042
      match h.payload with
      | none => none
      | some c => (H2.read31 c).map fun r => ({ f with increment := r.1 }, l.t, l.set)
    | 9 => -- 2073
      match Hpack.parseHeaders h.length ⟨l.t, []⟩ h.length 0 h.payload with
      | none => none
      | some .error => some (f, l.t, l.set)
      | some (.ok st) => some ({ f with hdrs := st.headers }, st.dtab, l.set)
    | _ => some (f, l.t, l.set)

/-- A frame that is with the server, at this place of the buffer; and what a response takes that follows it (as in `H2Trip.Incoming`): how empty values are kept, what the socket takes,
the contents of the files. -/
structure Arrival where
  place : Cursor
  alloc : Nat → Bool
  writes : Writes
  now : Bytes → Bytes

/-- The same with the windows of the client for the stream of the frame. -/
structure At extends Arrival where
  win : Win

/-- The content of a request.  One that is shorter than announced has memory behind it that nobody has written (`C64_short_body_uninitialised_refuted`): left out. -/
def contentOf : Option (Nat × Bytes) → Option (Option Bytes)
  | none => some none
  | some (n, b) => if b.length = n then some (some b) else none

/-- `fly_hv2_response_event_handler`, src/v2.c:4838-5033, for a request. -/
def answer (s : Site) (k : H2Trip.Conn) (t : DTab) (a : At) (sid : Nat) (hs : List (Bytes × Bytes)) (body : Option (Nat × Bytes)) (discard : Bool) : Option Bytes :=
  match contentOf body with
  | none => none
  | some b =>
    match H2Site.response s a.now ⟨true, cells a.alloc hs, b, discard⟩ with
    | none => none
    | some r => send k (dynOf t) sid a.win r a.writes

/-- The responses that follow a frame, with their streams. -/
def answers (s : Site) (k : H2Trip.Conn) (t : DTab) (a : At) : List Out → Option (List (Nat × Bytes))
  | [] => some []
  | .dispatch sid hs b d :: os =>
    match answer s k t a sid hs b d with
    | none => none
    | some bs => (answers s k t a os).map ((sid, bs) :: ·)
  | _ :: os => answers s k t a os

/-- What a response takes of the windows: the bytes of content written, `fly_hv2_peer_window_size_update`, src/v2.c:2544-2548, called in 2659, 2718, 2782 and 2845 (compare
`H2Trip.send`). -/
def used (k : H2Trip.Conn) (dyn : List (Bytes × Bytes)) (sid : Nat) (w : Win) (r : H2Trip.Resp) (s : Writes) : Nat :=
  match H2Trip.headerFrames k dyn r with
  | none => 0
  | some fs =>
    if (H2Trip.writeFrames sid fs s.frames).2 then
      match Send.startData w r.plan.len with
      | .wait => 0
      | .nothing => 0
      | .frame n fin =>
        if (Send.dataHeaderRun true (H2.frameHeader n 0 (if fin then 1 else 0) false sid) 0 s.dataHeader).2 then (H2B.payload true r.disk r.plan s.data).out.length else 0
    else 0

/-- What the responses that follow a frame take of the window of the connection. -/
def drawn (s : Site) (k : H2Trip.Conn) (t : DTab) (a : At) : List Out → Nat
  | [] => 0
  | .dispatch sid hs body d :: os =>
    (match contentOf body with
      | none => 0
      | some b =>
        match H2Site.response s a.now ⟨true, cells a.alloc hs, b, d⟩ with
        | none => 0
        | some r => used k (dynOf t) sid a.win r a.writes) + drawn s k t a os
  | _ :: os => drawn s k t a os

/-- The streams of the responses are removed.  Simplification: a response without content whose windows are closed waits for an update (src/v2.c:2577) and its stream is kept until
then; here it is removed when the fields of the response are sent, which the client cannot see. -/
def closeAll (c : H2S.Conn) : List (Nat × Bytes) → H2S.Conn
  | [] => c
  | (sid, _) :: rs => closeAll (H2S.finish c sid).1 rs

/-- A stream that is new begins with the window of the client's settings, src/v2.c:300 (with 65535 in Verif.H2Stream). -/
def fresh (l : Link) (sid : Nat) (c : H2S.Conn) : H2S.Conn :=
  if (H2S.search l.c sid).isSome then c
  else { c with streams := c.streams.map fun st => if st.id = sid then { st with window := st.window + ((l.set.initialWindowSize : Int) - 65535) } else st }

/-- The windows of the client for a stream, src/v2.c:2577-2584. -/
def windows (c : H2S.Conn) (sid : Nat) : Win :=
  match H2S.search c sid with
  | some st => ⟨st.window, c.window⟩
  | none => ⟨0, c.window⟩

/-- What a frame does, src/v2.c:1632-2130, and its stream. -/
def turn (l : Link) (a : Arrival) : Option (Link × List Out × Nat) :=
  match headOf a.place with
  | none => none
  | some h =>
    match decode l h with
    | none => none
    | some (f, t, set) =>
      match H2S.stepFrame l.c f with
      | none => none
      | some (c, os) => some (⟨fresh l h.sid c, t, set⟩, os, h.sid)

/-- The windows when a response follows a frame. -/
def winAt (l : Link) (a : Arrival) : Win :=
  match turn l a with
  | none => ⟨0, 0⟩
  | some (l', _, sid) => windows l'.c sid

/-- One turn of the loop, src/v2.c:1632-2130, and the response if there is one: it is on the stream of the frame. -/
def step (s : Site) (k : H2Trip.Conn) (l : Link) (a : Arrival) : Option (Link × List Out × List (Nat × Bytes)) :=
  if l.c.goaway || l.c.ended then some (l, [], [])
  else
    match turn l a with
    | none => none
    | some (l', os, _) =>
      match answers s k l'.t ⟨a, winAt l a⟩ os with
      | none => none
      | some rs => some (⟨closeAll { l'.c with window := l'.c.window - drawn s k l'.t ⟨a, winAt l a⟩ os } rs, l'.t, l'.set⟩, os, rs)

/-- All frames of a connection: what the server has put out, and the responses. -/
def run (s : Site) (k : H2Trip.Conn) : Link → List Arrival → Option (Link × List Out × List (Nat × Bytes))
  | l, [] => some (l, [], [])
  | l, a :: as =>
    match step s k l a with
    | none => none
    | some (l, os, rs) => (run s k l as).map fun q => (q.1, os ++ q.2.1, rs ++ q.2.2)

end Fly.H2Wire
