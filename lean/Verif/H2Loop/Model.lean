import Verif.H2Stream.Model

/-! # Model of the event loop of one HTTP/2 connection (`src/v2.c`)

What `H2Stream` models frame by frame is placed here in the turns of the event loop: which handler is
registered, which events of the socket it waits for, how much of the client's bytes has been received, the
queue of outgoing frames and the responses under way.  The frames the client sends are given as a list;
bytes are only counted, as the header of a frame is read correctly however it lies in the buffer
(`H2Frame`), and a frame is handled when it has arrived completely.

Simplifications: a write on a writable socket takes everything (partial writes: `Send`); WINDOW_UPDATE
frames waiting in the queue are not merged (their sum is the same); the receive buffer never overflows;
time-outs (`Event`, `Conn`) and the memory released when a connection is closed are not modelled. -/

namespace Fly.H2L
open Fly.H2S (Frame Out SState Stream Conn)

/-- Frames the server sends.  `dataHeader` and `data` are written directly, the others are queued. -/
inductive Item where
  | settings | settingsAck | pong
  | goaway (code : Nat)
  | rst (sid code : Nat)
  | windowUpdate (sid n : Nat)
  | headers (sid : Nat)
  | dataHeader (sid len : Nat)
  | data (sid len : Nat)
  deriving DecidableEq, Repr

/-- The stream in whose list `yetsend` a frame is (`fly_hv2_send_frame_init`, src/v2.c:737-755). -/
def Item.sid : Item → Nat
  | .rst s _ | .windowUpdate s _ | .headers s | .dataHeader s _ | .data s _ => s
  | _ => 0

/-- `res->fase` of a response whose headers have been made: `FLY_RESPONSE_HEADER`, or
`FLY_RESPONSE_DATA_FRAME`. -/
inductive Phase where
  | header | data
  deriving DecidableEq, Repr

/-- `struct fly_hv2_response`.  `len = none`: no content (`FLY_RESPONSE_TYPE_NOCONTENT`); `headersSent` is
`stream->end_send_headers`, `done` is `stream->end_send_data`, `left` what has not been sent of the body. -/
structure Resp where
  sid : Nat
  len : Option Nat
  headersSent : Bool := false
  phase : Phase := .header
  left : Nat
  done : Bool := false
  deriving DecidableEq, Repr

/-- A set of `FLY_READ`, `FLY_WRITE`. -/
structure Row where
  read : Bool
  write : Bool
  deriving DecidableEq, Repr

/-- The handler of the event: `fly_hv2_request_event_blocking_handler` or `fly_hv2_request_event_handler`. -/
inductive Handler where
  | wait | serve
  deriving DecidableEq, Repr

/-- The connection, its event and its socket.  `row` is `e->read_or_write`, `buf` is `conn->buffer->use_len`,
`input` are the frames of the client's bytes from the beginning of the buffer on, `queue` is `state->send`,
`sock`/`fin` are the bytes, or the end, waiting in the socket, `eof` is `conn->peer_closed`. -/
structure Link where
  c : Conn
  handler : Handler := .wait
  row : Row := ⟨true, false⟩
  buf : Nat := 0
  sock : Nat := 0
  fin : Bool := false
  eof : Bool := false
  input : List Frame
  queue : List Item := []
  resps : List Resp := []
  lsid : Nat := 0
  closed : Bool := false

/-- After the connection preface (src/v2.c:636-704), with the client's frames to come. -/
def Link.start (maxBody : Nat) (input : List Frame) : Link := { c := Conn.init maxBody, input := input }

/-- What can be seen: an effect of a frame (`H2Stream`), a frame sent, a line of the access log, a handler
called a second time for a request, the end of the whole process. -/
inductive Ev where
  | did (o : Out)
  | sent (i : Item)
  | log (sid : Nat)
  | again (sid : Nat)
  | workerEnds
  deriving DecidableEq, Repr

/-- Ways to go wrong.  `stale`: bytes are read as a frame that have not arrived; `confused`: the event's
data is taken for something else; `assertion`: `FLY_NOT_COME_HERE`; `freed`: freed memory is read;
`protocol`: undefined behaviour in the handling of a frame (`H2Stream`); `short`: a frame is handled that
has not arrived completely. -/
inductive Bug where
  | stale | confused | assertion | freed | protocol | short
  deriving DecidableEq, Repr

/-- Length of a frame with its header (`FLY_HV2_FRAME_HEADER_LENGTH`). -/
def size (f : Frame) : Nat := 9 + f.length

/-- What an effect of a frame does to the queue, the responses and the events waited for.  SETTINGS is
answered by the server's own settings, as `first_send_settings` is never set, and an acknowledgement
(src/v2.c:1953-1974, 3240-3278); neither these nor PING (1215-1258), GOAWAY (1291-1314) and RST_STREAM
(1376-1413) change the events waited for; WINDOW_UPDATE (4602, 4620, 4658) and responses (5283-5340) do. -/
def apply (app : Nat → Option Nat) (l : Link) : Out → Link
  | .goaway code => { l with queue := l.queue ++ [.goaway code] }
  | .rst sid code => { l with queue := l.queue ++ [.rst sid code] }
  | .windowUpdate sid n => { l with queue := l.queue ++ [.windowUpdate sid n], row := { l.row with write := true } }
  | .pong => { l with queue := l.queue ++ [.pong] }
  | .settingsAck => { l with queue := l.queue ++ [.settings, .settingsAck] }
  | .dispatch sid _ _ _ =>
    { l with queue := l.queue ++ [.headers sid],
             resps := l.resps ++ [{ sid := sid, len := app sid, left := (app sid).getD 0 }],
             row := ⟨true, true⟩ }
  | _ => l

def applyAll (app : Nat → Option Nat) (l : Link) (os : List Out) : Link := os.foldl (apply app) l

/-- A response was begun: `fly_event_register` has been called and cleared `available_row`
(src/event.c:392, src/v2.c:5336-5341). -/
def begun (os : List Out) : Bool :=
  os.any fun o => match o with
    | .dispatch .. => true
    | _ => false

/-- The errors after which the loop goes on with `continue`, the frame still in the buffer: a stream that
cannot be opened (1756-1758), a frame before the first SETTINGS (1772-1775), bad settings (1960-1965). -/
def keepsFrame (c : Conn) (f : Frame) : Bool :=
  ((H2S.search c f.sid).isNone && H2S.refuse c f.sid) || (!c.comm && f.type != 4) ||
  (f.type == 4 && !H2S.flag f.flags 0 && f.settings != .ok)

/-- Where the handling of frames ends: no further complete frame (with the events still to be looked at),
GOAWAY, or `goto emergency`. -/
inductive Stop where
  | block (av : Row)
  | goaway
  | emergency
  deriving DecidableEq, Repr

/-- The frame has been handled: take it out of the buffer (src/v2.c:2087-2109). -/
def consume (f : Frame) (fs : List Frame) (l : Link) : Link := { l with buf := l.buf - size f, input := fs }

/-- The loop of `fly_hv2_request_event_handler` while frames are there, src/v2.c:1632-2109; `av` is
`available_row`.  A frame longer than the limit is not waited for (1744-1751).  Once a response has been
begun `av` is empty and the frames behind it stay in the buffer (1647-1662). -/
def frames (app : Nat → Option Nat) (av : Row) (l : Link) : List Frame → Except Bug (Link × List Ev × Stop)
  | [] => .ok ({ l with input := [] }, [], .block av)
  | f :: fs =>
    if l.buf < 9 || (decide (f.length ≤ l.c.maxFrame) && decide (l.buf < size f)) then
      .ok ({ l with input := f :: fs }, [], .block av)
    else if l.buf < size f then .error .short
    else
      match H2S.stepFrame l.c f with
      | none => .error .protocol
      | some (c', os) =>
        let l1 := applyAll app { l with c := c', lsid := if f.type = 7 then f.lastSid else l.lsid } os
        if c'.ended then .ok ({ l1 with input := f :: fs }, os.map .did, .emergency)
        else if c'.goaway then
          if keepsFrame l.c f then .ok ({ l1 with input := f :: fs }, os.map .did, .goaway)
          else if 9 ≤ l1.buf - size f then .ok (consume f fs l1, os.map .did, .goaway)
          else .ok (consume f fs l1, os.map .did, .block av)
        else if begun os then .ok (consume f fs l1, os.map .did, .block ⟨false, false⟩)
        else
          match frames app av (consume f fs l1) fs with
          | .error b => .error b
          | .ok (l2, ev, st) => .ok (l2, os.map .did ++ ev, st)

/-- `fly_hv2_close_handle`, src/v2.c:1445-1471: everything is dropped, nothing is sent. -/
def Link.close (l : Link) : Link := { l with closed := true, queue := [], resps := [] }

/-- The search of `fly_hv2_goaway_handle` through the streams, src/v2.c:1482-1501: streams that are not to
be answered are closed with their frames (377-426), the root stream among them.  The first other one gets
its frames sent, after which the loop of `fly_send_frame` (2989-3013) goes on from freed memory, or its
handler is called again. -/
def goawayLoop (l : Link) : List Stream → Except Bug (Link × List Ev)
  | [] => .ok (l.close, [])
  | s :: ss =>
    let mine := l.queue.any fun i => i.sid == s.id
    if !s.peerEnd || (!s.canResp && !mine) then
      goawayLoop { l with queue := l.queue.filter fun i => i.sid != s.id } ss
    else if mine then .error .freed
    else .ok (l, [.again s.id])

/-- `fly_hv2_goaway_handle`, src/v2.c:1474-1506. -/
def goawayHandle (l : Link) : Except Bug (Link × List Ev) :=
  if l.lsid < l.c.maxHandled then .ok (l.close, [])
  else goawayLoop l (l.c.root :: l.c.streams)

/-- The headers of the response on `sid` have been sent: `end_send_headers` (src/v2.c:2946-2948). -/
def markSent (q : List Item) (r : Resp) : Resp := if q.contains (.headers r.sid) then { r with headersSent := true } else r

/-- `fly_state_send_frame`, src/v2.c:2882-2969: the whole queue is sent; while responses are under way the
socket is still waited for. -/
def sendAll (l : Link) : Link × List Ev :=
  ({ l with queue := [], resps := l.resps.map (markSent l.queue), handler := .serve,
            row := { l.row with write := l.row.write && !l.resps.isEmpty } }, l.queue.map .sent)

/-- Update of one stream. -/
def setStream (c : Conn) (sid : Nat) (f : Stream → Stream) : Conn :=
  { c with streams := c.streams.map fun s => if s.id = sid then f s else s }

/-- `success:` of `fly_send_data_frame`, src/v2.c:2851-2870: the stream is closed and the response done only
if the client has ended, but not reset, the stream. -/
def bodyDone (l : Link) (r : Resp) (rs : List Resp) (s : Stream) : Link :=
  let l := { l with row := ⟨true, true⟩, handler := .serve }
  if s.st = .halfRemote then
    { l with c := setStream l.c s.id fun s => { s with st := .closed }, resps := { r with done := true } :: rs }
  else { l with resps := { r with phase := .data } :: rs }

/-- The windows after `n` bytes of body, `fly_hv2_peer_window_size_update`, src/v2.c:2544-2548. -/
def spend (c : Conn) (sid n : Nat) : Conn :=
  { setStream c sid (fun s => { s with window := s.window - n }) with window := c.window - n }

/-- `fly_send_data_frame`, src/v2.c:2556-2880: nothing while a window is closed, then the header of the DATA
frame, then the body. -/
def body (l : Link) (r : Resp) (rs : List Resp) (s : Stream) : Except Bug (Link × List Ev) :=
  match r.phase with
  | .header =>
    if s.window ≤ 0 || decide (l.c.window ≤ 0) then .ok ({ l with row := ⟨true, true⟩, handler := .serve }, [])
    else if r.len.getD 0 = 0 then .ok (bodyDone l r rs s, [])
    else .ok ({ l with resps := { r with phase := .data } :: rs, handler := .serve }, [.sent (.dataHeader r.sid (r.len.getD 0))])
  | .data =>
    if r.len.isNone then .error .assertion
    else if r.left = 0 then .ok (bodyDone l r rs s, [])
    else .ok (bodyDone { l with c := spend l.c r.sid r.left } { r with left := 0 } rs s, [.sent (.data r.sid r.left)])

/-- `log:` of `fly_hv2_response_event`, src/v2.c:5306-5341: the response is written to the access log and
removed with its stream. -/
def finish (l : Link) (r : Resp) (rs : List Resp) (s : Stream) : Link × List Ev :=
  ({ l with
      c := { l.c with
             maxHandled := max l.c.maxHandled r.sid,
             count := if s.st = .closed then l.c.count - 1 else l.c.count,
             streams := if s.st = .closed then l.c.streams.filter (fun t => t.id != r.sid) else l.c.streams },
      resps := rs, handler := .serve,
      row := ⟨true, l.row.write && !(rs.isEmpty && l.queue.isEmpty)⟩ }, [.log r.sid])

/-- `fly_hv2_responses`, src/v2.c:4772-4783, and `fly_hv2_response_event`, 5067-5094: always the first
response.  If its headers were neither sent nor queued the event would go on with the response in place
of the connection (5092-5093). -/
def respond (l : Link) (r : Resp) (rs : List Resp) : Except Bug (Link × List Ev) :=
  match l.c.streams.find? fun s => s.id == r.sid with
  | none => .error .freed
  | some s =>
    if r.done then .ok (finish l r rs s)
    else if r.headersSent then body l r rs s
    else .error .confused

/-- `recv` of some of the waiting bytes, at least one: `fly_receive_v2`, src/v2.c:525-633. -/
def recv (k : Nat) (l : Link) : Link :=
  { l with buf := l.buf + min (max k 1) l.sock, sock := l.sock - min (max k 1) l.sock }

/-- One pass through `fly_hv2_request_event_handler`, src/v2.c:1632-2130; the last component is
`available_row` where `fly_hv2_request_event_blocking` is reached. -/
def serve (app : Nat → Option Nat) (av : Row) (l : Link) : Except Bug (Link × List Ev × Option Row) :=
  let readFrames : Except Bug (Link × List Ev × Option Row) :=
    match frames app av l l.input with
    | .error b => .error b
    | .ok (l', ev, .block av') => .ok (l', ev, some av')
    | .ok (l', ev, .goaway) => (goawayHandle l').map fun r => (r.1, ev ++ r.2, none)
    | .ok (l', ev, .emergency) => .ok (l'.close, ev ++ [.sent (.goaway 2), .workerEnds], none)
  if l.c.goaway then (goawayHandle l).map fun r => (r.1, r.2, none)
  else if l.eof then .ok (l.close, [], none)
  else if av.read then
    if l.buf < 9 then .ok (l, [], some av) else readFrames
  else if av.write then
    if l.queue ≠ [] then .ok ((sendAll l).1, (sendAll l).2, none)
    else
      match l.resps with
      | r :: rs => (respond l r rs).map fun r => (r.1, r.2, none)
      | [] => if l.buf < 9 then .error .stale else readFrames
  else .ok (l, [], some av)

/-- `fly_hv2_request_event_blocking`, src/v2.c:1603-1621: wait for more bytes, or, if the TLS library still
holds some (`more`: how many are taken each time), go on with them (1542-1600). -/
def turnLoop (app : Nat → Option Nat) (av : Row) (l : Link) : List Nat → Except Bug (Link × List Ev)
  | [] =>
    match serve app av l with
    | .error b => .error b
    | .ok (l', ev, none) => .ok (l', ev)
    | .ok (l', ev, some _) => .ok ({ l' with handler := .wait, row := { l'.row with read := true } }, ev)
  | k :: ks =>
    match serve app av l with
    | .error b => .error b
    | .ok (l', ev, none) => .ok (l', ev)
    | .ok (l', ev, some av') =>
      if l'.sock = 0 then .ok ({ l' with handler := .serve, row := { l'.row with read := true } }, ev)
      else
        match turnLoop app av' (recv k l') ks with
        | .error b => .error b
        | .ok (l'', ev') => .ok (l'', ev ++ ev')

/-- The events reported for the socket (`epoll_wait`, src/event.c:790-843). -/
def ready (writable : Bool) (l : Link) : Row :=
  ⟨l.row.read && (decide (0 < l.sock) || l.fin), l.row.write && writable⟩

/-- One turn of the event loop for this connection; nothing happens if no event is reported. -/
def turn (app : Nat → Option Nat) (k : Nat) (more : List Nat) (writable : Bool) (l : Link) : Except Bug (Link × List Ev) :=
  if l.closed then .ok (l, [])
  else
    let av := ready writable l
    if !av.read && !av.write then .ok (l, [])
    else
      match l.handler with
      | .serve => turnLoop app av l more
      | .wait =>
        if 0 < l.sock then turnLoop app av (recv k l) more
        else if l.fin then turnLoop app av { l with eof := true } more
        else .ok ({ l with handler := .serve, row := { l.row with read := true } }, [])

/-- What happens: bytes of the client arrive, the client ends its side, or the event loop turns. -/
inductive Step where
  | arrive (n : Nat)
  | fin
  | turn (k : Nat) (more : List Nat) (writable : Bool)

def step (app : Nat → Option Nat) (l : Link) : Step → Except Bug (Link × List Ev)
  | .arrive n => .ok ({ l with sock := l.sock + n }, [])
  | .fin => .ok ({ l with fin := true }, [])
  | .turn k more w => turn app k more w l

def run (app : Nat → Option Nat) (l : Link) : List Step → Except Bug (Link × List Ev)
  | [] => .ok (l, [])
  | s :: ss =>
    match step app l s with
    | .error b => .error b
    | .ok (l', ev) =>
      match run app l' ss with
      | .error b => .error b
      | .ok (l'', ev') => .ok (l'', ev ++ ev')

end Fly.H2L
