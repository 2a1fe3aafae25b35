import Verif.CStr

/-! # Model of HTTP/2 frame dispatch in `src/v2.c`

One `step` is one turn of the loop of `fly_hv2_request_event_handler` (src/v2.c:1632-2130) on a frame
that has arrived completely, or the end of a response.  Frames are given by their header fields (decoded
as in H2Frame) and the outcome of the payload decoders: `hdrs`/`hdrsOk` is what the header decoder makes
of the block (Hpack), `settings` what the settings decoder answers (H2Frame).  `none` is undefined
behaviour.  The dependency tree of PRIORITY frames, the queue of outgoing frames and the timers are not
modelled. -/

namespace Fly.H2S

/-- `enum fly_hv2_stream_state`, src/v2.h:362-370. -/
inductive SState where
  | idle | reservedLocal | reservedRemote | open_ | halfLocal | halfRemote | closed
  deriving DecidableEq, Repr

/-- `fly_hv2_stream_t` with its request.  `headers`: `none` is a NULL `request->header`; `body`:
length of the allocated body and the bytes copied so far. -/
structure Stream where
  id : Nat
  st : SState := .idle
  peerEnd : Bool := false
  canResp : Bool := false
  headers : Option (List (Bytes × Bytes)) := some []
  body : Option (Nat × Bytes) := none
  discard : Bool := false
  window : Int := 65535
  deriving Repr

/-- `fly_hv2_state_t`; `streams` are those other than the root, in list order; `maxConc = none` is
"infinity"; `ended`: the event returned an error (`emergency`) and the connection is gone. -/
structure Conn where
  root : Stream := { id := 0, headers := none }
  streams : List Stream := []
  count : Nat := 1
  maxSid : Nat := 0
  maxHandled : Nat := 0
  goaway : Bool := false
  ended : Bool := false
  comm : Bool := false
  window : Int := 65535
  maxConc : Option Nat := none
  maxFrame : Nat := 16384
  maxBody : Nat

/-- `fly_hv2_state_init`, src/v2.c:467-506, with the defaults 205-221; the connection preface has been
read. -/
def Conn.init (maxBody : Nat) : Conn := { maxBody := maxBody }

inductive SettingsRes where
  | ok | flowControlError | protocolError
  deriving DecidableEq, Repr

/-- A frame: header, payload after the optional padding-length byte (`data`), decoder outcomes. -/
structure Frame where
  type : Nat
  flags : Nat
  sid : Nat
  length : Nat
  data : Bytes := []
  hdrs : List (Bytes × Bytes) := []
  hdrsOk : Bool := true
  settings : SettingsRes := .ok
  increment : Nat := 0
  lastSid : Nat := 0
  /-- whether the response handler, if called, returns other than -1 -/
  respOk : Bool := true

/-- What the peer or the application sees. -/
inductive Out where
  /-- a stream was created -/
  | opened (sid : Nat)
  | goaway (code : Nat)
  | rst (sid code : Nat)
  /-- the request is answered: `fly_hv2_response_event_handler` runs -/
  | dispatch (sid : Nat) (headers : List (Bytes × Bytes)) (body : Option (Nat × Bytes)) (discard : Bool)
  | windowUpdate (sid n : Nat)
  | pong
  | settingsAck
  | emergency
  /-- a stream was removed -/
  | closed (sid : Nat)
  deriving DecidableEq, Repr

/-- Connection, the stream a frame is for, output so far. -/
structure Ctx where
  c : Conn
  s : Stream
  o : List Out

/-- `__fly_hv2_send_error` with `FLY_HV2_CONNECTION_ERROR` (src/v2.c:3507-3520, 1291). -/
def Ctx.connErr (code : Nat) (x : Ctx) : Ctx :=
  { x with c := { x.c with goaway := true }, o := x.o ++ [.goaway code] }

/-- `__fly_hv2_send_error` with `FLY_HV2_STREAM_ERROR` (src/v2.c:1413). -/
def Ctx.streamErr (code : Nat) (x : Ctx) : Ctx :=
  { x with s := { x.s with st := .closed }, o := x.o ++ [.rst x.s.id code] }

def Ctx.when (b : Bool) (f : Ctx → Ctx) (x : Ctx) : Ctx := if b then f x else x

/-- `goto emergency`, src/v2.c:2115-2128. -/
def Ctx.emergency (x : Ctx) : Ctx := { x with c := { x.c with ended := true, goaway := true }, o := x.o ++ [.emergency] }

def flag (f bit : Nat) : Bool := f / 2 ^ bit % 2 == 1

def endStream (f : Frame) : Bool := flag f.flags 0
def endHeaders (f : Frame) : Bool := flag f.flags 2
def padded (f : Frame) : Bool := flag f.flags 3

def protocolError : Nat := 1
def flowControlError : Nat := 3
def streamClosed : Nat := 5
def frameSizeError : Nat := 6
def compressionError : Nat := 9

/-- `fly_content_length`, src/header.c:304-319, as a `size_t`. -/
def contentLength (hs : List (Bytes × Bytes)) : Nat :=
  match hs.find? fun h => (h.1 == b!"Content-Length" || h.1 == b!"content-length") && h.2 != [] with
  | some (_, v) => ((atoll v) % (2 ^ 64 : Int)).toNat
  | none => 0

/-- The body after a first look: `req->body == NULL` (src/v2.c:4604-4628). -/
def bodyOf (s : Stream) (cl : Nat) : Nat × Bytes := s.body.getD (cl, [])

/-- `fly_hv2_parse_data`, src/v2.c:4580-4665 for a payload of `len` bytes; `none`: NULL header list.
The boolean is false for `FLY_HV2_PARSE_DATA_ERROR`. -/
def parseData (x : Ctx) (len : Nat) (data : Bytes) : Option (Ctx × Bool) :=
  if len = 0 then some (x, true)
  else
    match x.s.headers with
    | none => none
    | some hs =>
      let cl := contentLength hs
      if x.s.discard then
        some ({ x with o := x.o ++ [.windowUpdate x.s.id len, .windowUpdate 0 len] }, true)
      else if x.s.body.isNone && decide (x.c.maxBody < cl) then
        some ({ x with s := { x.s with discard := true }, o := x.o ++ [.windowUpdate x.s.id len, .windowUpdate 0 len] }, true)
      else
        let b := bodyOf x.s cl
        if b.1 < b.2.length + len then some ({ x with s := { x.s with body := some b } }, false)
        else
          some ({ x with s := { x.s with body := some (b.1, b.2 ++ data) },
                         o := x.o ++ [.windowUpdate 0 len, .windowUpdate x.s.id len] }, true)

/-- The test "end of request" (src/v2.c:1829-1837, 1897-1901) and the call of the response handler. -/
def respond (f : Frame) (x : Ctx) : Option Ctx :=
  if x.s.st = .halfRemote && (x.s.peerEnd || x.s.canResp) then
    match x.s.headers with
    | none => none
    | some hs =>
      let y : Ctx := { x with s := { x.s with canResp := true }, o := x.o ++ [.dispatch x.s.id hs x.s.body x.s.discard] }
      some (if f.respOk then y else y.emergency)
  else some x

/-- `length -= 1` of a `uint32_t` for the padding length byte (1810). -/
def dataLen (f : Frame) : Nat := if padded f then (f.length + 2 ^ 32 - 1) % 2 ^ 32 else f.length

/-- DATA, src/v2.c:1797-1840. -/
def onData (f : Frame) (x : Ctx) : Option Ctx :=
  let x := x.when (x.s.id == 0) (Ctx.connErr protocolError)
  let x := x.when (!(x.s.st == .open_ || x.s.st == .halfLocal)) (Ctx.streamErr streamClosed)
  match parseData x (dataLen f) f.data with
  | none => none
  | some (x, false) => some x.emergency
  | some (x, true) =>
    respond f (x.when (endStream f) fun x => { x with s := { x.s with st := .halfRemote } })

/-- HEADERS, src/v2.c:1841-1905. -/
def onHeaders (f : Frame) (x : Ctx) : Option Ctx :=
  let x := x.when (x.s.id == 0) (Ctx.connErr protocolError)
  let x := x.when (!(x.s.st == .idle || x.s.st == .reservedLocal || x.s.st == .open_ || x.s.st == .halfRemote))
    (Ctx.streamErr streamClosed)
  let x := x.when (x.s.st == .idle) fun x => { x with s := { x.s with st := .open_ } }
  let x := x.when (x.s.st == .reservedRemote) fun x => { x with s := { x.s with st := .halfLocal } }
  if x.s.headers.isNone && !f.hdrs.isEmpty then none
  else
    let x : Ctx := { x with s := { x.s with headers := x.s.headers.map (· ++ f.hdrs) } }
    let x := x.when (!f.hdrsOk) (Ctx.connErr compressionError)
    let x := x.when (endStream f) fun x => { x with s := { x.s with st := .halfRemote } }
    respond f (x.when (endHeaders f) fun x => { x with s := { x.s with peerEnd := true } })

/-- PRIORITY, src/v2.c:1906-1929, without the dependency tree. -/
def onPriority (f : Frame) (x : Ctx) : Option Ctx :=
  let x := x.when (x.s.id == 0) (Ctx.connErr protocolError)
  some (x.when (f.length != 5) (Ctx.streamErr frameSizeError))

/-- RST_STREAM, src/v2.c:1930-1941. -/
def onRst (f : Frame) (x : Ctx) : Option Ctx :=
  let x := x.when (x.s.id == 0) (Ctx.connErr protocolError)
  let x := x.when (x.s.st == .idle) (Ctx.connErr protocolError)
  let x := x.when (f.length != 4) (Ctx.connErr frameSizeError)
  some { x with s := { x.s with st := .closed } }

/-- SETTINGS, src/v2.c:1942-1979. -/
def onSettings (f : Frame) (x : Ctx) : Option Ctx :=
  let x := x.when (f.sid != 0) (Ctx.connErr protocolError)
  let x := x.when (f.length % 6 != 0) (Ctx.connErr frameSizeError)
  if flag f.flags 0 then some x
  else
    match f.settings with
    | .flowControlError => some (x.connErr flowControlError)
    | .protocolError => some (x.connErr protocolError)
    | .ok => some { x with c := { x.c with comm := true }, o := x.o ++ [.settingsAck] }

/-- PUSH_PROMISE, src/v2.c:1980-2000: the stream searched for is the one just found or created, and
creating it again fails. -/
def onPushPromise (f : Frame) (x : Ctx) : Option Ctx :=
  let x := x.when (f.sid == 0) (Ctx.connErr protocolError)
  let x := x.when (!(x.s.st == .open_ || x.s.st == .halfRemote)) (Ctx.connErr protocolError)
  some ((x.connErr protocolError).connErr protocolError).emergency

/-- PING, src/v2.c:2001-2014. -/
def onPing (f : Frame) (x : Ctx) : Option Ctx :=
  let x := x.when (f.sid != 0) (Ctx.connErr protocolError)
  let x := x.when (f.length != 8) (Ctx.connErr frameSizeError)
  some { x with o := x.o ++ [.pong] }

/-- GOAWAY, src/v2.c:2015-2033 and `fly_hv2_goaway`, 1507-1523. -/
def onGoaway (f : Frame) (x : Ctx) : Option Ctx :=
  let x := x.when (f.sid != 0) (Ctx.connErr protocolError)
  let x : Ctx := { x with c := { x.c with goaway := true } }
  some (x.when (decide (f.lastSid ≤ x.c.maxHandled)) (Ctx.connErr 0))

/-- WINDOW_UPDATE, src/v2.c:2034-2056. -/
def onWindowUpdate (f : Frame) (x : Ctx) : Option Ctx :=
  let x := x.when (f.length != 4) (Ctx.connErr frameSizeError)
  let x := x.when (f.increment == 0 && f.sid == 0) (Ctx.streamErr protocolError)
  let x := x.when (f.increment == 0 && f.sid != 0) (Ctx.connErr protocolError)
  if f.sid ≠ 0 then some { x with s := { x.s with window := x.s.window + f.increment } }
  else some { x with c := { x.c with window := x.c.window + f.increment } }

/-- CONTINUATION, src/v2.c:2057-2080.  The "previous" frame looked at is the last of the stream's
queue, which is the CONTINUATION itself (1761-1762): the test passes iff END_HEADERS is not set.  On the
root stream the queue is empty and its head is read as a frame (undefined). -/
def onContinuation (f : Frame) (x : Ctx) : Option Ctx :=
  if f.sid = 0 then none
  else
    let x := x.when (endHeaders f) (Ctx.connErr protocolError)
    let x : Ctx := { x with s := { x.s with headers := x.s.headers.map (· ++ f.hdrs) } }
    some (x.when (endHeaders f) fun x => { x with s := { x.s with peerEnd := true } })

/-- The switch on the frame type, src/v2.c:1796-2085; unknown types are ignored. -/
def handle (f : Frame) (x : Ctx) : Option Ctx :=
  match f.type with
  | 0 => onData f x
  | 1 => onHeaders f x
  | 2 => onPriority f x
  | 3 => onRst f x
  | 4 => onSettings f x
  | 5 => onPushPromise f x
  | 6 => onPing f x
  | 7 => onGoaway f x
  | 8 => onWindowUpdate f x
  | 9 => onContinuation f x
  | _ => some x

/-- Store the stream back (the C code works in place; stream ids are distinct). -/
def Ctx.commit (x : Ctx) : Conn :=
  if x.s.id = 0 then { x.c with root := x.s }
  else { x.c with streams := x.c.streams.map fun t => if t.id = x.s.id then x.s else t }

/-- `fly_hv2_stream_search_from_sid`, src/v2.c:1525-1540. -/
def search (c : Conn) (sid : Nat) : Option Stream :=
  if sid = 0 then some c.root else c.streams.find? fun s => s.id == sid

/-- The refusals of `fly_hv2_create_stream` for the client's streams, src/v2.c:338-356. -/
def refuse (c : Conn) (sid : Nat) : Bool :=
  decide (sid ≤ c.maxSid) ||
  (match c.maxConc with
   | none => false
   | some m => decide (m ≤ c.count)) ||
  (sid % 2 == 0)

/-- `fly_hv2_create_stream`, src/v2.c:335-371. -/
def create (c : Conn) (sid : Nat) : Conn :=
  { c with streams := c.streams ++ [{ id := sid }], count := c.count + 1, maxSid := sid }

/-- From the found or created stream on: src/v2.c:1761-2085.  While only the preface has been read,
anything but SETTINGS is an error (1770-1777). -/
def process (f : Frame) (x : Ctx) : Option (Conn × List Out) :=
  if !x.c.comm && f.type != 4 then some ((x.connErr protocolError).commit, (x.connErr protocolError).o)
  else (handle f x).map fun y => (y.commit, y.o)

/-- One turn of the loop on frame `f`: after GOAWAY nothing is read (1642); an oversized frame is
reported and handled all the same (1744-1746). -/
def stepFrame (c : Conn) (f : Frame) : Option (Conn × List Out) :=
  if c.goaway || c.ended then some (c, [])
  else
    let big := decide (c.maxFrame < f.length)
    let c := if big then { c with goaway := true } else c
    let o := if big then [Out.goaway protocolError] else []
    match search c f.sid with
    | some s => process f ⟨c, s, o⟩
    | none =>
      if refuse c f.sid then some ({ c with goaway := true }, o ++ [.goaway protocolError])
      else process f ⟨create c f.sid, { id := f.sid }, o ++ [.opened f.sid]⟩

/-- The response of stream `sid` has been sent completely: src/v2.c:2855-2864 (state CLOSED) and
5314-5330: the stream is removed. -/
def finish (c : Conn) (sid : Nat) : Conn × List Out :=
  if c.streams.any fun s => s.id == sid && s.canResp && s.st == .halfRemote then
    ({ c with streams := c.streams.filter (fun s => s.id != sid), count := c.count - 1,
              maxHandled := max c.maxHandled sid }, [.closed sid])
  else (c, [])

inductive Ev where
  | frame (f : Frame)
  | finish (sid : Nat)

def step (c : Conn) : Ev → Option (Conn × List Out)
  | .frame f => stepFrame c f
  | .finish sid => some (finish c sid)

/-- A history of events, with everything the server put out. -/
def run (c : Conn) : List Ev → Option (Conn × List Out)
  | [] => some (c, [])
  | e :: es =>
    match step c e with
    | none => none
    | some (c', o) =>
      match run c' es with
      | none => none
      | some (c'', o') => some (c'', o ++ o')

end Fly.H2S
