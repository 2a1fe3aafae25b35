import Verif.H2Stream.Model

/-! # Specification: what a history of HTTP/2 frames means -/

namespace Fly.H2S

/-- The frames of a history. -/
def framesOf (h : List Ev) : List Frame :=
  h.filterMap fun e => match e with
    | .frame f => some f
    | .finish _ => none

/-- Bytes sent on stream `sid` in DATA frames. -/
def dataOf (sid : Nat) (fs : List Frame) : Bytes :=
  (fs.filter fun f => f.type == 0 && f.sid == sid).flatMap (·.data)

/-- Headers sent on stream `sid`. -/
def hdrsOf (sid : Nat) (fs : List Frame) : List (Bytes × Bytes) :=
  (fs.filter fun f => (f.type == 1 || f.type == 9) && f.sid == sid).flatMap (·.hdrs)

/-- The peer has ended its side of `sid`: a HEADERS or DATA frame with END_STREAM. -/
def PeerEndedStream (sid : Nat) (fs : List Frame) : Prop :=
  ∃ f ∈ fs, (f.type = 0 ∨ f.type = 1) ∧ f.sid = sid ∧ endStream f = true

/-- All headers of `sid` are there: a HEADERS or CONTINUATION frame with END_HEADERS. -/
def PeerEndedHeaders (sid : Nat) (fs : List Frame) : Prop :=
  ∃ f ∈ fs, (f.type = 1 ∨ f.type = 9) ∧ f.sid = sid ∧ endHeaders f = true

/-- A DATA frame without padding; `length` is the length of the payload. -/
def PlainData (f : Frame) : Prop := f.type = 0 → padded f = false ∧ f.data.length = f.length

/-- Stream ids opened, in order. -/
def openedIds (o : List Out) : List Nat :=
  o.filterMap fun a => match a with
    | .opened sid => some sid
    | _ => none

/-- Stream ids removed, in order. -/
def closedIds (o : List Out) : List Nat :=
  o.filterMap fun a => match a with
    | .closed sid => some sid
    | _ => none

/-- Credit returned to the peer for stream `sid` (0: connection). -/
def creditFor (sid : Nat) (o : List Out) : Nat :=
  (o.filterMap fun a => match a with
    | .windowUpdate s n => if s = sid then some n else none
    | _ => none).sum

/-- Flow-controlled bytes received in DATA frames on the connection (RFC 7540 §6.9.1: the whole
payload). -/
def dataBytes (fs : List Frame) : Nat := ((fs.filter fun f => f.type == 0).map (·.length)).sum

/-- The same on one stream. -/
def streamBytes (sid : Nat) (fs : List Frame) : Nat :=
  ((fs.filter fun f => f.type == 0 && f.sid == sid).map (·.length)).sum

def isGoaway : Out → Bool
  | .goaway _ => true
  | .emergency => true
  | _ => false

/-- Stream `sid` has never been anything but idle (RFC 9113 §5.1), given the streams there are. -/
def StaysIdle (streams : List Stream) (sid : Nat) : Prop := ∀ s ∈ streams, s.id = sid → s.st = .idle

/-- The rules of RFC 9113 §6.3-6.9 whose breach is a connection error, with the code to report:
1 PROTOCOL_ERROR, 3 FLOW_CONTROL_ERROR, 6 FRAME_SIZE_ERROR. -/
inductive ConnFault (streams : List Stream) (f : Frame) : Nat → Prop
  | priorityZero : f.type = 2 → f.sid = 0 → ConnFault streams f 1
  | rstZero : f.type = 3 → f.sid = 0 → ConnFault streams f 1
  | rstIdle : f.type = 3 → StaysIdle streams f.sid → ConnFault streams f 1
  | rstSize : f.type = 3 → f.length ≠ 4 → ConnFault streams f 6
  | settingsStream : f.type = 4 → f.sid ≠ 0 → ConnFault streams f 1
  | settingsSize : f.type = 4 → f.length % 6 ≠ 0 → ConnFault streams f 6
  | settingsWindow : f.type = 4 → f.flags % 2 = 0 → f.settings = .flowControlError → ConnFault streams f 3
  | settingsValue : f.type = 4 → f.flags % 2 = 0 → f.settings = .protocolError → ConnFault streams f 1
  | pingStream : f.type = 6 → f.sid ≠ 0 → ConnFault streams f 1
  | pingSize : f.type = 6 → f.length ≠ 8 → ConnFault streams f 6
  | goawayStream : f.type = 7 → f.sid ≠ 0 → ConnFault streams f 1
  | windowSize : f.type = 8 → f.length ≠ 4 → ConnFault streams f 6

/-- The one whose breach is an error of the stream only (§6.3). -/
inductive StreamFault (f : Frame) : Nat → Nat → Prop
  | prioritySize : f.type = 2 → f.length ≠ 5 → StreamFault f f.sid 6

/-- The stream of a frame exists or the frame may open it. -/
def MayUse (streams : List Stream) (opened : List Nat) (sid : Nat) : Prop :=
  sid = 0 ∨ sid ∈ streams.map (·.id) ∨ (sid % 2 = 1 ∧ ∀ i ∈ opened, i < sid)

end Fly.H2S
