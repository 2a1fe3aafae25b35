import Verif.H2Loop.Model

/-! # Specification: what a client of an HTTP/2 connection sees -/

namespace Fly.H2L
open Fly.H2S (Frame Out SState Stream Conn)

/-- The frames sent, in order. -/
def sentOf (ev : List Ev) : List Item :=
  ev.filterMap fun e => match e with
    | .sent i => some i
    | _ => none

/-- The effects of the client's frames, in order. -/
def didOf (ev : List Ev) : List Out :=
  ev.filterMap fun e => match e with
    | .did o => some o
    | _ => none

/-- The frames the server owes for an effect (the headers of a response among them). -/
def owed : Out → List Item
  | .goaway code => [.goaway code]
  | .rst sid code => [.rst sid code]
  | .windowUpdate sid n => [.windowUpdate sid n]
  | .pong => [.pong]
  | .settingsAck => [.settings, .settingsAck]
  | .dispatch sid _ _ _ => [.headers sid]
  | _ => []

/-- The requests handed to the application, in order. -/
def asked (os : List Out) : List Nat :=
  os.filterMap fun o => match o with
    | .dispatch sid _ _ _ => some sid
    | _ => none

/-- The DATA frame of a response of `len` bytes. -/
def bodyOf (sid : Nat) (len : Option Nat) : List Item :=
  if len.getD 0 = 0 then [] else [.dataHeader sid (len.getD 0), .data sid (len.getD 0)]

/-- Bytes of a list of frames. -/
def bytes (fs : List Frame) : Nat := (fs.map size).sum

/-- Bytes that arrive in a schedule. -/
def arriving : List Step → Nat
  | [] => 0
  | .arrive n :: ss => n + arriving ss
  | _ :: ss => arriving ss

/-- The client does not end its side. -/
def Step.isFin : Step → Bool
  | .fin => true
  | _ => false

/-- Turns of the event loop only: nothing arrives. -/
def Step.isTurn : Step → Bool
  | .turn _ _ _ => true
  | _ => false

/-- A well-formed SETTINGS frame. -/
def IsSettings (f : Frame) : Prop :=
  f.type = 4 ∧ f.sid = 0 ∧ f.length % 6 = 0 ∧ f.length ≤ 16384 ∧ H2S.flag f.flags 0 = false ∧ f.settings = .ok

/-- A well-formed PING frame. -/
def IsPing (f : Frame) : Prop := f.type = 6 ∧ f.sid = 0 ∧ f.length = 8

/-- Part of a response on another stream than `sid`, or the end of any response. -/
def Ev.progress (sid : Nat) : Ev → Bool
  | .sent (.dataHeader s _) => s != sid
  | .sent (.data s _) => s != sid
  | .log _ => true
  | _ => false

/-- The connection is open, everything sent by the client has been handled, and no response is under way. -/
structure Idle (l : Link) : Prop where
  closed : l.closed = false
  goaway : l.c.goaway = false
  ended : l.c.ended = false
  fin : l.fin = false
  eof : l.eof = false
  handler : l.handler = .wait
  read : l.row.read = true
  buf : l.buf = 0
  sock : l.sock = 0
  resps : l.resps = []

/-- The frame belongs to the stream `sid` of a request. -/
def ofStream (sid : Nat) (i : Item) : Prop :=
  i = .headers sid ∨ (∃ n, i = .dataHeader sid n) ∨ (∃ n, i = .data sid n) ∨ (∃ code, i = .rst sid code) ∨ (∃ n, i = .windowUpdate sid n)

/-- GOAWAY is in force (the client has said that it will make no more requests), and the connection is still open. -/
def SaidGoodbye (l : Link) : Prop := l.c.goaway = true ∧ l.closed = false

/-- A turn in which an event is reported for the socket. -/
def Wakes (w : Bool) (l : Link) : Prop := (l.row.read = true ∧ (0 < l.sock ∨ l.fin = true)) ∨ (l.row.write = true ∧ w = true)

/-- A state some schedule leads to, whatever the client sends. -/
def Reachable (app : Nat → Option Nat) (l : Link) : Prop :=
  ∃ maxBody input ss ev, run app (Link.start maxBody input) ss = .ok (l, ev)

/-- Turns of the event loop in each of which the socket can be written. -/
def pulse (m : List (Nat × List Nat)) : List Step := m.map fun x => .turn x.1 x.2 true

/-- A whole request in one HEADERS frame. -/
def IsRequest (f : Frame) : Prop :=
  f.type = 1 ∧ f.sid % 2 = 1 ∧ H2S.endStream f = true ∧ H2S.endHeaders f = true ∧ f.hdrsOk = true ∧ f.respOk = true

/-- Frames other than DATA, in order. -/
def control (is : List Item) : List Item :=
  is.filter fun i => match i with
    | .dataHeader _ _ | .data _ _ => false
    | _ => true

end Fly.H2L
