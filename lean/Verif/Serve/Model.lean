import Verif.Trip.Spec

/-! # A worker with any number of connections and an application that keeps state

The event loop of a worker, src/event.c:845-928 (`fly_event_handler`), calls one handler after the other, each to its end (1008-1012, `e->handler(e)`); there are no
threads.  The handlers of a connection are those of Verif.Trip: `fly_request_event_handler`, src/request.c:1192-1638, which calls the function of the
application when a request is complete, `fly_response_event`, src/response.c:528-787, which writes the response, and `fly_after_response`, 494-507.
Which connection is ready when, and how much arrives and is taken, is decided by the clients and the kernel; descriptors are polled level-triggered (src/event.h:32-33).
Simplifications: all connections are accepted already, plain TCP and HTTP/1.1 only; timeouts and signals do not occur; what follows a failed write is
taken as the end of the worker (see Verif.Conn for what happens then). -/

namespace Fly.Serve
open ReqEvent (Rcv St Reply Msg)
open Req (ReqLine)
open Header (HList)
open PyReq (PyRequest)
open PyBridge (Ret)

/-- An application with state: its functions get the request dictionary and leave a new state.  `base` is the rest of Verif.Trip's application; its functions are not used. -/
structure App (S : Type) where
  base : Trip.App
  fns : Nat → PyRequest → S → Ret × S

/-- The application while it has this state. -/
def App.at {S : Type} (a : App S) (s : S) : Trip.App := { a.base with fns := fun i p => (a.fns i p s).1 }

/-- The call that `pyfly_route_handler`, src/pyserver.c:290-920, makes: the function of the route and the dictionary. -/
def call (a : Trip.App) (l : ReqLine) (h : HList) (body : Option Bytes) : Option (Nat × PyRequest) :=
  match a.find l.uri l.method with
  | none => none
  | some r =>
    if body.isSome && Multipart.isMultipart h.items != some false then none
    else
      match Route.bind l.uri r with
      | none => none
      | some ps =>
        match PyReq.pyRequest ⟨l.uri, l.query, ps.map fun p => (p.var, p.value), h.items, body⟩ with
        | .call p => some (r.fn, p)
        | _ => none

/-- The state the application has after this response was made in this state. -/
def App.next {S : Type} (a : App S) (s : S) : Reply → S
  | .handler _ l h body =>
    match call a.base l h body with
    | some (i, p) => (a.fns i p s).2
    | none => s
  | _ => s

/-- What the event of a connection is waiting for. -/
inductive Phase where
  | reading (s : St)
  /-- a response is being written; whether the connection is kept after it -/
  | writing (out : Bytes) (keep : Bool)
  | closed
  deriving DecidableEq, Repr

/-- A connection: its event, what `recv` will give, and all bytes the client has received.  Of the client: the pieces of the current request that have not arrived, the
number of requests it has begun, the requests it will make. -/
structure Conn where
  phase : Phase
  inq : List Rcv
  got : Bytes
  rest : List Rcv
  begun : Nat
  todo : List (Msg × List Rcv)

/-- The worker: the state of the application, the connections, whether it is running, and the answered requests in the order in which they were handled. -/
structure World (S : Type) where
  app : S
  conn : Nat → Conn
  up : Bool
  log : List (Nat × Reply)

/-- What happens next. -/
inductive Ev where
  /-- client `k` goes on with its requests -/
  | send (k : Nat)
  /-- anything at all arrives on connection `k`, from a client without a list of requests -/
  | wild (k : Nat) (r : Rcv)
  /-- the worker calls the handler of connection `k`; these are the results of the write calls it makes -/
  | poll (k : Nat) (w : List Send.Sys)

def World.set {S : Type} (w : World S) (k : Nat) (c : Conn) : World S := { w with conn := fun j => if j = k then c else w.conn j }

/-- All requests of a client (`none`: it sends whatever it likes), and the worker at the beginning. -/
def World.start {S : Type} (s : S) (plan : Nat → Option (List (Msg × List Rcv))) : World S :=
  ⟨s, fun k => ⟨.reading St.init, [], [], [], 0, (plan k).getD []⟩, true, []⟩

/-- A client sends the next piece of its request.  It begins the next request when it has read the responses to all before. -/
def Conn.send (c : Conn) : Conn :=
  match c.rest with
  | r :: rest => { c with inq := c.inq ++ [r], rest := rest }
  | [] =>
    match c.todo with
    | [] => c
    | (_, ps) :: todo => if (Trip.client c.got).map List.length = some c.begun then { c with rest := ps, begun := c.begun + 1, todo := todo } else c

/-- `fly_request_event_handler` with the pending results of `recv`. -/
def reads {S : Type} (a : App S) (w : World S) (k : Nat) (s : St) : World S :=
  let c := w.conn k
  if c.inq = [] then w
  else
    match ReqEvent.handle a.base.env s c.inq with
    | .wait s' left => w.set k { c with phase := .reading s', inq := left }
    | .close => w.set k { c with phase := .closed }
    | .error => { w with up := false }
    | .crash => { w with up := false }
    | .reply r =>
      match (a.at w.app).bytes r with
      | none => { w with up := false }
      | some buf =>
        match Keep.next (a.at w.app).keeps (Keep.refusedLine s c.inq) r with
        | .undef => { w with up := false }
        | .again =>
          { (w.set k { c with phase := .writing buf.bytes true, inq := Keep.handleLeft a.base.env s c.inq }) with app := a.next w.app r, log := w.log ++ [(k, r)] }
        | .close =>
          { (w.set k { c with phase := .writing buf.bytes false, inq := Keep.handleLeft a.base.env s c.inq }) with app := a.next w.app r, log := w.log ++ [(k, r)] }

/-- `fly_response_event` writes, then `fly_after_response`. -/
def writes {S : Type} (w : World S) (k : Nat) (out : Bytes) (keep : Bool) (ss : List Send.Sys) : World S :=
  let c := w.conn k
  match Send.h1Run out 0 ss with
  | (o, true) => w.set k { c with phase := if keep then .reading St.init else .closed, got := c.got ++ o }
  | (o, false) =>
    if ss = [] ∨ ss.getLast? = some .block then w.set k { c with got := c.got ++ o }
    else { w with up := false }

/-- One event. -/
def step {S : Type} (a : App S) (plan : Nat → Option (List (Msg × List Rcv))) (w : World S) : Ev → World S
  | .send k => w.set k (w.conn k).send
  | .wild k r => if (plan k).isNone then w.set k { w.conn k with inq := (w.conn k).inq ++ [r] } else w
  | .poll k ss =>
    if !w.up then w
    else
      match (w.conn k).phase with
      | .closed => w
      | .reading s => reads a w k s
      | .writing out keep => writes w k out keep ss

/-- Any sequence of events. -/
def run {S : Type} (a : App S) (plan : Nat → Option (List (Msg × List Rcv))) (w : World S) (es : List Ev) : World S := es.foldl (step a plan) w

end Fly.Serve
