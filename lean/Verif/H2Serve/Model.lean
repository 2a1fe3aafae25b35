import Verif.H2Wire.Model
import Verif.Serve.Model
import Verif.Nego.Model

/-! # A worker with any number of HTTP/2 connections and an application that keeps state

The event loop of a worker, src/event.c:845-928 (`fly_event_handler`), calls one handler after the other, each to its end (1008-1012).  The handler of an HTTP/2 connection is
that of Verif.H2Wire: it reads a frame (`fly_hv2_request_event_handler`, src/v2.c:1632-2130) and, when a request is complete, calls the function of the application and makes
the response (`fly_hv2_response_event_handler`, 4838-5033).  Which client's frame comes next is decided by the clients and the kernel.  Simplifications: those of
Verif.H2Wire; a connection that was closed is not opened again (its number is not used twice); timeouts and signals do not occur. -/

namespace Fly.H2Serve
open H2S (Out)
open H2Wire (Link Arrival contentOf)
open PyReq (PyRequest)
open Site (Site Served)

/-- An application with state and the files below its mount points. -/
structure Host (S : Type) where
  app : Serve.App S
  files : Bytes → Option Served
  read : Bytes → Option Int

/-- The site while the application has this state. -/
def Host.at {S : Type} (a : Host S) (s : S) : Site := Nego.negotiating ⟨a.app.at s, a.files, a.read⟩

/-- The call that `pyfly_route_handler`, src/pyserver.c:290-711, makes (compare `H2Trip.result`): the function of the route and the dictionary. -/
def call (a : Trip.App) (q : H2R.Seen) : Option (Nat × PyRequest) :=
  match a.find q.path q.method with
  | none => none
  | some r =>
    match Route.bind q.path r with
    | none => none
    | some ps =>
      match H2Trip.plainBody q.body with
      | none => none
      | some body =>
        match PyReq.pyRequest ⟨q.path, q.query, ps.map fun p => (p.var, p.value), q.fields, body⟩ with
        | .call p => some (r.fn, p)
        | _ => none

/-- The state the application has after this request, src/v2.c:4940-4972: only a request that gets to a function changes it. -/
def Host.next {S : Type} (a : Host S) (s : S) (r : H2R.Request) : S :=
  match H2R.answer (a.at s).full.env r with
  | .handler _ q =>
    match call a.app.base q with
    | some (i, p) => (a.app.fns i p s).2
    | none => s
  | _ => s

/-- The state after a frame, given what the frame has done (a frame completes at most one request). -/
def Host.after {S : Type} (a : Host S) (alloc : Nat → Bool) (s : S) : List Out → S
  | [] => s
  | .dispatch _ hs b d :: os =>
    match contentOf b with
    | none => a.after alloc s os
    | some b => a.after alloc (a.next s ⟨true, H2Trip.cells alloc hs, b, d⟩) os
  | _ :: os => a.after alloc s os

/-- What does not change: what each connection has (as in Verif.H2Trip), what the memory of its table holds, and the limits. -/
structure Setup where
  conn : Nat → H2Trip.Conn
  mem : Nat → Hpack.DNode
  limit : Nat
  maxBody : Nat

/-- The worker: the state of the application and the connections that have begun. -/
structure World (S : Type) where
  app : S
  link : Nat → Option Link

def World.start {S : Type} (s : S) : World S := ⟨s, fun _ => none⟩

/-- The connection with this number, `fly_hv2_state_init` if it is new (src/v2.c:206-221). -/
def linkOf (p : Setup) (l : Option Link) (i : Nat) : Link := l.getD (Link.init p.maxBody (p.mem i) p.limit)

/-- A frame of connection `i` is handled; what the server has put out and the responses. -/
def step {S : Type} (a : Host S) (p : Setup) (w : World S) (i : Nat) (f : Arrival) : Option (World S × List Out × List (Nat × Bytes)) :=
  match H2Wire.step (a.at w.app) (p.conn i) (linkOf p (w.link i) i) f with
  | none => none
  | some (l, os, rs) => some (⟨a.after f.alloc w.app os, fun j => if j = i then some l else w.link j⟩, os, rs)

/-- The frames of all connections in the order in which the worker reads them; what it puts out and the responses, each with its connection. -/
def run {S : Type} (a : Host S) (p : Setup) : World S → List (Nat × Arrival) → Option (World S × List (Nat × Out) × List (Nat × Nat × Bytes))
  | w, [] => some (w, [], [])
  | w, (i, f) :: es =>
    match step a p w i f with
    | none => none
    | some (w, os, rs) => (run a p w es).map fun q => (q.1, os.map (Prod.mk i) ++ q.2.1, rs.map (Prod.mk i) ++ q.2.2)

end Fly.H2Serve
