import Verif.Keep.Model
import Verif.Route.Spec
import Verif.PyReq.Model
import Verif.PyBridge.Model
import Verif.Multipart.Model
import Verif.Send.Model

/-! # A connection of an application over HTTP/1.1, from the bytes received to the bytes sent

The parts are those of Verif.Keep (receiving, parsing, persistence), Verif.Route (routes and path parameters), Verif.PyReq (the request dictionary),
Verif.PyBridge (the response) and Verif.Send (writing); this file puts them together as `fly_request_event_handler`, src/request.c:1192-1638,
`fly_response_event`, src/response.c:528-787, and `fly_after_response`, 494-507, do.  TLS is left out. -/

namespace Fly.Trip
open ReqEvent (Env Reply Rcv St File Nego)
open Req (ReqLine Method)
open Header (HList)
open PyReq (PyRequest CRequest)
open PyBridge (Ret Cfg)
open Response (SendBuf)

/-- An application and what the server is configured with.  `routes` are registered in this order; `fns` are the functions of the routes, called with the request
dictionary.  `cfg` is what the server brings to the response to a request with this header (date, negotiated coding, limits), `cfg0` what it
brings to its own responses, which have no content.  `own` is how the server sends its
own responses other than 404, and files. -/
structure App where
  routes : List (Bytes × Method × Nat)
  fns : Nat → PyRequest → Ret
  cfg : HList → Cfg
  cfg0 : Cfg
  maxLen : Nat
  nego : HList → Nego
  file : HList → Bytes → Option File
  own : Reply → Option SendBuf

/-- The route table of the application: `fly_register_route`, src/route.c:33-115, for one route after the other; a refused one is not registered. -/
def App.table (a : App) : List Route.Route := Route.registerAll [] a.routes

/-- `fly_found_route`, src/request.c:1498.  Simplification: the bytes behind the path in the request line, which only matter for routes with a parameter before the
last segment (`Route.matchFrom`), are taken as absent. -/
def App.find (a : App) (u : Bytes) (m : Method) : Option Route.Route := (Route.found u [] m a.table).getD none

/-- The environment of the request handler. -/
def App.env (a : App) : Env := ⟨a.maxLen, a.nego, fun u m => (a.find u m).map (·.fn), a.file⟩

/-- `pyfly_route_handler`, src/pyserver.c:290-920, and the completion of its response, src/request.c:1529-1547.  Undefined behaviour and bodies of type
`multipart/form-data` (their parts are modelled in Verif.Multipart and Verif.PyForm) are `none`. -/
def App.result (a : App) (l : ReqLine) (h : HList) (body : Option Bytes) : Option Ret :=
  match a.find l.uri l.method with
  | none => none
  | some r =>
    if body.isSome && Multipart.isMultipart h.items != some false then none
    else
      match Route.bind l.uri r with
      | none => some .raised
      | some ps =>
        match PyReq.pyRequest ⟨l.uri, l.query, ps.map fun p => (p.var, p.value), h.items, body⟩ with
        | .call p => some (a.fns r.fn p)
        | .error => some .raised
        | .undefined => none

/-- The bytes of a response: those of the application's function, of `fly_404_response` (src/response.c:987-1008) and `fly_406_response` (1070-1091), and the others. -/
def App.bytes (a : App) : Reply → Option SendBuf
  | .handler _ l h body =>
    match a.result l h body with
    | none => none
    | some ret => PyBridge.respond (a.cfg h) (decide (l.method = .head)) ret
  | .status n =>
    if n = 404 ∨ n = 406 then
      match PyBridge.serverHeader a.cfg0.date b!"keep-alive" with
      | none => none
      | some h => PyBridge.send a.cfg0 (some n) h none
    else a.own (.status n)
  | .file => a.own .file

/-- `fly_after_response`, src/response.c:494-507, with `fly_connection`, src/header.c:342-368, on the header of the response. -/
def keepsRet (c : Cfg) (head : Bool) (ret : Ret) : Bool :=
  match PyBridge.convert false head c.maxLen ret with
  | .reply st h body =>
    (match PyBridge.complete c.date h with
     | none => false
     | some h =>
       if PyBridge.prepareReply c (st.getD 0) h body = some .tooLarge then false
       else Header.connection h == some .keepAlive)
  | .tooLarge => false
  | .error => true
  | .undefined => false

/-- Whether the connection is kept after this response of the application. -/
def App.keeps (a : App) : Reply → Bool
  | .handler _ l h body =>
    match a.result l h body with
    | none => false
    | some ret => keepsRet (a.cfg h) (decide (l.method = .head)) ret
  | _ => true

/-- `fly_response_event` writes each response, src/response.c:724-744, by `fly_response_send`, 1587-1652; `ss` are the results of the write calls for each of them.
A response that is not defined, or not written to its end, is the last. -/
def writeAll (a : App) : List Reply → List (List Send.Sys) → Bytes
  | [], _ => []
  | r :: l, ss =>
    match a.bytes r with
    | none => []
    | some buf =>
      match Send.h1Run buf.bytes 0 (ss.headD []) with
      | (out, true) => out ++ writeAll a l ss.tail
      | (out, false) => out

/-- All bytes a client receives on a connection on which it sends these rounds (see Verif.Keep), with these results of the server's write calls. -/
def received (a : App) (rounds : List (List Rcv)) (ss : List (List Send.Sys)) : Bytes :=
  writeAll a (Keep.session a.env a.keeps St.init rounds).1 ss

/-- The connection afterwards. -/
def after (a : App) (rounds : List (List Rcv)) : Keep.End := (Keep.session a.env a.keeps St.init rounds).2

end Fly.Trip
