import Verif.Refuse.Model
import Verif.Log.Model

/-! # The access log of an HTTP/1.1 connection

`fly_response_log`, src/response.c:411-492, is called for each response when all of it has been written (src/response.c:748-750).  The texts of the entries are those of
Verif.Log; here they are put together with the connection (Verif.Refuse).  Simplifications: an entry is written when it is made (the event for it is handled later; the
events are handled in the order in which they are made, see Verif.Dispatch, and entries are written whole, see Verif.Log); the results of `write` are those of `C106_written_partial`. -/

namespace Fly.Access
open ReqEvent (Env Reply Rcv St handle reuse receive search)
open Keep (End next refusedLine handleLeft)
open Site (Site)
open Header (HList)
open PyBridge (Cfg Ret)

/-! ## The request line that is kept -/

/-- `req->request_line->request_line` after a call of the request handler: `__fly_request_operation`, src/request.c:655-670, copies the line with its CRLF before it is parsed. -/
def keptLine (s : St) (raw : Option Bytes) (rs : List Rcv) : Option Bytes :=
  if s.discard then raw
  else
    match receive s false rs with
    | (.success, s, _) =>
      (match s.fase with
       | .line =>
         (match search b!"\r\n" b!"\r\n" 0 s.buf with
          | some n => if n ≥ 8000 then raw else some (s.buf.take n)
          | none => raw)
       | _ => raw)
    | _ => raw

/-- The line the response refers to: `fly_400_event_norequest`, src/response.c:937-939, answers a new request without one. -/
def answeredLine (s : St) (raw : Option Bytes) (rs : List Rcv) : Option Bytes := if refusedLine s rs then none else keptLine s raw rs

/-- `Refuse.round`, with the line of each request; at the end, the line kept for the request that is being read. -/
def round (e : Env) (app : Reply → Bool) : Nat → St → Option Bytes → List Rcv → List (Reply × Bool × Option Bytes) × End × Option Bytes
  | 0, s, raw, _ => ([], .open s, raw)
  | f + 1, s, raw, rs =>
    if rs = [] then ([], .open s, raw)
    else
      match handle e s rs with
      | .wait s' left => round e app f s' (keptLine s raw rs) left
      | .close => ([], .closed, none)
      | .error => ([], .failed, none)
      | .crash => ([], .failed, none)
      | .reply r =>
        match next app (refusedLine s rs) r with
        | .close => ([(r, refusedLine s rs, answeredLine s raw rs)], .closed, none)
        | .undef => ([(r, refusedLine s rs, answeredLine s raw rs)], .failed, none)
        | .again =>
          ((r, refusedLine s rs, answeredLine s raw rs) :: (round e app f (reuse s) none (handleLeft e s rs)).1, (round e app f (reuse s) none (handleLeft e s rs)).2)

/-- `Refuse.session` with these lines. -/
def session (e : Env) (app : Reply → Bool) (s : St) (raw : Option Bytes) : List (List Rcv) → List (Reply × Bool × Option Bytes)
  | [] => []
  | r :: rounds =>
    match round e app r.length s raw r with
    | (out, .open s, raw) => out ++ session e app s raw rounds
    | (out, _, _) => out

/-! ## The status of a response when it is written -/

/-- `PyBridge.send`, src/response.c:569-581, 716-717, 783-784: a response whose encoded form is too long is replaced. -/
def sentStatus (c : Cfg) (status : Option Nat) (h : HList) (body : Option Bytes) : Nat :=
  if PyBridge.prepareReply c (status.getD 0) h body = some .tooLarge then 413 else status.getD 0

/-- The response to the result of the application's function, src/request.c:1533-1547 (`PyBridge.respond`). -/
def resultStatus (c : Cfg) (head : Bool) (r : Ret) : Nat :=
  let go (status : Option Nat) (h : Option HList) (body : Option Bytes) : Nat :=
    match h with
    | none => 0
    | some h =>
      match PyBridge.complete c.date h with
      | none => 0
      | some h => sentStatus c status h body
  match PyBridge.convert false head c.maxLen r with
  | .reply st h body => go st (some h) body
  | .tooLarge => go (some 413) (PyBridge.serverHeader c.date b!"close") none
  | .error => go (some 500) (PyBridge.serverHeader c.date b!"keep-alive") none
  | .undefined => 0

/-- `response->status_code` of a response of the server without content. -/
def ownStatus (s : Site) (n : Nat) (conn : Bytes) : Nat :=
  match PyBridge.serverHeader s.app.cfg0.date conn with
  | none => 0
  | some h => sentStatus s.app.cfg0 (some n) h none

/-- The status of a response (0 where its bytes are not defined). -/
def status (s : Site) (q : Reply) : Reply × Bool → Nat
  | (.status 400, true) => ownStatus s 400 b!"close"
  | (.status 400, false) => ownStatus s 400 b!"keep-alive"
  | (.status 413, _) => ownStatus s 413 b!"close"
  | (.status 405, _) =>
    (match q with
     | .handler _ l _ _ =>
       (match Site.notAllowedHeader s.app.cfg0.date s.app.table l.uri with
        | none => 0
        | some h => sentStatus s.app.cfg0 (some 405) h none)
     | _ => 0)
  | (.status n, _) => ownStatus s n b!"keep-alive"
  | (.file, _) => 200
  | (.handler _ l h body, _) =>
    match s.full.result l h body with
    | none => 0
    | some ret => resultStatus (s.full.cfg h) (decide (l.method = .head)) ret

/-! ## The log -/

/-- The addresses of a connection as texts: of the peer and of the server. -/
structure Ends where
  host : Bytes
  port : Bytes
  myHost : Bytes
  myPort : Bytes

/-- What is added to the file for a response, src/response.c:384-408, src/log.c:322-380; `stamp` is the time stamp with the number of the process. -/
def entry (c : Ends) (stamp : Bytes) (raw : Option Bytes) (status : Nat) : Bytes :=
  stamp ++ Log.stored (Log.accessText ⟨c.host, c.port, c.myHost, c.myPort, status⟩ (Log.line1 raw))

/-- `Refuse.writeAll` with an entry for each response that has been written to its end, src/response.c:730-750. -/
def logAll (s : Site) (mem : Nat → Nat) (c : Ends) : List (Reply × Reply × Bool × Option Bytes) → List (Bytes → Bytes) → List (List Send.Sys) → List Bytes → Bytes
  | [], _, _, _ => []
  | (q, r, b, raw) :: l, ns, ss, stamps =>
    match Refuse.bytes s (ns.headD fun _ => []) mem q (r, b) with
    | none => []
    | some bs =>
      match Send.h1Run bs 0 (ss.headD []) with
      | (_, true) => entry c (stamps.headD []) raw (status s q (r, b)) ++ logAll s mem c l ns.tail ss.tail stamps.tail
      | (_, false) => []

/-- What a connection adds to the access log (compare `Refuse.received`). -/
def logged (s : Site) (mem : Nat → Nat) (c : Ends) (rounds : List (List Rcv)) (ns : List (Bytes → Bytes)) (ss : List (List Send.Sys)) (stamps : List Bytes) : Bytes :=
  logAll s mem c
    (((Refuse.session (Site.asked s.full.env) (fun _ => true) St.init rounds).1.map (·.1)).zip (session s.full.env s.full.keeps St.init none rounds)) ns ss stamps

end Fly.Access
