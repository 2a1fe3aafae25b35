import Verif.Nego.Model

/-! # The server's refusals over HTTP/1.1, as bytes

`Site.received` leaves the bytes of 400 and 413 out.  Here they are added: `fly_400_event_norequest`, src/response.c:920-965, for a request line that cannot be parsed
(src/request.c:1266-1267), `fly_400_response`, 898-918, for header fields that cannot be understood (src/request.c:1316-1373), and `fly_413_response`, 1156-1179, for a
content that is too long. -/

namespace Fly.Refuse
open ReqEvent (Env Reply Rcv St handle reuse)
open Keep (End next refusedLine handleLeft)
open Site (Site)

/-- `Keep.round` (the events of one round), with each response marked if it is the answer to a request line that cannot be parsed. -/
def round (e : Env) (app : Reply → Bool) : Nat → St → List Rcv → List (Reply × Bool) × End
  | 0, s, _ => ([], .open s)
  | f + 1, s, rs =>
    if rs = [] then ([], .open s)
    else
      match handle e s rs with
      | .wait s left => round e app f s left
      | .close => ([], .closed)
      | .error => ([], .failed)
      | .crash => ([], .failed)
      | .reply r =>
        match next app (refusedLine s rs) r with
        | .close => ([(r, refusedLine s rs)], .closed)
        | .undef => ([(r, refusedLine s rs)], .failed)
        | .again => ((r, refusedLine s rs) :: (round e app f (reuse s) (handleLeft e s rs)).1, (round e app f (reuse s) (handleLeft e s rs)).2)

/-- `Keep.session` with these marks. -/
def session (e : Env) (app : Reply → Bool) (s : St) : List (List Rcv) → List (Reply × Bool) × End
  | [] => ([], .open s)
  | r :: rounds =>
    match round e app r.length s r with
    | (out, .open s) => (out ++ (session e app s rounds).1, (session e app s rounds).2)
    | (out, fin) => (out, fin)

/-- A response of the server without content, src/response.c:898-965, 1156-1179. -/
def own (s : Site) (n : Nat) (conn : Bytes) : Option Bytes :=
  match PyBridge.serverHeader s.app.cfg0.date conn with
  | none => none
  | some h => (PyBridge.send s.app.cfg0 (some n) h none).map (·.bytes)

/-- The bytes of a response. -/
def bytes (s : Site) (now : Bytes → Bytes) (mem : Nat → Nat) (q : Reply) : Reply × Bool → Option Bytes
  | (.status 400, true) => own s 400 b!"close"
  | (.status 400, false) => own s 400 b!"keep-alive"
  | (.status 413, _) => own s 413 b!"close"
  | (r, _) => s.bytes now mem q r

/-- One response after the other is written, as in `Site.writeAll`. -/
def writeAll (s : Site) (mem : Nat → Nat) : List (Reply × Reply × Bool) → List (Bytes → Bytes) → List (List Send.Sys) → Bytes
  | [], _, _ => []
  | (q, r) :: l, ns, ss =>
    match bytes s (ns.headD fun _ => []) mem q r with
    | none => []
    | some bs =>
      match Send.h1Run bs 0 (ss.headD []) with
      | (out, true) => out ++ writeAll s mem l ns.tail ss.tail
      | (out, false) => out

/-- All bytes a client receives on a connection, as `Site.received`. -/
def received (s : Site) (mem : Nat → Nat) (rounds : List (List Rcv)) (ns : List (Bytes → Bytes)) (ss : List (List Send.Sys)) : Bytes :=
  writeAll s mem ((session (Site.asked s.full.env) (fun _ => true) St.init rounds).1.zip (session s.full.env s.full.keeps St.init rounds).1 |>.map fun p => (p.1.1, p.2)) ns ss

/-- The connection afterwards. -/
def after (s : Site) (rounds : List (List Rcv)) : End := (session s.full.env s.full.keeps St.init rounds).2

end Fly.Refuse
