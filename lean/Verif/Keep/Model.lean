import Verif.ReqEvent.Props

/-! # Several requests on one connection: `fly_after_response`, src/response.c:494-507, and `__fly_response_reuse_handler`, 265-304

The handling of each request is that of Verif.ReqEvent.  Time on a connection is divided into rounds: a round is the list of `recv` results between two moments
at which the client has seen all responses made so far; when it is used up `recv` would block. -/

namespace Fly.Keep
open ReqEvent
open Req (ReqLine)

/-! ## The `recv` results that one call of the request handler leaves -/

/-- `__fly_discard_body`, src/request.c:955-993. -/
def discardLeft (s : St) (rs : List Rcv) : List Rcv :=
  if bodyLength s.header ≤ s.discardLen then rs else (receive { s with discard := true } false rs).2.2

/-- `__fase_body`, src/request.c:1383-1487: only a body that is thrown away is received here. -/
def bodyLeft (e : Env) (s : St) (rs : List Rcv) : List Rcv :=
  if s.line = none then rs
  else if Header.expect100 s.header then rs
  else if bodyLength s.header > e.maxLen then discardLeft { s with fase := .body } rs
  else rs

/-- `__fase_header`, src/request.c:1283-1381. -/
def headerLeft (e : Env) (s : St) (rs : List Rcv) : List Rcv :=
  if !s.gotHeader then rs
  else if s.buf = [] then rs
  else
    match ReqHeader.headerOperation s.buf with
    | .ok h rest =>
      if e.nego h ≠ .ok then rs
      else if Header.contentLength h = 0 then rs
      else bodyLeft e { s with fase := .header, header := h, buf := rest.dropLast, discardLen := s.discardLen + rest.dropLast.length } rs
    | _ => rs

/-- `__fase_request_line`, src/request.c:1259-1280. -/
def lineLeft (e : Env) (s : St) (rs : List Rcv) : List Rcv :=
  match search b!"\r\n" b!"\r\n" 0 s.buf with
  | none => rs
  | some n =>
    if n ≥ 8000 then rs
    else
      match Req.parseReqline (s.buf.take n) with
      | .ok l => headerLeft e { s with fase := .line, line := some l, buf := s.buf.drop n } rs
      | _ => rs

/-- `fly_request_event_handler`, src/request.c:1192-1638. -/
def handleLeft (e : Env) (s : St) (rs : List Rcv) : List Rcv :=
  if s.discard then bodyLeft e s rs
  else
    match receive s false rs with
    | (.success, s, rs) =>
      (match s.fase with
       | .line => lineLeft e s rs
       | .header => headerLeft e s rs
       | .body => bodyLeft e s rs)
    | (_, _, rs) => rs

/-! ## After a response -/

/-- The request line was refused by this call (`response_400_norequest`, src/request.c:1266-1268). -/
def refusedLine (s : St) (rs : List Rcv) : Bool :=
  !s.discard &&
    (match receive s false rs with
     | (.success, s, _) =>
       s.fase == .line &&
         (match search b!"\r\n" b!"\r\n" 0 s.buf with
          | some n => decide (n < 8000) && decide (Req.parseReqline (s.buf.take n) = .bad)
          | none => false)
     | _ => false)

inductive Next where
  | again | close
  /-- after 100, see Conn and `C50_after_100_undefined_refuted` -/
  | undef
  deriving DecidableEq, Repr

/-- `fly_after_response`, src/response.c:494-507: the Connection field of the *response* decides.  The server's own responses say keep-alive (src/response.c:869-1351)
but for a refused request line (952) and 413 (1174).  `app` tells whether the response of the application keeps the connection. -/
def next (app : Reply → Bool) (refused : Bool) (r : Reply) : Next :=
  match r with
  | .status n => if refused then .close else if n = 413 then .close else if n = 100 then .undef else .again
  | .file => .again
  | .handler .. => if app r then .again else .close

inductive End where
  /-- the connection is open, a request is being read -/
  | open (s : St)
  | closed
  /-- the worker fails -/
  | failed
  deriving DecidableEq, Repr

/-- The events of one round: the responses made, and the state of the connection then. -/
def round (e : Env) (app : Reply → Bool) : Nat → St → List Rcv → List Reply × End
  | 0, s, _ => ([], .open s)
  | f + 1, s, rs =>
    if rs = [] then ([], .open s)
    else
      match handle e s rs with
      | .wait s left => round e app f s left
      | .close => ([], .closed)
      | .error => ([], .failed)
      | .crash => ([], .failed)
      | .reply r =>
        match next app (refusedLine s rs) r with
        | .close => ([r], .closed)
        | .undef => ([r], .failed)
        | .again => (r :: (round e app f (reuse s) (handleLeft e s rs)).1, (round e app f (reuse s) (handleLeft e s rs)).2)

/-- A connection, round by round. -/
def session (e : Env) (app : Reply → Bool) (s : St) : List (List Rcv) → List Reply × End
  | [] => ([], .open s)
  | r :: rounds =>
    match round e app r.length s r with
    | (out, .open s) => (out ++ (session e app s rounds).1, (session e app s rounds).2)
    | (out, fin) => (out, fin)

end Fly.Keep
