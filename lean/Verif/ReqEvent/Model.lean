import Verif.ReqHeader.Model

/-! # HTTP/1 request handling: `fly_request_receive` and `fly_request_event_handler`, src/request.c:950-1638

The connection buffer is modelled as the list of bytes received and not yet consumed (its implementation is
refined to that list in Verif.Buffer), with zero bytes behind them.  A connection is the list of results of all
`recv` calls made on it, over any number of calls of the event handler, each of which takes results from the
front until it stops receiving; an exhausted list would block.  TLS reads differ only in how the results are
named.  Whether a piece fills the buffer to its limit is part of the result
(`limit`).  Allocation succeeds. -/

namespace Fly.ReqEvent
open Req (ReqLine Method)
open Header (HList)

/-- Result of one `recv`: bytes (and whether `fly_update_buffer` then reports the chain limit), nothing there
yet, end of the stream, or an error other than EAGAIN/EINTR (fatal: `fly_error_error` ends the process, 1066-1074). -/
inductive Rcv where
  | data (bs : Bytes) (limit : Bool)
  | block
  | eof
  | err
  deriving DecidableEq, Repr

/-- `EFLY_REQUEST_FASE_*` of the event. -/
inductive Fase where
  | line | header | body
  deriving DecidableEq, Repr

/-- `fly_request_t` with the connection buffer and the event's phase. -/
structure St where
  buf : Bytes
  fase : Fase
  gotLine : Bool
  gotHeader : Bool
  line : Option ReqLine
  header : HList
  discard : Bool
  discardLen : Nat
  deriving DecidableEq, Repr

/-- `fly_request_init`, src/request.c:17-51, on an empty connection buffer. -/
def St.init : St := ⟨[], .line, false, false, none, HList.init, false, 0⟩

/-- `fly_buffer_strstr_after` (src/buffer.c:191-225, 232-235) over the bytes: number of bytes up to and including the
match.  After a mismatch the mismatching byte is skipped (no backtracking). -/
def search (str : Bytes) : Bytes → Nat → Bytes → Option Nat
  | _, _, [] => none
  | [], _, _ => none
  | y :: s, n, x :: d =>
    if x = y then (if s = [] then some (n + 1) else search str s (n + 1) d)
    else search str str (n + 1) d

/-- `fly_buffer_strstr(first, str)` as a test. -/
def has (str d : Bytes) : Bool := (search str str 0 d).isSome

inductive RecvOut where
  | success | readBlock | ended | overflow | fatal
  deriving DecidableEq, Repr

/-- `fly_request_receive`, src/request.c:1000-1158 (the loop).  `total` tells whether something was received in
this call.  In discard mode the bytes are only counted (1108-1116). -/
def receive (s : St) (total : Bool) : List Rcv → RecvOut × St × List Rcv
  | [] => (if !s.discard && total then .success else .readBlock, s, [])
  | .block :: rs => (if !s.discard && total then .success else .readBlock, s, rs)
  | .eof :: rs => (.ended, s, rs)
  | .err :: rs => (.fatal, s, rs)
  | .data bs limit :: rs =>
    let all := s.buf ++ bs
    let l := !s.gotLine && has b!"\r\n" all
    let h := !s.gotHeader && has b!"\r\n\r\n" all
    let s1 := { s with gotLine := s.gotLine || l, gotHeader := s.gotHeader || h }
    if s.discard then receive { s1 with discardLen := s1.discardLen + bs.length } true rs
    else if limit then (.overflow, { s1 with buf := all }, rs)
    else if l || h then (.success, { s1 with buf := all }, rs)
    else receive { s1 with buf := all } true rs

/-- Result of the four negotiation steps (src/request.c:1316-1373). -/
inductive Nego where
  | ok | syntaxError | notAcceptable | error
  deriving DecidableEq, Repr

/-- A file found under the mounts. -/
structure File where
  dir : Bool
  notModified : Bool
  deriving DecidableEq, Repr

/-- The environment of the handler: limit, negotiation, registered routes and mounted files.  `notModified` of a
file is the outcome of `fly_if_none_match` or `fly_if_modified_since` (1601-1604). -/
structure Env where
  maxLen : Nat
  nego : HList → Nego
  route : Bytes → Method → Option Nat
  file : HList → Bytes → Option File

/-- A response chosen by the handler. -/
inductive Reply where
  /-- an error or empty response with this status -/
  | status (n : Nat)
  /-- the function of a registered route is called with this request line, header and body -/
  | handler (route : Nat) (l : ReqLine) (h : HList) (body : Option Bytes)
  /-- a file is sent with 200 -/
  | file
  deriving DecidableEq, Repr

/-- What one call of the event handler does; `left` are the `recv` results not taken yet. -/
inductive Out where
  | wait (s : St) (left : List Rcv)
  | reply (r : Reply)
  | close
  | error
  | crash
  deriving DecidableEq, Repr

/-- `__fase_end_of_parse`, src/request.c:1488-1520, 1600-1607.  The handler's own failure (NULL response) and
path parameter errors, answered 500, are not distinguished from a call. -/
def select (e : Env) (l : ReqLine) (h : HList) (body : Option Bytes) : Reply :=
  match e.route l.uri l.method with
  | some r => .handler r l h body
  | none =>
    match e.file h l.uri with
    | none => .status 404
    | some f =>
      if l.method ≠ .get then .status 405
      else if f.dir then .status 404
      else if f.notModified then .status 304
      else .file

/-- Building a response to a request reads the version of its request line (`is_fly_request_http_v2`,
src/request.h:50, in `fly_400_response` … `fly_respf`, src/response.c:806-1360).  Without a request line this
follows a null pointer; for HTTP/2 it follows `req->stream`, which `fly_request_init` (src/request.c:17-51)
does not set.  (413 is different: src/request.c:1561-1565 sets a line and version HTTP/1.1 before.) -/
def build (l : Option ReqLine) (r : Reply) : Out :=
  match l with
  | none => .crash
  | some l => if l.version = .v2 then .crash else .reply r

/-- The answer selected for a request with this line: application functions are called, other responses built. -/
def finish (e : Env) (l : ReqLine) (h : HList) (b : Option Bytes) : Out :=
  match select e l h b with
  | .handler r l h b => .reply (.handler r l h b)
  | r => build (some l) r

/-- `size_t content_length = fly_content_length(...)`, src/request.c:1390-1391: a negative value wraps. -/
def bodyLength (h : HList) : Nat := ((Header.contentLength h) % 18446744073709551616).toNat

/-- `__fly_discard_body`, src/request.c:955-993: receives until enough was counted. -/
def discard (e : Env) (s : St) (rs : List Rcv) : Out :=
  let s := { s with discard := true }
  if bodyLength s.header ≤ s.discardLen then .reply (.status 413)
  else
    match receive s false rs with
    | (.ended, _, _) => .close
    | (.fatal, _, _) => .error
    | (_, s, rs) => if s.discardLen < bodyLength s.header then .wait s rs else .reply (.status 413)

/-- `__fase_body`, src/request.c:1383-1487.  `fly_content_encoding` (src/header.c:370-394) compares with
"Content-Encoding". -/
def body (e : Env) (s : St) (rs : List Rcv) : Out :=
  match s.line with
  | none => .crash
  | some l =>
    let s := { s with fase := .body }
    let n := bodyLength s.header
    if Header.expect100 s.header then build (some l) (.status (if n > e.maxLen then 417 else 100))
    else if n > e.maxLen then discard e s rs
    else if s.buf = [] ∨ s.buf.length < n then .wait s rs
    else finish e l s.header (some (s.buf.take n))

/-- `__fase_header`, src/request.c:1283-1381. -/
def header (e : Env) (s : St) (rs : List Rcv) : Out :=
  let s := { s with fase := .header }
  if !s.gotHeader then .wait s rs
  else if s.buf = [] then .wait s rs
  else
    match ReqHeader.headerOperation s.buf with
    | .crash => .crash
    | .bad => build s.line (.status 400)
    | .middle rest => .wait { s with buf := rest.dropLast } rs
    | .ok h rest =>
      let s := { s with header := h, buf := rest.dropLast }
      match e.nego h with
      | .syntaxError => build s.line (.status 400)
      | .notAcceptable => build s.line (.status 406)
      | .error => .error
      | .ok =>
        if Header.contentLength h = 0 then
          (match s.line with
           | none => .crash
           | some l => finish e l h none)
        else body e { s with discardLen := s.discardLen + s.buf.length } rs

/-- `__fase_request_line`, src/request.c:1259-1280, with `__fly_request_operation` 642-683. -/
def line (e : Env) (s : St) (rs : List Rcv) : Out :=
  let s := { s with fase := .line }
  match search b!"\r\n" b!"\r\n" 0 s.buf with
  | none => .wait s rs
  | some n =>
    if n ≥ 8000 then build s.line (.status 414)
    else
      match Req.parseReqline (s.buf.take n) with
      | .crash => .crash
      | .bad => .reply (.status 400)
      | .ok l => header e { s with line := some l, buf := s.buf.drop n } rs

/-- `fly_request_event_handler`, src/request.c:1192-1638. -/
def handle (e : Env) (s : St) (rs : List Rcv) : Out :=
  if s.discard then body e s rs
  else
    match receive s false rs with
    | (.fatal, _, _) => .error
    | (.ended, _, _) => .close
    | (.readBlock, s, rs) => .wait s rs
    | (.overflow, _, _) => .reply (.status 413)
    | (.success, s, rs) =>
      match s.fase with
      | .line => line e s rs
      | .header => header e s rs
      | .body => body e s rs

/-- The life of a request: the handler is called again as long as it waits and there are `recv` results.  Each
call takes at least one result, so their number is enough fuel. -/
def serve (e : Env) : Nat → St → List Rcv → Out
  | 0, s, rs => .wait s rs
  | f + 1, s, rs =>
    if rs = [] then .wait s []
    else
      match handle e s rs with
      | .wait s left => serve e f s left
      | o => o

/-- A new connection. -/
def connection (e : Env) (rs : List Rcv) : Out := serve e rs.length St.init rs

/-- `fly_after_response` with keep-alive (`__fly_response_reuse_handler`, src/response.c:265-304): a new request
on a new, empty connection buffer, whatever was left in the old one. -/
def reuse (_ : St) : St := St.init

end Fly.ReqEvent
