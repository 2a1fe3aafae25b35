import Verif.Basic

/-! # The life of a connection in a worker: src/connect.c, src/ssl.c, src/version.c, with the handlers of src/request.c, src/response.c and src/v2.c that end it

Resources are followed by their state only.  What the parser makes of a request and the bytes of a response are the subject of other areas; here
the results of the system calls and of the TLS library are inputs. -/

namespace Fly.Conn

/-! ## ALPN -/

/-- What becomes of a comparison of one protocol name with the client's list. -/
inductive Cmp where
  | found | absent
  /-- a byte outside of the list is read -/
  | undef
  /-- the loop is still running after the given number of rounds -/
  | running
  deriving DecidableEq, Repr

/-- A byte read through `char *`, which is signed on the platforms in question. -/
def signed (b : Nat) : Int := if 128 ≤ b then (b : Int) - 256 else b

/-- `list[p]`, `none` outside. -/
def rd (l : Bytes) (p : Int) : Option Nat := if p < 0 then none else l[p.toNat]?

/-- `__fly_ssl_strcmp`, src/ssl.c:130-145, with equal lengths (not 0). -/
def sameAt (l : Bytes) : Bytes → Int → Option Bool
  | [], _ => some true
  | c :: cs, p =>
    match rd l p with
    | none => none
    | some x => if x = c then sameAt l cs (p + 1) else some false

/-- `__fly_ssl_alpn_cmp`, src/ssl.c:147-163, from position `p`, for so many rounds. -/
def alpnCmp (name l : Bytes) : Nat → Int → Cmp
  | 0, _ => .running
  | f + 1, p =>
    match rd l p with
    | none => .undef
    | some b =>
      let len := signed b
      let q := p + 1
      match (if (name.length : Int) = len then sameAt l name q else some false) with
      | none => .undef
      | some true => .found
      | some false => if (l.length : Int) - 1 ≤ q + len - 1 then .absent else alpnCmp name l f (q + len)

inductive Version where
  | v1 | v2
  deriving DecidableEq, Repr

inductive Alpn where
  | selected (v : Version) | noack | undef | running
  deriving DecidableEq, Repr

/-- `__fly_ssl_alpn`, src/ssl.c:165-178, over `versions[]`, src/version.c:6-10. -/
def alpn (l : Bytes) (rounds : Nat) : Alpn :=
  match alpnCmp b!"h2" l rounds 0 with
  | .found => .selected .v2
  | .undef => .undef
  | .running => .running
  | .absent =>
    match alpnCmp b!"http/1.1" l rounds 0 with
    | .found => .selected .v1
    | .undef => .undef
    | .running => .running
    | .absent => .noack

/-- The protocol of a connection after the handshake, src/ssl.c:229-230, src/version.c:93-113: the selected one; without a selection the default, HTTP/1.1. -/
def versionOf : Option Version → Version
  | some v => v
  | none => .v1

/-! ## Objects -/

inductive Obj where
  | null | conn | accept | request | response
  deriving DecidableEq, Repr

inductive Life where
  | none | live | freed
  deriving DecidableEq, Repr

inductive Worker where
  | up | exited | undef
  deriving DecidableEq, Repr

/-- The handler called when the socket is ready. -/
inductive Handler where
  | recognize | handshake | http1 | response | http2
  deriving DecidableEq, Repr

/-- The handler called when the time is over, or the process ends. -/
inductive Release where
  | listenEnd | acceptEnd | request | response | http2
  deriving DecidableEq, Repr

/-- A connection and its event; `lost` counts the requests and responses that nothing refers to any more. -/
structure St where
  tls : Bool
  worker : Worker
  event : Bool
  handler : Handler
  release : Release
  data : Obj
  expired : Obj
  ended : Obj
  sock : Bool
  sslFlag : Bool
  ssl : Life
  conn : Life
  acc : Life
  req : Life
  res : Life
  lost : Nat
  deriving DecidableEq, Repr

def St.bad (s : St) : St := { s with worker := .undef }

/-- `fly_accept_listen_socket_handler`, src/connect.c:185-260, when a connection was accepted.  `FLY_EVENT_END_HANDLER` stores its data in `event_data`
(src/event.h:221-225), so `end_event_data` keeps its initial NULL (src/event.c:218). -/
def accepted (tls : Bool) : St :=
  ⟨tls, .up, true, .recognize, .listenEnd, .conn, .conn, .null, true, false, .none, .live, .none, .none, .none, 0⟩

/-- Results of `accept`. -/
inductive AcceptRes where
  | ok | again
  /-- any other error number -/
  | error (errno : Nat)
  deriving DecidableEq, Repr

/-- src/connect.c:217-228: what the listening event makes of the result.  `conn_sock`, which is -1 here, is compared with `EMFILE` and `ENFILE`. -/
def onAccept (tls : Bool) : AcceptRes → Worker × Option St
  | .ok => (.up, some (accepted tls))
  | .again => (.up, none)
  | .error _ => (.exited, none)

/-- `fly_connect_release`, src/connect.c:77-92. -/
def connRelease (s : St) : St :=
  if s.conn ≠ .live then s.bad
  else if s.sslFlag && s.ssl ≠ .live then s.bad
  else if !s.sock then s.bad
  else { s with ssl := if s.sslFlag then .freed else s.ssl, sock := false, conn := .freed }

def reqRelease (s : St) : St := if s.req = .live then { s with req := .freed } else s.bad
def resRelease (s : St) : St := if s.res = .live then { s with res := .freed } else s.bad

/-- `e->flag = FLY_CLOSE_EV` and `fly_event_unregister`, src/event.c:476-557: the event is freed; the socket leaves the poll set only by being closed. -/
def gone (s : St) : St := { s with event := false }

/-- `fly_listen_socket_end_handler`, src/connect.c:343-352. -/
def listenEnd (s : St) : St := if s.ended = .conn then connRelease s else s.bad

/-- `fly_accept_end_timeout_handler`, src/ssl.c:54-63. -/
def acceptEnd (s : St) : St :=
  if s.expired ≠ .conn then s.bad
  else if s.ssl ≠ .live then s.bad
  else listenEnd { s with ssl := .freed }

/-- `fly_request_timeout_handler`, src/request.c:1168-1185. -/
def requestEnd (s : St) : St := if s.data = .request then connRelease (reqRelease s) else s.bad

/-- `fly_response_timeout_release_handler`, src/response.c:224-242, and `__fly_response_release_handler`, 244-263. -/
def responseEnd (s : St) : St := if s.data = .response then connRelease (resRelease (reqRelease s)) else s.bad

/-- `fly_hv2_timeout_handle`, `fly_hv2_end_handle`, `fly_hv2_close_handle`, src/v2.c:1423-1471 (streams left out). -/
def http2End (s : St) : St := if s.expired = .conn then connRelease s else s.bad

/-- The expired or end handler; then the event is unregistered (src/event.c:632-641). -/
def expire (s : St) : St :=
  gone (match s.release with
    | .listenEnd => listenEnd s
    | .acceptEnd => acceptEnd s
    | .request => requestEnd s
    | .response => responseEnd s
    | .http2 => http2End s)

/-- A new request, or response, is made for the event.  One that is still there is forgotten: nothing refers to it any more. -/
def newReq (s : St) : St := { s with req := .live, lost := s.lost + (if s.req = .live then 1 else 0) }
def newRes (s : St) : St := { s with res := .live, lost := s.lost + (if s.res = .live then 1 else 0) }

/-- `fly_listen_connected`, src/connect.c:114-168; the first call of the HTTP handler in it is the next input. -/
def connected (s : St) : Version → St
  | .v1 => { newReq s with handler := .http1, release := .request, data := .request, expired := .request }
  | .v2 => { s with handler := .http2, release := .http2, data := .conn, expired := .conn }

/-- `fly_400_event_norequest`, src/response.c:922-967: a new request is made for the connection; an earlier one is forgotten. -/
def respondNoRequest (s : St) : St :=
  { newRes (newReq s) with handler := .response, release := .response, data := .response, expired := .response }

/-- Other responses, e.g. `fly_400_event`, src/response.c:970-985, and src/request.c:1620-1634. -/
def respond (s : St) : St :=
  { newRes s with handler := .response, release := .response, data := .response, expired := .response }

/-- Results of `recv(MSG_PEEK)`. -/
inductive Peek where
  | again | eof | error | byte (b : Nat)
  deriving DecidableEq, Repr

/-- `fly_recognize_protocol_of_connected`, src/connect.c:262-341.  A handshake begins with the byte 22 (`FLY_TLS_HANDSHAKE_MAGIC`).  Failures of `SSL_new` and of allocation
are left out; the first `SSL_accept` is the next input. -/
def recognize (s : St) : Peek → St
  | .again => s
  | .eof => gone (connRelease s)
  | .error => { s with worker := .exited }
  | .byte b =>
    if b = 22 then
      if s.tls then
        { s with handler := .handshake, release := .acceptEnd, data := .accept, expired := .conn, sslFlag := true, ssl := .live, acc := .live }
      else gone (connRelease s)
    else if s.tls then respondNoRequest s
    else connected s .v1

/-- Results of `SSL_accept` as seen through `SSL_get_error` and `errno`. -/
inductive Shake where
  | ok (selected : Option Version)
  | wantRead | wantWrite
  /-- `SSL_ERROR_SYSCALL` with `errno` EPIPE or 0 (the peer closed the connection) -/
  | syscallGone
  | syscall | ssl | other
  deriving DecidableEq, Repr

/-- `__fly_ssl_accept_event_handler`, src/ssl.c:180-283: `disconnect` frees the TLS object but neither closes the socket nor releases the connection. -/
def handshake (s : St) : Shake → St
  | .ok v => connected { s with data := .conn, acc := .freed } (versionOf v)
  | .wantRead => { s with data := .accept }
  | .wantWrite => { s with data := .accept }
  | .syscallGone => gone { s with ssl := .freed, acc := .freed }
  | .syscall => gone { connRelease s with acc := .freed }
  | .ssl => gone { connRelease s with acc := .freed }
  | .other => gone { connRelease s with acc := .freed }

/-- What `fly_request_event_handler` comes to, src/request.c:1192-1638. -/
inductive Req where
  /-- more input is needed -/
  | more
  | eof
  /-- `recv` or `SSL_read` fails otherwise, e.g. with ECONNRESET -/
  | error
  /-- the request line is malformed -/
  | badLine
  | answer
  deriving DecidableEq, Repr

/-- src/request.c:1192-1638: a failing `recv` ends the worker at once (src/request.c:1062-1071), a failing `SSL_read` fails the event, whose
`fail_close` handler releases everything (src/event.c:972-977, src/request.c:1187-1190). -/
def http1 (s : St) : Req → St
  | .more => s
  | .eof => if s.data = .request then gone (reqRelease (connRelease s)) else s.bad
  | .error => if s.sslFlag then gone (requestEnd s) else { s with worker := .exited }
  | .badLine => respondNoRequest s
  | .answer => respond s

/-- What `fly_response_event` comes to, src/response.c:525-791. -/
inductive Resp where
  | again | epipe | error
  /-- sent, the connection is kept -/
  | keep
  /-- sent, the connection is closed -/
  | close
  /-- the interim response 100 was sent, the body of the request is to be read -/
  | interim
  deriving DecidableEq, Repr

/-- `res->request` is read, for the event data. -/
def backToRequest (s : St) : St :=
  if s.res = .live then { s with handler := .http1, data := .request, expired := .request } else s.bad

/-- src/response.c:733-768 (after 100 the response is released before its request is read from it, 752-767): 265-304 when the connection is kept. -/
def response (s : St) : Resp → St
  | .again => { s with data := .response }
  | .epipe => gone (responseEnd s)
  | .error => gone (responseEnd s)
  | .close => gone (responseEnd s)
  | .interim => backToRequest (resRelease s)
  | .keep =>
    if s.data = .response then
      { newReq (resRelease (reqRelease s)) with handler := .http1, release := .request, data := .request, expired := .request }
    else s.bad

/-- What can happen to a connection. -/
inductive In where
  | peek (r : Peek)
  | shake (r : Shake)
  | req (r : Req)
  | resp (r : Resp)
  /-- the client was silent for too long -/
  | timeout
  /-- the process ends in an orderly way (src/event.c:156-168) -/
  | finish
  deriving DecidableEq, Repr

/-- One event.  The socket of an event that was freed without closing the socket is still polled: the next report leads to the freed event. -/
def step (s : St) (i : In) : St :=
  if s.worker ≠ .up then s
  else if !s.event then (if s.sock then s.bad else s)
  else
    match i, s.handler with
    | .peek r, .recognize => recognize s r
    | .shake r, .handshake => handshake s r
    | .req r, .http1 => http1 s r
    | .resp r, .response => response s r
    | .timeout, _ => expire s
    | .finish, _ => expire s
    | _, _ => s

def run (s : St) (is : List In) : St := is.foldl step s

end Fly.Conn
