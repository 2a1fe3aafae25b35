import Verif.H2Wire.Model
import Verif.Access.Model

/-! # The access log of an HTTP/2 connection

`fly_hv2_response_event` (src/v2.c:5067-5340) goes on to `fly_response_log` (src/response.c:411-492) when all of a response has been sent (`stream->end_send_data`).  The connection is
that of Verif.H2Wire, the texts of the entries are those of Verif.Log.  Simplification: as in Verif.Access, an entry is written when it is made. -/

namespace Fly.H2Access
open Hpack (DTab)
open H2S (Out)
open H2Trip (Writes Resp Conn cells headerFrames writeFrames dynOf)
open H2Wire (Link Arrival At contentOf step winAt)
open Site (Site)
open Send (Win)
open Access (Ends)

/-- All of the response has been sent: `fly_send_data_frame`, src/v2.c:2557-2874, with `end_send_data` set in 2855-2864 (the stream is half closed by the client: the request is
complete).  Compare `H2Trip.send`; a response without content is done when the windows are open (2577-2581). -/
def finished (k : Conn) (dyn : List (Bytes × Bytes)) (sid : Nat) (w : Win) (r : Resp) (s : Writes) : Bool :=
  match headerFrames k dyn r with
  | none => false
  | some fs =>
    (writeFrames sid fs s.frames).2 &&
      (match Send.startData w r.plan.len with
       | .wait => false
       | .nothing => true
       | .frame n fin =>
         (Send.dataHeaderRun true (H2.frameHeader n 0 (if fin then 1 else 0) false sid) 0 s.dataHeader).2 &&
           decide ((H2B.payload true r.disk r.plan s.data).st = .done))

/-- `response->status_code`: set in src/pyserver.c:712-920 from the function's result, in `fly_respf` (src/response.c:1338), and in the responses of the server (src/response.c:855-1302).
0 where there is no response. -/
def status (s : Site) (r : H2R.Request) : Nat :=
  match H2R.answer s.full.env r with
  | .file => 200
  | .status n => n
  | .handler _ q =>
    match H2Trip.result s.full q with
    | none => 0
    | some ret =>
      match PyBridge.convert true (decide (q.method = .head)) (s.full.cfg ⟨q.fields, q.fields.length⟩).maxLen ret with
      | .reply st _ _ => st.getD 0
      | .tooLarge => 413
      | .error => 500
      | .undefined => 0
  | _ => 0

/-- `fly_log_request_line_hv2`, src/response.c:315-362: `uri.ptr` is all of `:path`; `uri.len` is that of the path if there is a query (src/request.c:1737).  Simplification: what is
kept of fields that are no request is left out (`none`). -/
def line (r : H2R.Request) : Option Bytes :=
  match H2R.requestLine r.ssl r.fields with
  | .ok m _ u =>
    match Req.target2 m u with
    | .ok p (some _) => some (Log.line2 (some (Req.methodName m)) (some (u, p.length)))
    | _ => some (Log.line2 (some (Req.methodName m)) (some (u, u.length)))
  | _ => none

/-- What is added to the file for a response, src/response.c:384-408, src/log.c:322-380; `stamp` is the time stamp with the number of the process. -/
def entry (c : Ends) (stamp line : Bytes) (status : Nat) : Bytes :=
  stamp ++ Log.stored (Log.accessText ⟨c.host, c.port, c.myHost, c.myPort, status⟩ line)

/-- What is added for the response to a request, nothing if the response is not sent to its end.  Compare `H2Wire.answer`. -/
def entryFor (s : Site) (k : Conn) (c : Ends) (t : DTab) (a : At) (sid : Nat) (hs : List (Bytes × Bytes)) (body : Option (Nat × Bytes)) (discard : Bool) (stamp : Bytes) : Option Bytes :=
  match contentOf body with
  | none => none
  | some b =>
    match H2Site.response s a.now ⟨true, cells a.alloc hs, b, discard⟩, line ⟨true, cells a.alloc hs, b, discard⟩ with
    | some r, some ln =>
      some (if finished k (dynOf t) sid a.win r a.writes then entry c stamp ln (status s ⟨true, cells a.alloc hs, b, discard⟩) else [])
    | _, _ => none

/-- What is added for the responses that follow a frame, and the time stamps left. -/
def entries (s : Site) (k : Conn) (c : Ends) (t : DTab) (a : At) : List Out → List Bytes → Option (Bytes × List Bytes)
  | [], stamps => some ([], stamps)
  | .dispatch sid hs b d :: os, stamps =>
    match entryFor s k c t a sid hs b d (stamps.headD []) with
    | none => none
    | some e => (entries s k c t a os stamps.tail).map fun q => (e ++ q.1, q.2)
  | _ :: os, stamps => entries s k c t a os stamps

/-- What a connection adds to the access log (compare `H2Wire.run`). -/
def logged (s : Site) (k : Conn) (c : Ends) : Link → List Arrival → List Bytes → Option Bytes
  | _, [], _ => some []
  | l, a :: as, stamps =>
    match step s k l a with
    | none => none
    | some (l', os, _) =>
      match entries s k c l'.t ⟨a, winAt l a⟩ os stamps with
      | none => none
      | some (e, stamps) => (logged s k c l' as stamps).map (e ++ ·)

end Fly.H2Access
