import Verif.Trip.Model
import Verif.Hpack.Encode
import Verif.H2Frame.Model
import Verif.H2Request.Model
import Verif.H2Body.Model

/-! # A connection of an application over HTTP/2, from the header blocks received to the frames sent

The parts are those of Verif.Hpack (header blocks), Verif.H2Request (the request), Verif.Route and Verif.PyReq (its function), Verif.PyBridge (the response),
Verif.H2Body (its content), Verif.Send and Verif.H2Frame (frames); this file puts them together as `fly_hv2_response_event_handler`, src/v2.c:4838-5033, and
`fly_hv2_response_event`, 5067-5360, do.  The connection uses TLS, as HTTP/2 does (Verif.Conn).  What is left out: the frames around the header blocks and contents
received (Verif.H2Stream), the order in which the streams of a connection take turns (Verif.H2Loop) and files. -/

namespace Fly.H2Trip
open Trip (App)
open Header (HList HField)
open Hpack (DTab)
open PyBridge (Ret Cfg)
open Send (Sys Win OutFrame)
open H2B (Plan)
open Buffer (Cursor)

/-! ## The request -/

/-- A decoded field as a cell of the header list.  Empty names and values are null pointers or empty strings (`alloc`), by the form in which the field was sent:
src/header.c:69-97 (`fly_header_add`) and 191-216 (`fly_header_addbv`). -/
def cell (alloc : Bool) (e : Bytes × Bytes) : HField :=
  ⟨if e.1 = [] && !alloc then none else some e.1, if e.2 = [] && !alloc then none else some e.2⟩

def cells (alloc : Nat → Bool) (es : List (Bytes × Bytes)) : List HField := es.mapIdx fun i e => cell (alloc i) e

/-- The content as bytes, src/pyserver.c:615-625; the parts of a form are left out. -/
def plainBody : Option Multipart.Body → Option (Option Bytes)
  | none => some none
  | some (.bytes b) => some (some b)
  | some _ => none

/-- `pyfly_route_handler`, src/pyserver.c:290-711, called from src/v2.c:4967-4972.  Undefined behaviour, path parameters that do not fit and `multipart/form-data`
are `none`. -/
def result (a : App) (s : H2R.Seen) : Option Ret :=
  match a.find s.path s.method with
  | none => none
  | some r =>
    match Route.bind s.path r with
    | none => none
    | some ps =>
      match plainBody s.body with
      | none => none
      | some body =>
        match PyReq.pyRequest ⟨s.path, s.query, ps.map fun p => (p.var, p.value), s.fields, body⟩ with
        | .call p => some (a.fns r.fn p)
        | .error => some .raised
        | .undefined => none

/-! ## The response -/

/-- A response that is complete but for its frames; `disk` is the content of its file, for a response with one (see Verif.H2Site). -/
structure Resp where
  header : HList
  plan : Plan
  disk : Bytes

/-- The header list of `fly_400_response`, `fly_404_response`, `fly_406_response`, `fly_413_response` and `fly_500_response` over HTTP/2,
src/response.c:898-918, 987-1008, 1070-1091, 1156-1177, 1281-1302. -/
def serverHeader (date : Bytes) : HList := Header.addVerIfNo (Header.addVerIfNo HList.init b!"server" b!"fly") b!"date" date

/-- `fly_add_content_encoding`, src/header.c:503-517, called in src/v2.c:5171. -/
def addCoding (c : Cfg) (h : HList) : Option Response.Coding → HList
  | some k => Header.add h b!"content-encoding" (c.encName k) false
  | none => h

/-- `fly_hv2_response_event`, src/v2.c:5100-5280, for a response without file.  `none`: undefined.  A content whose encoded form is too long makes the response be released
twice, by `fly_hv2_remove_response` (4805, called in 5346) and in 5347.  Configured default contents are left out (see Verif.H2Body). -/
def finish (c : Cfg) (status : Option Nat) (h : HList) (body : Option Bytes) : Option Resp :=
  match PyBridge.statusPseudo status h with
  | none => none
  | some h =>
    if body = none && (c.dflt (status.getD 0)).isSome then none
    else
      match H2B.prepare c.compress c.overflow c.threshold c.acc false body none none with
      | none => none
      | some .tooLarge => none
      | some (.ready p) =>
        -- 5158, 5183, 5278, 5280, `fly_add_content_length`, src/header.c:519-533
        match Header.addModify (addCoding c h p.coding) b!"content-length" (Response.contLenStr p.contentLength) with
        | none => none
        | some h => some ⟨h, p, []⟩

/-- From the function's result to the response, src/pyserver.c:712-920 and src/v2.c:4970-4990. -/
def respond (c : Cfg) (head : Bool) (r : Ret) : Option Resp :=
  match PyBridge.convert true head c.maxLen r with
  | .reply st h body => finish c st (PyBridge.completeV2 c.date h) body
  | .tooLarge => finish c (some 413) (PyBridge.completeV2 c.date (serverHeader c.date)) none
  | .error => finish c (some 500) (PyBridge.completeV2 c.date (serverHeader c.date)) none
  | .undefined => none

/-- The response to a request, src/v2.c:4967-5025.  Files and the statuses that come with more fields (304, 405) are left out. -/
def response (a : App) : H2R.Out → Option Resp
  | .handler _ s =>
    match result a s with
    | none => none
    | some ret => respond (a.cfg ⟨s.fields, s.fields.length⟩) (decide (s.method = .head)) ret
  | .status n => if n = 400 ∨ n = 404 ∨ n = 406 ∨ n = 413 then finish a.cfg0 (some n) (serverHeader a.cfg0.date) none else none
  | _ => none

/-! ## The frames -/

/-- What a connection has: the byte in fresh memory, which fields were added by `fly_header_add` and so are written out (`fly_add_content_type`,
src/header.c:423-433, does that; the others are looked up, `fly_header_add_v2`), the frame size of the client. -/
structure Conn where
  g : Nat
  out : Bytes × Bytes → Bool
  maxFrame : Nat

/-- `__fly_payload_from_headers`, src/v2.c:2288-2397; `dyn` is the table of the connection. -/
def encodeField (k : Conn) (dyn : List (Bytes × Bytes)) (e : Bytes × Bytes) : Bytes :=
  if k.out e then Hpack.encodeInt 6 (k.g % 64 + 64) 0 ++ Hpack.encodeString k.g e.1 ++ Hpack.encodeString k.g e.2
  else Hpack.encodeHeader k.g dyn e.1 e.2

/-- The entries of the table in which the client's fields are kept. -/
def dynOf (t : DTab) : List (Bytes × Bytes) := (List.range t.count).filterMap fun i => t.lookup (Hpack.staticLen + i)

/-- `fly_send_headers_frame`, src/v2.c:3195-3237.  A block of more than 1000 bytes does not get through the buffer it is put together in (`none`, see
`C66_block_over_1000_bytes_lost_refuted`). -/
def headerFrames (k : Conn) (dyn : List (Bytes × Bytes)) (r : Resp) : Option (List OutFrame) :=
  let fields := (r.header.items.map fun f => (f.name.getD [], f.value.getD [])).map (encodeField k dyn)
  if 1000 < fields.flatten.length then none
  else some (Send.headerFrames k.maxFrame (decide (r.plan.kind = .noContent)) fields)

/-- What the connection takes: the results of the write calls for each header frame, for the header of the DATA frame and for its payload. -/
structure Writes where
  frames : List (List Sys)
  dataHeader : List Sys
  data : List Sys

/-- The header frames are written one after the other, `fly_state_send_frame`, src/v2.c:2882-2983, `__fly_send_frame`, 3280-3363; a frame that is not finished is
the last. -/
def writeFrames (sid : Nat) : List OutFrame → List (List Sys) → Bytes × Bool
  | [], _ => ([], true)
  | f :: fs, ss =>
    let r := Send.frameRun (H2.frameHeader f.payload.length f.type f.flags false sid) f.payload false 0 (ss.headD [])
    if r.2 then
      let q := writeFrames sid fs ss.tail
      (r.1 ++ q.1, q.2)
    else (r.1, false)

/-- `fly_send_data_frame`, src/v2.c:2557-2874: nothing while a window is closed (the response waits), no frame for no content, otherwise one frame. -/
def writeData (sid : Nat) (w : Win) (disk : Bytes) (p : Plan) (s : Writes) : Bytes :=
  match Send.startData w p.len with
  | .wait => []
  | .nothing => []
  | .frame n fin =>
    let r := Send.dataHeaderRun true (H2.frameHeader n 0 (if fin then 1 else 0) false sid) 0 s.dataHeader
    if r.2 then r.1 ++ (H2B.payload true disk p s.data).out else r.1

/-- All bytes sent on a stream for a response. -/
def send (k : Conn) (dyn : List (Bytes × Bytes)) (sid : Nat) (w : Win) (r : Resp) (s : Writes) : Option Bytes :=
  match headerFrames k dyn r with
  | none => none
  | some fs =>
    let q := writeFrames sid fs s.frames
    some (if q.2 then q.1 ++ writeData sid w r.disk r.plan s else q.1)

/-! ## The connection -/

/-- A request as it arrives: stream, header block and its length, content (from DATA frames) and whether it was longer than allowed and discarded, and what the connection takes
of the response. -/
structure Incoming where
  sid : Nat
  block : Cursor
  len : Nat
  alloc : Nat → Bool
  body : Option Bytes
  discard : Bool
  win : Win
  writes : Writes

/-- One request and its response: `fly_hv2_parse_headers`, src/v2.c:3950-4054, with the table of the connection, then the above. -/
def serve (a : App) (k : Conn) (t : DTab) (i : Incoming) : Option (DTab × Bytes) :=
  match Hpack.parseHeaders i.len ⟨t, []⟩ i.len 0 (some i.block) with
  | some (.ok st) =>
    match response a (H2R.answer a.env ⟨true, cells i.alloc st.headers, i.body, i.discard⟩) with
    | none => none
    | some r => (send k (dynOf st.dtab) i.sid i.win r i.writes).map fun b => (st.dtab, b)
  | _ => none

/-- The requests of a connection, with what is sent on the stream of each. -/
def session (a : App) (k : Conn) : DTab → List Incoming → Option (List Bytes)
  | _, [] => some []
  | t, i :: is =>
    match serve a k t i with
    | none => none
    | some (t, b) => (session a k t is).map (b :: ·)

end Fly.H2Trip
