import Verif.H2Trip.Model
import Verif.Site.Model

/-! # Mounted files over HTTP/2, from the header blocks received to the frames sent

`fly_respf`, src/response.c:1324-1355, `fly_304_response`, 845-870, `fly_405_response`, 1030-1052, and `fly_hv2_response_event`, src/v2.c:5067-5280, for a response with a
file, put together with Verif.H2Trip (header blocks, the application, frames) and Verif.Site (what is known of the files). -/

namespace Fly.H2Site
open Site (Site Served)
open Header (HList)
open PyBridge (Cfg)
open H2Trip (Resp Conn Incoming cells send dynOf)
open Hpack (DTab)

/-- The header list of `fly_respf`, src/response.c:1344-1348, `fly_add_content_length_from_stat`, src/header.c:435-452, `fly_add_content_etag`, 473-484, `fly_add_last_modified`,
486-492, `fly_add_content_type`, 423-433.  A file that was too long to be encoded in advance (`pf->overflow`, 413) is left out. -/
def fileHeader (date : Bytes) (f : Served) : HList :=
  let h := Header.add (Header.add HList.init b!"content-length" (Response.contLenStr f.size) false) b!"etag" f.tag false
  Header.addVerIfNo (Header.add (Header.addVerIfNo h b!"date" date) b!"last-modified" f.modified false) b!"content-type" f.mime

/-- The header list of `fly_304_response`, src/response.c:860-864. -/
def notModifiedHeader (date : Bytes) (f : Served) : HList := Header.add (H2Trip.serverHeader date) b!"etag" f.tag false

/-- The header list of `fly_405_response`, src/response.c:1043-1045. -/
def notAllowedHeader (date : Bytes) (table : List Route.Route) (u : Bytes) : HList :=
  Header.addVerIfNo (Header.addVerIfNo (Header.add HList.init b!"allow" (Site.joinMethods (Site.validMethods table u)) false) b!"server" b!"fly") b!"date" date

/-- `fly_hv2_response_event`, src/v2.c:5100-5280, for a response with a file.  Simplification: a file that has not the length any more that it had when it was mounted is left out
(`none`, see C104), and so are encoded forms that are too long (as in `H2Trip.finish`). -/
def finishFile (c : Cfg) (f : Served) (now : Bytes) : Option Resp :=
  if f.size ≠ now.length then none
  else
    match PyBridge.statusPseudo (some 200) (fileHeader c.date f) with
    | none => none
    | some h =>
      match H2B.prepare c.compress c.overflow c.threshold c.acc false none (some ⟨now, f.pre⟩) none with
      | none => none
      | some .tooLarge => none
      | some (.ready p) =>
        match Header.addModify (H2Trip.addCoding c h p.coding) b!"content-length" (Response.contLenStr p.contentLength) with
        | none => none
        | some h => some ⟨h, p, now⟩

/-- The response to a request, src/v2.c:4940-5025.  The request as it stands when the response is chosen is taken from what a function would be given that is registered for every
path (`Site.asked`).  A directory, which is sent as if it were a file (`C103_directory_refuted`), is left out. -/
def response (s : Site) (now : Bytes → Bytes) (r : H2R.Request) : Option Resp :=
  match H2R.answer s.full.env r, H2R.answer (Site.asked s.full.env) r with
  | .file, .handler _ q =>
    match s.files q.path with
    | none => none
    | some f => if f.dir then none else finishFile (s.app.cfg ⟨q.fields, q.fields.length⟩) f (now q.path)
  | .status 304, .handler _ q =>
    match s.files q.path with
    | none => none
    | some f => H2Trip.finish s.app.cfg0 (some 304) (notModifiedHeader s.app.cfg0.date f) none
  | .status 405, .handler _ q => H2Trip.finish s.app.cfg0 (some 405) (notAllowedHeader s.app.cfg0.date s.app.table q.path) none
  | o, _ => H2Trip.response s.full o

/-- One request and its response, as `H2Trip.serve`; the files have the contents `now`. -/
def serve (s : Site) (k : Conn) (t : DTab) (i : Incoming) (now : Bytes → Bytes) : Option (DTab × Bytes) :=
  match Hpack.parseHeaders i.len ⟨t, []⟩ i.len 0 (some i.block) with
  | some (.ok st) =>
    match response s now ⟨true, cells i.alloc st.headers, i.body, i.discard⟩ with
    | none => none
    | some r => (send k (dynOf st.dtab) i.sid i.win r i.writes).map fun b => (st.dtab, b)
  | _ => none

/-- The requests of a connection, with what is sent on the stream of each. -/
def session (s : Site) (k : Conn) : DTab → List (Incoming × (Bytes → Bytes)) → Option (List Bytes)
  | _, [] => some []
  | t, (i, now) :: is =>
    match serve s k t i now with
    | none => none
    | some (t, b) => (session s k t is).map (b :: ·)

end Fly.H2Site
