import Verif.Trip.Model
import Verif.Cache.Model

/-! # Mounted files over HTTP/1.1, from the bytes received to the bytes sent

`fly_respf`, src/response.c:1324-1355, `fly_response_event`, 528-787, for a response with a file, `fly_405_response`, 1032-1052, with `fly_valid_method`,
src/route.c:453-497, and `fly_add_allow`, src/header.c:535-580, put together with Verif.Keep (receiving, parsing, persistence) and Verif.Trip (the application). -/

namespace Fly.Site
open ReqEvent (Env Reply Rcv St)
open Req (Method)
open Header (HList)
open PyBridge (Cfg)
open Response (SendBuf Coding Prepared setContentLength addContentEncoding identity)

/-- `struct fly_mount_parts_file`, src/mount.h: what a worker knows of a file or directory.  `size` is `fs.st_size`, which is set when the file is mounted
(src/mount.c:215-278) and never again (`fly_check_mod_file`, src/worker.c:149-191, only makes the hash anew); `tag` is the hash, `pre` the form encoded in advance
(src/worker.c:1073-1123). -/
structure Served where
  dir : Bool
  size : Nat
  tag : Bytes
  modified : Bytes
  mime : Bytes
  pre : Option (Coding × Bytes)

/-- An application and the files below its mount points, by request path (the way from the path to the file is modelled in Verif.Mount).  `read` reads dates.
The fields `file` and `own` of the application are not used. -/
structure Site where
  app : Trip.App
  files : Bytes → Option Served
  read : Bytes → Option Int

/-! ## 200 with a file -/

/-- The header list of `fly_respf`, src/response.c:1344-1350.  A file that was too long to be encoded in advance (`pf->overflow`, 413) is left out. -/
def fileHeader (date : Bytes) (f : Served) : Option HList :=
  match Header.addIfNo (Header.add (Header.add HList.init b!"Content-Length" (Response.contLenStr f.size) false) b!"ETag" f.tag false) b!"Date" date with
  | none => none
  | some h =>
    match Header.addIfNo (Header.add h b!"Last-Modified" f.modified false) b!"Content-Type" f.mime with
    | none => none
    | some h => some (Header.add h b!"Connection" b!"keep-alive" false)

/-- The coding of a file that is not sent in a form encoded in advance, src/response.c:610-616. -/
def chosen (c : Cfg) (f : Served) : Option Coding := if c.threshold ≤ f.size then c.acc.decided else none

/-- `fly_response_event`, src/response.c:569-581, 604-721, for a file that now has the content `now`.  An encoder reads the file to its end (src/encode.c), the
length of the other forms comes from `size`.  Encoder errors are left out. -/
def prepareFile (c : Cfg) (f : Served) (now : Bytes) (h : HList) : Option Prepared :=
  match f.pre with
  | some (k, enc) =>
    if c.acc.matching k then
      (setContentLength (addContentEncoding c.encName h k) enc.length).map (.ready (.encoded enc) enc.length)
    else
      match chosen c f with
      | none => (setContentLength h enc.length).map (.ready (.encoded enc) f.size)
      | some k =>
        if k = identity then (setContentLength (addContentEncoding c.encName h k) f.size).map (.ready (.body none) f.size)
        else if c.overflow (c.compress k now) then some .tooLarge
        else (setContentLength (addContentEncoding c.encName h k) (c.compress k now).length).map (.ready (.encoded (c.compress k now)) (c.compress k now).length)
  | none =>
    match chosen c f with
    | none => (setContentLength h f.size).map (.ready (.file now) f.size)
    | some k =>
      if k = identity then (setContentLength (addContentEncoding c.encName h k) f.size).map (.ready (.body none) f.size)
      else if c.overflow (c.compress k now) then some .tooLarge
      else (setContentLength (addContentEncoding c.encName h k) (c.compress k now).length).map (.ready (.encoded (c.compress k now)) (c.compress k now).length)

/-- The send buffer of a response with a file; `response->count` is `size` (src/response.c:1342).  A response whose encoded form is too long (413) is left out. -/
def sendFile (c : Cfg) (f : Served) (now : Bytes) : Option SendBuf :=
  match fileHeader c.date f with
  | none => none
  | some h =>
    match prepareFile c f now h with
    | none => none
    | some p => Response.serialize .v1_1 200 f.size p

/-- What goes out: `send_len` bytes from the buffer, src/response.c:1587-1652.  Behind the bytes stored there are those the allocator left in it (`mem`):
`fly_pballoc`, src/response.c:1454, does not clear them. -/
def onWire (mem : Nat → Nat) (b : SendBuf) : Bytes := b.bytes ++ (List.range (b.sendLen - b.bytes.length)).map mem

/-! ## 405 -/

/-- `fly_valid_method`, src/route.c:453-497: GET, then the method of every route whose path is a prefix (`strncmp` with the length of the route's path).  The first
test there is always true.  Simplification: the bytes behind the path in the request line are taken as absent. -/
def validMethods (table : List Route.Route) (u : Bytes) : List Method :=
  .get :: (table.filter fun r => decide (u.take r.uri.length = r.uri) && decide (r.method ≠ .get)).map (·.method)

/-- The value made by `fly_add_allow`, src/header.c:549-573. -/
def joinMethods : List Method → Bytes
  | [] => []
  | [m] => Req.methodName m
  | m :: l => Req.methodName m ++ b!", " ++ joinMethods l

/-- The header list of `fly_405_response`, src/response.c:1043-1047. -/
def notAllowedHeader (date : Bytes) (table : List Route.Route) (u : Bytes) : Option HList :=
  match Header.addIfNo (Header.add HList.init b!"Allow" (joinMethods (validMethods table u)) false) b!"Server" b!"fly" with
  | none => none
  | some h =>
    match Header.addIfNo h b!"Date" date with
    | none => none
    | some h => some (Header.add h b!"Connection" b!"keep-alive" false)

/-! ## The connection -/

/-- The application with the files below its mount points; the test for 304 is `fly_if_none_match` / `fly_if_modified_since`, src/request.c:1601-1604. -/
def Site.full (s : Site) : Trip.App :=
  { s.app with
    file := fun h u => (s.files u).map fun f => ⟨f.dir, (Cache.answers304 s.read h f.tag f.modified).getD false⟩
    own := fun _ => none }

/-- The request as it stands when the response is chosen (`req->request_line`, `req->header`).  `ReqEvent` only shows it to functions, so it is taken from what a
function would be given that is registered for every path. -/
def asked (e : Env) : Env := { e with route := fun _ _ => some 0 }

/-- The bytes of the response `r` to the request shown by `q`, at a time when the files have the contents `now`. -/
def Site.bytes (s : Site) (now : Bytes → Bytes) (mem : Nat → Nat) (q r : Reply) : Option Bytes :=
  match q with
  | .handler _ l h _ =>
    match r with
    | .file =>
      match s.files l.uri with
      | none => none
      | some f => (sendFile (s.app.cfg h) f (now l.uri)).map (onWire mem)
    | .status 405 =>
      match notAllowedHeader s.app.cfg0.date s.app.table l.uri with
      | none => none
      | some h => (PyBridge.send s.app.cfg0 (some 405) h none).map (·.bytes)
    | r => (s.full.bytes r).map (·.bytes)
  | _ => (s.full.bytes r).map (·.bytes)

/-- One response after the other is written, as in `Trip.writeAll`. -/
def writeAll (s : Site) (mem : Nat → Nat) : List (Reply × Reply) → List (Bytes → Bytes) → List (List Send.Sys) → Bytes
  | [], _, _ => []
  | (q, r) :: l, ns, ss =>
    match s.bytes (ns.headD fun _ => []) mem q r with
    | none => []
    | some bs =>
      match Send.h1Run bs 0 (ss.headD []) with
      | (out, true) => out ++ writeAll s mem l ns.tail ss.tail
      | (out, false) => out

/-- All bytes a client receives on a connection on which it sends these rounds; `ns` are the contents of the files at the time of each response, `ss` the
results of the write calls for it. -/
def received (s : Site) (mem : Nat → Nat) (rounds : List (List Rcv)) (ns : List (Bytes → Bytes)) (ss : List (List Send.Sys)) : Bytes :=
  writeAll s mem ((Keep.session (asked s.full.env) (fun _ => true) St.init rounds).1.zip (Keep.session s.full.env s.full.keeps St.init rounds).1) ns ss

/-- The connection afterwards. -/
def after (s : Site) (rounds : List (List Rcv)) : Keep.End := (Keep.session s.full.env s.full.keeps St.init rounds).2

/-! ## A file over time -/

/-- What happens to a file: somebody writes it; a worker notices and makes the hash anew (src/worker.c:149-191, 1187-1257); a client asks for it. -/
inductive Ev where
  | write (content : Bytes)
  | notice (tag : Bytes)
  | get
  deriving DecidableEq, Repr

/-- A file as the worker knows it, and its content. -/
structure FileSt where
  known : Served
  now : Bytes

def FileSt.step (c : Cfg) (mem : Nat → Nat) (s : FileSt) : Ev → FileSt × List (Option Bytes)
  | .write content => ({ s with now := content }, [])
  | .notice tag => ({ s with known := { s.known with tag := tag } }, [])
  | .get => (s, [(sendFile c s.known s.now).map (onWire mem)])

/-- The answers to the requests of a history, and the state then. -/
def FileSt.run (c : Cfg) (mem : Nat → Nat) (s : FileSt) : List Ev → FileSt × List (Option Bytes)
  | [] => (s, [])
  | e :: l => ((FileSt.run c mem (s.step c mem e).1 l).1, (s.step c mem e).2 ++ (FileSt.run c mem (s.step c mem e).1 l).2)

end Fly.Site
