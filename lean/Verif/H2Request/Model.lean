import Verif.Request.Model
import Verif.Header.Model
import Verif.Encode.Model
import Verif.Lang.Model
import Verif.Mime.Model
import Verif.Multipart.Model
import Verif.ReqEvent.Model

/-! # What becomes of a complete HTTP/2 request: src/v2.c:4671-5033

The header fields are the decoded ones (Hpack), as cells of the header list: a name or value of no bytes is a null
pointer if it was added by `fly_header_add` (fully indexed fields, literal fields with a literal name) and an empty
string if added by `fly_header_addbv` (literal fields with an indexed name).  `body` is the request body received with
DATA frames, whole (the rest is in H2Stream); `discard` is set for bodies above the limit.  Allocation succeeds. -/

namespace Fly.H2R

open Header (HField)
open Req (Method matchMethodName target2)

/-! ## The request line, src/v2.c:4676-4769 -/

/-- `fly_pseudo_request`, src/v2.c:4676-4682, src/v2.h:406-409. -/
inductive Pseudo where
  | method | scheme | authority | path
  deriving DecidableEq, Repr

def pseudoTable : List (Bytes × Pseudo) :=
  [(b!":method", .method), (b!":scheme", .scheme), (b!":authority", .authority), (b!":path", .path)]

/-- `fly_match_scheme_name`, src/scheme.c:22-31 with the table 4-8. -/
def matchScheme (s : Bytes) : Option Bytes := [b!"http", b!"https"].find? fun n => n.isPrefixOf s

/-- `__c->name_len>0 && __fly_hv2_pseudo_header(__c)`, src/v2.c:4684-4687, 4708. -/
def isPseudo (f : HField) : Bool := (f.name.getD []).head? == some 58

/-- The fields of `request_line` set here. -/
structure Line where
  method : Option Method
  scheme : Option Bytes
  uri : Option Bytes
  deriving DecidableEq, Repr

inductive Step where
  | next (l : Line)
  | bad
  | undef
  deriving DecidableEq, Repr

/-- One field, src/v2.c:4708-4752.  `strncmp` over the length of the pseudo name.  `fly_match_method_name` accepts a
null pointer, `fly_match_scheme_name` does not. -/
def fieldStep (l : Line) (f : HField) : Step :=
  if isPseudo f then
    match pseudoTable.find? fun p => p.1.isPrefixOf (f.name.getD []) with
    | none => .bad
    | some (_, .method) =>
      match f.value.bind matchMethodName with
      | none => .bad
      | some m => .next { l with method := some m }
    | some (_, .scheme) =>
      match f.value with
      | none => .undef
      | some v =>
        match matchScheme v with
        | none => .bad
        | some s => .next { l with scheme := some s }
    | some (_, .authority) => .next l
    | some (_, .path) => .next { l with uri := f.value }
  else .next l

/-- The loop, src/v2.c:4704-4754. -/
def lineLoop : Line → List HField → Step
  | l, [] => .next l
  | l, f :: fs =>
    match fieldStep l f with
    | .next l => lineLoop l fs
    | .bad => .bad
    | .undef => .undef

inductive LineRes where
  | ok (m : Method) (scheme uri : Bytes)
  | bad
  | undef
  deriving DecidableEq, Repr

/-- `fly_request_line_init` (src/request.c:70-88): the scheme is that of the connection until a field sets it. -/
def lineInit (ssl : Bool) : Line := ⟨none, some (if ssl then b!"https" else b!"http"), none⟩

/-- `fly_hv2_request_line_from_header`, src/v2.c:4689-4769. -/
def requestLine (ssl : Bool) (fs : List HField) : LineRes :=
  match lineLoop (lineInit ssl) fs with
  | .bad => .bad
  | .undef => .undef
  | .next l =>
    match l.uri, l.method, l.scheme with
    | some u, some m, some s => .ok m s u
    | _, _, _ => .bad

/-! ## Negotiation, src/v2.c:4864-4917 -/

inductive Nego where
  | ok | bad | notAcceptable | undef
  deriving DecidableEq, Repr

/-- The cells as the negotiation functions see them. -/
def pairs (fs : List HField) : List (Bytes × Bytes) := fs.map fun f => (f.name.getD [], f.value.getD [])

/-- `fly_accept_encoding`, src/v2.c:4865-4875. -/
def negoEncoding (fs : List HField) : Nego :=
  match Encode.accept (pairs fs) with
  | .syntaxError => .bad
  | .outside => .undef
  | .overflow => .undef
  | .choice .notAcceptable => .notAcceptable
  | .choice _ => .ok

/-- `fly_accept_mime`, src/v2.c:4878-4889; fields without value are passed over (src/mime.c:155). -/
def negoMime (fs : List HField) : Nego :=
  match Mime.accept (pairs (fs.filter fun f => f.value.isSome)) with
  | .accepted _ => .ok
  | .badRequest => .bad
  | .notAcceptable => .notAcceptable
  | _ => .undef

/-- The outcome of `fly_accept_charset` and `fly_accept_language`. -/
def langRes : Lang.Res → Nego
  | .accepted _ => .ok
  | .badRequest => .bad
  | .notAcceptable => .notAcceptable
  | _ => .undef

/-- `fly_accept_charset`, src/v2.c:4892-4903. -/
def negoCharset (fs : List HField) : Nego := langRes (Lang.accept Lang.charset (pairs fs))

/-- `fly_accept_language`, src/v2.c:4906-4917: the parser is given the value of the first field even if it is a null
pointer (src/lang.c:37-40). -/
def negoLang (fs : List HField) : Nego :=
  match fs.find? fun f => f.name == some b!"accept-language" with
  | some ⟨_, none⟩ => .undef
  | _ => langRes (Lang.accept Lang.lang (pairs fs))

/-- The four in their order, each only after the one before. -/
def nego (fs : List HField) : Nego :=
  match negoEncoding fs with
  | .ok =>
    match negoMime fs with
    | .ok =>
      match negoCharset fs with
      | .ok => negoLang fs
      | r => r
    | r => r
  | r => r

/-! ## The body, src/v2.c:4920-4939 -/

/-- Result of a step that may also end with -1 (the connection is given up, src/v2.c:1834, 1899). -/
inductive BodyRes where
  | ok (b : Option Multipart.Body)
  | lost
  | undef
  deriving DecidableEq, Repr

/-- `__fly_content_encoding`, src/header.c:370-389; outer `none`: `strcmp` with a null pointer.  HTTP/2 looks for
"content-encoding" (`fly_content_encoding_s`, 396-399), HTTP/1 for "Content-Encoding" (391-394). -/
def contentEncoding (conen : Bytes) : List HField → Option (Option Bytes)
  | [] => some none
  | f :: fs =>
    match f.name with
    | none => none
    | some n => if Header.cstr n == conen then some f.value else contentEncoding conen fs

/-- `fly_supported_content_encoding`, src/encode.c:1393-1401; `none`: the loop has no end and compares with the null
name of the last entry. -/
def supported (v : Bytes) : Option Encode.Coding :=
  (Encode.table.find? fun e => e.1 == Header.cstr v).map (·.2.1)

/-- `fly_decode_nowbody`, src/body.c:47-81, whose `de->type` is `FLY_DE_DECODE`, a type every decoder refuses
(src/encode.c:115, 323, 540): gzip with -1, the others with another number that passes for success, and the content
of an empty buffer replaces the body.  The identity decoder does nothing at all (749).  The asterisk has no decoder. -/
def decodeNow (c : Encode.Coding) : BodyRes :=
  match c with
  | .gzip => .lost
  | .xgzip => .lost
  | .deflate => .ok (some (.bytes []))
  | .br => .ok (some (.bytes []))
  | .identity => .ok (some (.bytes []))
  | .any => .undef

/-- `fly_is_multipart_form_data` and `fly_body_parse_multipart` on a body that may be missing, src/v2.c:4938-4939. -/
def multipart (fs : List HField) (body : Option Bytes) : BodyRes :=
  match Multipart.isMultipart fs, body with
  | none, _ => .undef
  | some true, none => .undef
  | some false, none => .ok none
  | some _, some b =>
    match Multipart.bodySeen fs b with
    | .undef => .undef
    | x => .ok (some x)

/-- src/v2.c:4919-4939. -/
def bodyStep (fs : List HField) (body : Option Bytes) : BodyRes :=
  if Header.contentLength ⟨fs, fs.length⟩ % 18446744073709551616 = 0 then .ok (body.map .bytes)
  else
    match contentEncoding b!"content-encoding" fs with
    | none => .undef
    | some none => multipart fs body
    | some (some v) =>
      match supported v, body with
      | none, _ => .undef
      | some _, none => .undef
      | some c, some _ =>
        match decodeNow c with
        | .ok (some (.bytes b)) => multipart fs (some b)
        | r => r

/-! ## The answer, src/v2.c:4838-5033 -/

/-- What the application function is given. -/
structure Seen where
  method : Method
  scheme : Bytes
  path : Bytes
  query : Option Bytes
  fields : List HField
  body : Option Multipart.Body
  deriving DecidableEq, Repr

inductive Out where
  | status (n : Nat)
  | handler (route : Nat) (r : Seen)
  | file
  /-- -1: the connection is given up without an answer -/
  | lost
  | undef
  deriving DecidableEq, Repr

/-- A complete request. -/
structure Request where
  ssl : Bool
  fields : List HField
  body : Option Bytes
  discard : Bool

/-- `__response`, src/v2.c:4940-4999.  A directory is not told from a file here.  The handler's own failure and path
parameter errors, answered 500, are not distinguished from a call. -/
def choose (e : ReqEvent.Env) (r : Seen) : Out :=
  match e.route r.path r.method with
  | some k => .handler k r
  | none =>
    match e.file ⟨r.fields, r.fields.length⟩ r.path with
    | none => .status 404
    | some f =>
      if r.method ≠ .get then .status 405
      else if f.notModified then .status 304
      else .file

/-- `fly_hv2_response_event_handler`, src/v2.c:4838-5033. -/
def answer (e : ReqEvent.Env) (r : Request) : Out :=
  match requestLine r.ssl r.fields with
  | .undef => .undef
  | .bad => .status 400
  | .ok m s u =>
    match target2 m u with
    | .crash => .undef
    | .bad => .status 400
    | .ok p q =>
      if r.discard then .status 413
      else
        match nego r.fields with
        | .undef => .undef
        | .bad => .status 400
        | .notAcceptable => .status 406
        | .ok =>
          match bodyStep r.fields r.body with
          | .undef => .undef
          | .lost => .lost
          | .ok b => choose e ⟨m, s, p, q, r.fields, b⟩

end Fly.H2R
