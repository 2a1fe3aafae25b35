import Verif.PyArgs.Model
import Verif.Multipart.Model

/-! # Handler parameters with annotations, and forms (fly/_parse.py, fly/_base.py)

Texts are lists of code points, as in `Verif.PyArgs`.  Parameters of the model: which texts `float` accepts, what
`json.loads` makes of a body, and what the class of the form (a pydantic model) says to a dictionary. -/

namespace Fly.PyForm

open Fly.PyArgs

/-! ## The regular expression of `_parse_multipart_content_name` (fly/_parse.py:66)

`^\s*form-data;\s*name\s*=\s*(?:"|')(.*?)(?:"|')\s*(?:;?|;\s*filename\s*=\s*(?:"|')(.*?)(?:"|'))\s*$` -/

/-- `\s*` in front of something that is not white space. -/
def skip (s : Str) : Str := s.dropWhile isSpace

/-- A literal text. -/
def lit : Str → Str → Option Str
  | [], s => some s
  | _ :: _, [] => none
  | a :: p, c :: s => if a = c then lit p s else none

/-- `(?:"|')`. -/
def isQuote (c : Nat) : Bool := c == 34 || c == 39

/-- `(.*?)(?:"|')\s*$`: the closing quote is the last character that is not white space; `.` is not a line feed. -/
def closes (t : Str) : Bool :=
  match t.reverse.dropWhile isSpace with
  | [] => false
  | q :: r => isQuote q && !r.contains 10

/-- `filename\s*=\s*(?:"|')(.*?)(?:"|')\s*$`. -/
def fileOk (s : Str) : Bool :=
  match lit b!"filename" s with
  | none => false
  | some t =>
    match skip t with
    | 61 :: u =>
      match skip u with
      | q :: w => isQuote q && closes w
      | [] => false
    | _ => false

/-- `\s*(?:;?|;\s*filename…)\s*$`. -/
def tailOk (s : Str) : Bool :=
  match skip s with
  | [] => true
  | 59 :: t => (skip t).isEmpty || fileOk (skip t)
  | _ => false

/-- `(.*?)(?:"|')` followed by the rest: the shortest text for which the rest matches. -/
def lazyName : Str → Option Str
  | [] => none
  | c :: t => if isQuote c && tailOk t then some [] else if c = 10 then none else (lazyName t).map (c :: ·)

/-- `_parse_multipart_content_name` (fly/_parse.py:65-74). -/
def contentName (v : Str) : Option Str :=
  match lit b!"form-data;" (skip v) with
  | none => none
  | some t =>
    match lit b!"name" (skip t) with
    | none => none
    | some u =>
      match skip u with
      | 61 :: w =>
        match skip w with
        | q :: x => if isQuote q then lazyName x else none
        | [] => none
      | _ => none

/-! ## Form bodies -/

/-- A part of a multipart body as the handler's dictionary has it (src/pyserver.c:630-690). -/
structure Part where
  header : List (Str × Str)
  content : List Nat
  deriving DecidableEq, Repr

/-- What stands under `body`. -/
inductive Body where
  | bytes (b : List Nat)
  | parts (l : List Part)
  deriving DecidableEq, Repr

/-- `PyUnicode_DecodeUTF8` on the names and values of the part headers (src/pyserver.c:658-663); `none` is a 500. -/
def decodeHeader : List (Bytes × Bytes) → Option (List (Str × Str))
  | [] => some []
  | (n, v) :: l =>
    match decodeStrict n, decodeStrict v, decodeHeader l with
    | some n, some v, some l => some ((n, v) :: l)
    | _, _, _ => none

def decodeParts : List (List (Bytes × Bytes) × Bytes) → Option (List Part)
  | [] => some []
  | (h, c) :: l =>
    match decodeHeader h, decodeParts l with
    | some h, some l => some (⟨h, c⟩ :: l)
    | _, _ => none

/-- A value in the dictionary of form fields: a text (or `None`) of an urlencoded form, the content of a part, or a
value `json.loads` made (its text stands for it). -/
inductive FVal where
  | text (v : Option Str)
  | content (b : List Nat)
  | json (t : List Nat)
  deriving DecidableEq, Repr

abbrev Dict := List (Str × FVal)

/-- `d[n] = v`. -/
def put : Dict → Str → FVal → Dict
  | [], n, v => [(n, v)]
  | (m, w) :: d, n, v => if m = n then (m, v) :: d else (m, w) :: put d n v

/-- `s.lower()`, on ASCII letters. -/
def lower (s : Str) : Str := s.map (fun c => if 65 ≤ c ∧ c ≤ 90 then c + 32 else c)

/-- The loop over the headers of one part (fly/_parse.py:80-87); `none` is `HTTP400Exception`. -/
def partHeaders (content : List Nat) : List (Str × Str) → Dict → Option Dict
  | [], d => some d
  | (n, v) :: l, d =>
    if lower n = b!"content-disposition" then
      match contentName v with
      | none => none
      | some name => partHeaders content l (put d name (.content content))
    else partHeaders content l d

/-- `_parse_multipart_form_data` (fly/_parse.py:76-88). -/
def multipartForm : List Part → Dict → Option Dict
  | [], d => some d
  | p :: l, d =>
    match partHeaders p.content p.header d with
    | none => none
    | some d => multipartForm l d

/-- How a handler's call ends before the handler runs: a value, an `HTTPException` with this status, or another
exception. -/
inductive Res (α : Type) where
  | ok (a : α)
  | http (status : Nat)
  | raised
  deriving DecidableEq, Repr

/-- What `json.loads` makes of a body. -/
inductive Json where
  | bad
  | null
  | object (d : List (Str × List Nat))
  | other
  deriving DecidableEq, Repr

/-- The dictionary for the form's class: `None`, a dictionary, or a value `**` cannot take. -/
inductive FormData where
  | none
  | dict (d : Dict)
  | other
  deriving DecidableEq, Repr

/-- `_parse_data_form` (fly/_parse.py:200-214).  A list where bytes are needed and bytes where a list of parts is
needed are other exceptions, except that no bytes at all are an empty list of parts. -/
def dataForm (json : List Nat → Json) (body : Option Body) (ct : Str) : Res FormData :=
  match body with
  | .none => .http 400
  | some b =>
    match formKind ct, b with
    | none, _ => .http 415
    | some .multipart, .parts l =>
      match multipartForm l [] with
      | some d => .ok (.dict d)
      | none => .http 400
    | some .multipart, .bytes [] => .ok (.dict [])
    | some .multipart, .bytes (_ :: _) => .raised
    | some .urlencoded, .bytes b =>
      match parseForm b with
      | some d => .ok (.dict (d.map (fun e => (e.1, .text e.2))))
      | none => .raised
    | some .json, .bytes b =>
      match json b with
      | .bad => .raised
      | .null => .ok .none
      | .object d => .ok (.dict (d.map (fun e => (e.1, .json e.2))))
      | .other => .ok .other
    | some _, .parts _ => .raised

/-- What the class of the form does with the fields. -/
inductive Verdict | ok | invalid | error
  deriving DecidableEq, Repr

/-- The value bound to a parameter: as in `Verif.PyArgs`, Python's `None`, the body, an instance of the form's class. -/
inductive Arg where
  | val (v : Val)
  | none
  | body (b : Body)
  | form (d : Dict)
  deriving DecidableEq, Repr

/-- `_get_data_form` (fly/_parse.py:216-224). -/
def makeForm (cls : Dict → Verdict) : FormData → Res Arg
  | .none => .ok .none
  | .other => .http 500
  | .dict d =>
    match cls d with
    | .ok => .ok (.form d)
    | .invalid => .http 400
    | .error => .http 500

/-! ## Parameters -/

/-- The annotations `_check_with_annotation` tells apart (fly/_parse.py:227-272). -/
inductive Ann where
  | request | header | body | cookie | path | query
  | form (cls : Dict → Verdict)
  | other

/-- The request with its body. -/
structure Req extends PyArgs.Req where
  body : Option Body
  deriving DecidableEq, Repr

/-- `_get_content_type` (fly/_parse.py:190-198). -/
def contentType : List (Str × Str) → Option Str
  | [] => none
  | (n, v) :: l => if lower n = b!"content-type" then some v else contentType l

/-- A value or Python's `None`. -/
def orNone : Option Str → Arg
  | some s => .val (.str s)
  | none => .none

/-- `_check_with_annotation` (fly/_parse.py:227-272) with the entries the dictionary still has.  An entry `path_params`
is there when the route has path parameters. -/
def checkAnn (fl : Str → Bool) (json : List Nat → Json) (r : Req) (keys : List Str) (name : Str) : Ann → Res Arg
  | .request =>
    if name = b!"request" then .ok (.val .request)
    else if name ∈ keys then .ok (.val (.field name)) else .ok .none
  | .header =>
    if b!"header" ∈ keys then .ok (orNone (getNamed name (r.header.map (fun h => (h.1, some h.2))))) else .ok .none
  | .body =>
    if b!"body" ∈ keys then .ok (match r.body with | some b => .body b | none => .none) else .ok .none
  | .cookie => if b!"cookie" ∈ keys then .ok (orNone (getNamed name (parseCookie r.cookies))) else .ok .none
  | .path =>
    if b!"path_params" ∈ keys then
      match getPath fl name r.path with
      | none => .ok .none
      | some none => .http 404
      | some (some v) => .ok (.val v)
    else .ok .none
  | .query => if b!"query" ∈ keys then .ok (orNone (r.query.bind (fun q => getNamed name (parseQuery q)))) else .ok .none
  | .form cls =>
    if b!"header" ∈ keys then
      match contentType r.header with
      | none => .http 415
      | some ct =>
        match dataForm json (if b!"body" ∈ keys then r.body else none) ct with
        | .ok f => makeForm cls f
        | .http n => .http n
        | .raised => .raised
    else .http 400
  | .other => .raised

/-- A parameter without annotation, `PyArgs.bindOne`. -/
def plain (fl : Str → Bool) (r : Req) (keys : List Str) (name : Str) : Res Arg :=
  match bindOne fl r.toReq keys name with
  | .val v => .ok (.val v)
  | .notFound => .http 404
  | .keyError => .raised
  | .attributeError => .raised

/-- One parameter (fly/_parse.py:286-326). -/
def bindParam (fl : Str → Bool) (json : List Nat → Json) (r : Req) (keys : List Str) (p : Str) (a : Option Ann) : Res Arg :=
  match a with
  | some a => checkAnn fl json r keys p a
  | none => plain fl r keys p

/-- The entries left for the next parameters: `request.pop(i)` (fly/_parse.py:326). -/
def left (keys : List Str) (p : Str) (a : Option Ann) : List Str :=
  if a.isNone ∧ p ≠ b!"request" then keys.erase p else keys

/-- The loop over the parameters (fly/_parse.py:286-326). -/
def bindArgs (fl : Str → Bool) (json : List Nat → Json) (r : Req) : List Str → List (Str × Option Ann) → Res (List Arg)
  | _, [] => .ok []
  | keys, (p, a) :: ps =>
    match bindParam fl json r keys p a with
    | .http n => .http n
    | .raised => .raised
    | .ok v =>
      match bindArgs fl json r (left keys p a) ps with
      | .ok vs => .ok (v :: vs)
      | .http n => .http n
      | .raised => .raised

/-- What `_BaseRoute.handler` (fly/_base.py:39-102) makes of it: the handler is called with these arguments, or the
response has this status. -/
inductive Call where
  | called (args : List Arg)
  | status (n : Nat)
  deriving DecidableEq, Repr

/-- `parse_func_args` (fly/_parse.py:275-338) without `**kwargs`, and the `except` clauses of fly/_base.py:62-82. -/
def call (fl : Str → Bool) (json : List Nat → Json) (r : Req) (params : List (Str × Option Ann)) : Call :=
  match bindArgs fl json r (r.keys.erase b!"cookie" ++ [b!"cookie"]) params with
  | .ok vs => .called vs
  | .http n => .status n
  | .raised => .status 500

end Fly.PyForm
