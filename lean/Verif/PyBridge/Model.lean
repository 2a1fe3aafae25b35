import Verif.Header.Model
import Verif.Response.Model

/-! # What becomes of the value a Python handler returns (src/pyserver.c, src/request.c, fly/response.py)

A Python text is the list of its UTF-8 bytes.  Reference counts and allocation failures are not modelled. -/

namespace Fly.PyBridge

open Fly.Header (HList)
open Fly.Response (Accepts Coding Prepared SendBuf)

/-! ## Python values -/

/-- The values the conversion tells apart.  `badStr` is a text without UTF-8 form (lone surrogates), for which
`PyUnicode_AsUTF8AndSize` fails. -/
inductive PyObj where
  | none
  | str (utf8 : Bytes)
  | badStr
  | bytes (b : Bytes)
  | other
  deriving DecidableEq, Repr

/-- An element of the header list: a dictionary with or without the keys `name` and `value`. -/
inductive HdrEntry where
  | notDict
  | dict (name value : Option PyObj)
  deriving DecidableEq, Repr

inductive HdrAttr where
  | missing
  | notList
  | list (l : List HdrEntry)
  deriving DecidableEq, Repr

inductive StatusAttr where
  | missing
  | notInt
  | int (n : Int)
  deriving DecidableEq, Repr

/-- The attributes read from an instance of a subclass of `_fly_response` (src/pyserver.c:730-846); `none`:
the attribute is missing or its getter raises. -/
structure RespObj where
  body : Option PyObj
  header : HdrAttr
  contentType : Option PyObj
  status : StatusAttr
  deriving DecidableEq, Repr

/-- What the call of the handler gives (src/pyserver.c:703-711). -/
inductive Ret where
  | raised
  | response (o : RespObj)
  | value (v : PyObj)
  deriving DecidableEq, Repr

/-! ## fly/response.py -/

/-- The state of a `Response`, fly/response.py:62-68. -/
structure PyResponse where
  status : Int
  contentType : Bytes
  header : List (Bytes × Bytes)
  body : Bytes
  deriving DecidableEq, Repr

/-- `Response.__init__`, fly/response.py:50-68, for arguments of the declared types.  The argument `header` is
checked and then not used (line 66). -/
def construct (status : Int) (_header : Option (List (Bytes × Bytes))) (body : Option Bytes) (contentType : Bytes) : PyResponse :=
  ⟨status, contentType, [], body.getD []⟩

/-- `Response.add_header`, fly/response.py:90-94. -/
def PyResponse.addHeader (r : PyResponse) (name value : Bytes) : PyResponse :=
  { r with header := r.header ++ [(name, value)] }

/-- `JSONResponse.__init__`, fly/response.py:143-160: `dumps` is the JSON text of the body and `len` its
number of elements. -/
def jsonResponse (status : Int) (dumps : Bytes) (len : Nat) : PyResponse :=
  construct status none (if 0 < len then some dumps else none) b!"application/json"

/-- The attributes of a `Response` as the C code finds them. -/
def PyResponse.obj (r : PyResponse) : RespObj :=
  ⟨some (.bytes r.body), .list (r.header.map fun p => .dict (some (.str p.1)) (some (.str p.2))), some (.str r.contentType), .int r.status⟩

/-! ## Conversion -/

/-- `mimes[]`, src/mime.c:5-16 (the names). -/
def mimes : List Bytes :=
  [b!"text/plain", b!"text/csv", b!"text/html", b!"text/css", b!"text/xml", b!"text/javascript", b!"text/richtext", b!"application/json",
   b!"application/octet_stream", b!"multipart/form-data"]

/-- `fly_mime_type_from_str`, src/mime.c:120-129.  The loop stops at an entry whose `extensions` is NULL, and
`mimes[]` has none (`FLY_STRING_ARRAY()` is never NULL): for a text that is not in the table it reads behind the
array (`none`). -/
def mimeFromStr (s : Bytes) : Option Bytes := mimes.find? (fun m => s.length == m.length && s == m)

/-- The reply handed to the caller.  `status = none` is `INVALID_STATUS_CODE`; `undefined` is undefined
behaviour. -/
inductive Conv where
  | reply (status : Option Nat) (h : HList) (body : Option Bytes)
  | tooLarge
  | error
  | undefined
  deriving DecidableEq, Repr

/-- The body of a `bytes` or `str` (src/pyserver.c:746-758, 861-868, 883-893): empty stays NULL; `none` if too
long. -/
def takeBody (maxLen : Int) (b : Bytes) : Option (Option Bytes) :=
  if 0 < b.length then (if maxLen < b.length then none else some (some b)) else some none

/-- The loop over the header list, src/pyserver.c:776-813 (`none`: 500).  Over HTTP/2 the letters of the name are
made lower case in place. -/
def addHeaders (v2 : Bool) (h : HList) : List HdrEntry → Option HList
  | [] => some h
  | .dict (some (.str n)) (some (.str v)) :: l =>
    addHeaders v2 (Header.add h (if v2 then n.map Header.lower else n) v false) l
  | _ :: _ => none

/-- `fly_add_content_type`, src/header.c:423-433, for a type of the table. -/
def addContentType (v2 : Bool) (h : HList) (m : Bytes) : Option HList :=
  if v2 then some (Header.addVerIfNo h b!"content-type" m) else Header.addIfNo h b!"Content-Type" m

/-- `pyfly_route_handler` from the call on, src/pyserver.c:703-920. -/
def convert (v2 head : Bool) (maxLen : Int) : Ret → Conv
  | .raised => .error
  | .response o =>
    -- 733-738: with a body attribute a HEAD request fails, without it every request does
    if head then .error
    else
      match o.body with
      | none => .error
      | some pb =>
        match (match pb with
          | .none => some (some none)
          | .bytes b => some (takeBody maxLen b)
          | _ => none : Option (Option (Option Bytes))) with
        | none => .error
        | some none => .tooLarge
        | some (some body) =>
          match o.header with
          | .missing => .error
          | .notList => .error
          | .list l =>
            match addHeaders v2 HList.init l with
            | none => .error
            | some h =>
              match o.contentType with
              | some (.str ct) =>
                match mimeFromStr ct with
                | none => .undefined
                | some m =>
                  match addContentType v2 h m with
                  | none => .undefined
                  | some h =>
                    match o.status with
                    | .missing => .error
                    | .notInt => .error
                    | .int n => .reply (Response.typeOfLong n) h body
              | _ => .error
  | .value (.str s) =>
    if head then .error
    else
      match takeBody maxLen s with
      | none => .tooLarge
      | some body => .reply (some 200) HList.init body
  | .value .badStr => .error
  | .value (.bytes b) =>
    match takeBody maxLen b with
    | none => .tooLarge
    | some body => .reply (some 200) HList.init body
  | .value .none => .reply (some 200) HList.init none
  | .value .other => .error

/-! ## Completion and sending over HTTP/1.1 -/

/-- What the server brings to a response: the date, the limit, the encoding settings, the result of the
negotiation and the configured default contents (content and type by status). -/
structure Cfg where
  date : Bytes
  maxLen : Int
  threshold : Nat
  acc : Accepts
  encName : Coding → Bytes
  compress : Coding → Bytes → Bytes
  overflow : Bytes → Bool
  dflt : Nat → Option (Bytes × Bytes)

/-- The header list of `fly_413_response` (close) and `fly_500_response` (keep-alive) over HTTP/1,
src/response.c:1083-1109, 1211-1236. -/
def serverHeader (date conn : Bytes) : Option HList :=
  match Header.addIfNo HList.init b!"Server" b!"fly" with
  | none => none
  | some h =>
    match Header.addIfNo h b!"Date" date with
    | none => none
    | some h => some (Header.add h b!"Connection" conn false)

/-- The caller completes the header list, src/request.c:1536-1543. -/
def complete (date : Bytes) (h : HList) : Option HList :=
  match Header.addIfNo h b!"Date" date with
  | none => none
  | some h =>
    match Header.addIfNo h b!"Server" b!"fly" with
    | none => none
    | some h => Header.addIfNo h b!"Content-Type" b!"text/plain"

/-- The same over HTTP/2, src/v2.c:4975-4983. -/
def completeV2 (date : Bytes) (h : HList) : HList :=
  Header.addVerIfNo (Header.addVerIfNo (Header.addVerIfNo h b!"date" date) b!"server" b!"fly") b!"content-type" b!"text/plain"

/-- Default content of a response without body, src/response.c:553-562: its length and type are added to the
header; `res->rcbs` stays NULL. -/
def defaultHeaders (d : Option (Bytes × Bytes)) (h : HList) : Option HList :=
  match d with
  | none => some h
  | some (content, mime) =>
    Header.addIfNo (Header.add h b!"Content-Length" (Response.contLenStr content.length) false) b!"Content-Type" mime

/-- `fly_response_event`, src/response.c:551-726, for a response without file. -/
def prepareReply (c : Cfg) (t : Nat) (h : HList) (body : Option Bytes) : Option Prepared :=
  match (match body with | none => defaultHeaders (c.dflt t) h | some _ => some h) with
  | none => none
  | some h => Response.prepare c.encName c.compress c.overflow c.threshold c.acc false body none h

/-- The bytes put in the send buffer; a response whose encoded form is too long is replaced by a 413
(src/response.c:716-717, 783-784). -/
def send (c : Cfg) (status : Option Nat) (h : HList) (body : Option Bytes) : Option SendBuf :=
  match prepareReply c (status.getD 0) h body with
  | none => none
  | some .tooLarge =>
    match serverHeader c.date b!"close" with
    | none => none
    | some h =>
      match prepareReply c 413 h none with
      | none => none
      | some p => Response.serialize .v1_1 413 0 p
  | some p => Response.serialize .v1_1 (status.getD 0) 0 p

/-- From the handler's result to the bytes sent, src/request.c:1533-1547.  `none`: undefined behaviour. -/
def respond (c : Cfg) (head : Bool) (r : Ret) : Option SendBuf :=
  let go (status : Option Nat) (h : Option HList) (body : Option Bytes) : Option SendBuf :=
    match h with
    | none => none
    | some h =>
      match complete c.date h with
      | none => none
      | some h => send c status h body
  match convert false head c.maxLen r with
  | .reply st h body => go st (some h) body
  | .tooLarge => go (some 413) (serverHeader c.date b!"close") none
  | .error => go (some 500) (serverHeader c.date b!"keep-alive") none
  | .undefined => none

/-- `fly_status_code_pseudo_headers`, src/v2.c:5039-5046: the text of an unknown status is NULL and its length is
taken (`none`). -/
def statusPseudo (status : Option Nat) (h : HList) : Option HList :=
  match status with
  | none => none
  | some t =>
    match Response.codeOfType t with
    | none => none
    | some code => some (Header.add h b!":status" (Response.decimal code) true)

/-- The header list of a handler's response over HTTP/2 up to the content length, src/v2.c:4969-4983, 5103;
`none` is undefined behaviour, `some none` a response made by the server. -/
def headersV2 (date : Bytes) (maxLen : Int) (head : Bool) (r : Ret) : Option (Option HList) :=
  match convert true head maxLen r with
  | .reply st h _ => (statusPseudo st (completeV2 date h)).map some
  | .tooLarge => some none
  | .error => some none
  | .undefined => none

end Fly.PyBridge
