import Verif.Header.Model
import Verif.PyArgs.Model

/-! # The request as a Python handler sees it (src/pyserver.c:290-440, 610-640) -/

namespace Fly.PyReq

open Fly.PyArgs (Str decodeStrict)

/-- What the C side knows of a request, as far as it is handed on as text: `request->request_line` and
`request->header`, `request->body` (not multipart).  The version, scheme, peer and Accept lists are not modelled. -/
structure CRequest where
  uri : Bytes
  query : Option Bytes
  /-- names and values of the path parameters -/
  params : List (Bytes × Bytes)
  header : List Header.HField
  body : Option Bytes
  deriving DecidableEq, Repr

/-- The request dictionary. -/
structure PyRequest where
  uri : Str
  query : Option Str
  params : List (Str × Str)
  header : List (Str × Str)
  cookie : List Str
  body : Option Bytes
  deriving DecidableEq, Repr

/-- The handler is called, or a 500 is sent, or a NULL object is stored in a dictionary. -/
inductive Seen where
  | call (r : PyRequest)
  | error
  | undefined
  deriving DecidableEq, Repr

/-- `fly_is_cookie` / `fly_check_cookie`, src/header.c:611-641. -/
def isCookie (f : Header.HField) : Bool := f.name.getD [] == b!"cookie"

/-- The path parameters, src/pyserver.c:345-375: NULL is noticed (`none`). -/
def pyParams : List (Bytes × Bytes) → Option (List (Str × Str))
  | [] => some []
  | (n, v) :: l =>
    match decodeStrict n, decodeStrict v, pyParams l with
    | some n, some v, some l => some ((n, v) :: l)
    | _, _, _ => none

/-- The header and cookie lists, src/pyserver.c:377-440: NULL is not noticed (`none`: undefined). -/
def pyHeader : List Header.HField → Option (List (Str × Str) × List Str)
  | [] => some ([], [])
  | f :: l =>
    match decodeStrict (f.name.getD []), decodeStrict (f.value.getD []) with
    | some n, some v =>
      match pyHeader l with
      | none => none
      | some (hs, cs) => some ((n, v) :: hs, if isCookie f then v :: cs else cs)
    | _, _ => none

/-- `pyfly_route_handler` up to the call, src/pyserver.c:290-707. -/
def pyRequest (r : CRequest) : Seen :=
  match decodeStrict r.uri with
  | none => .undefined
  | some uri =>
    match (match r.query with | none => some none | some q => (decodeStrict q).map some : Option (Option Str)) with
    | none => .undefined
    | some query =>
      match pyParams r.params with
      | none => .error
      | some params =>
        match pyHeader r.header with
        | none => .undefined
        | some (hs, cs) => .call ⟨uri, query, params, hs, cs, r.body⟩

end Fly.PyReq
