import Verif.Site.Model
import Verif.H2Request.Model

/-! # Content negotiation over HTTP/1.1, and what it leaves for the response

src/request.c:1316-1373 calls the four functions of Verif.Encode, Verif.Mime and Verif.Lang that src/v2.c:4865-4917 calls too (`H2R.nego`); the response then looks at
the list of accepted codings (src/response.c:603-617). -/

namespace Fly.Nego
open Header (HList)
open H2R (pairs)

/-- src/request.c:1316-1373.  Simplification: undefined behaviour is taken as `FLY_ACCEPT_…_ERROR`, which the functions do not return here. -/
def h1 (h : HList) : ReqEvent.Nego :=
  match H2R.nego h.items with
  | .ok => .ok
  | .bad => .syntaxError
  | .notAcceptable => .notAcceptable
  | .undef => .error

/-- The value of `type->type` (src/encode.h:30-42) as a number; `identity` is 0 in Verif.Response. -/
def code : Encode.Coding → Response.Coding
  | .identity => 0
  | .gzip => 1
  | .xgzip => 1
  | .deflate => 2
  | .br => 3
  | .any => 4

/-- `fly_encname_from_type`, src/encode.c:71-78: the first name in the table for this type. -/
def encName : Response.Coding → Bytes
  | 0 => b!"identity"
  | 1 => b!"gzip"
  | 2 => b!"deflate"
  | 3 => b!"br"
  | _ => b!"*"

/-- The list `accepts` made by `fly_accept_encoding`, src/encode.c:847-893; empty where it fails. -/
def accepted (ps : List (Bytes × Bytes)) : List Encode.Acc :=
  match Encode.headerValue ps with
  | none => [⟨.any, 100⟩]
  | some v =>
    match Encode.parseAe v with
    | .ok l => l
    | _ => []

/-- `fly_encoding_matching`, src/encode.c:1440-1451, and `fly_decided_encoding_type`, 1361-1375, on this list after `__fly_decide_encoding`, 1308-1343. -/
def accepts (l : List Encode.Acc) : Response.Accepts where
  matching k := (Encode.settle l).any fun a => code a.coding == k
  decided :=
    match Encode.decide' l with
    | .use c => some (code c)
    | _ => none

/-- An application whose requests are negotiated. -/
def negotiatingApp (a : Trip.App) : Trip.App :=
  { a with
    nego := h1
    cfg := fun h => { a.cfg h with acc := accepts (accepted (pairs h.items)), encName := encName } }

/-- A site whose requests are negotiated. -/
def negotiating (s : Site.Site) : Site.Site := { s with app := negotiatingApp s.app }

end Fly.Nego
