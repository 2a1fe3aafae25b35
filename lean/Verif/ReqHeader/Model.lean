import Verif.Request.Model

/-! # HTTP/1 request header parsing: `__fly_parse_header_line`, `__fly_parse_header`, src/request.c:691-937

The header block is modelled as the bytes from the read position to and including a NUL: the block lies in
one buffer chunk and the memory behind the received bytes is zero.  Reading behind the NUL is `crash`.
`int` lengths do not overflow. -/

namespace Fly.ReqHeader
open Req (tchar vchar)

/-- `__fly_ows`, src/request.c:689-692. -/
def ows (c : Nat) : Bool := c == 32 || c == 9

/-- `__fly_field_content` / `__fly_header_field_value`, src/request.c:694-703. -/
def fieldByte (c : Nat) : Bool := vchar c || c == 32 || c == 9

/-- Outcome of one line with `res->ptr`: `_FLY_PARSE_SUCCESS`, `_FLY_PARSE_END_OF_HEADER`,
`_FLY_PARSE_ERROR`, `_FLY_PARSE_FATAL`, `_FLY_PARSE_ITM`. -/
inductive LR where
  | ok (name value rest : Bytes)
  | endHdr (rest : Bytes)
  | bad (rest : Bytes)
  | fatal
  | middle
  | crash
  deriving DecidableEq, Repr

/-- The `error:` label, src/request.c:838-849: `strchr(ptr, LF)` stops at the NUL; otherwise skip behind
the LF. -/
def lineError : Bytes → LR
  | [] => .crash
  | c :: r => if c == 10 then .bad r else if c == 0 then .fatal else lineError r

/-- `case CR`, then `LF`, `NEXT`, src/request.c:809-821. -/
def stCR (name value : Bytes) : Bytes → LR
  | [] => .crash
  | c :: r => if c == 10 then .ok name value r else if c == 0 then .middle else lineError (c :: r)

/-- `case FIELD_VALUE`, src/request.c:788-807; `v` are the bytes of the value so far. -/
def stValue (name v : Bytes) : Bytes → LR
  | [] => .crash
  | c :: r =>
    if c == 13 then stCR name v r
    else if c == 10 then .ok name v r
    else if c == 0 then .middle
    else if fieldByte c then stValue name (v ++ [c]) r
    else lineError (c :: r)

/-- `case OWS1`, src/request.c:768-786.  A LF sets the state but falls through to the error. -/
def stOws (name : Bytes) : Bytes → LR
  | [] => .crash
  | c :: r =>
    if ows c then stOws name r
    else if c == 13 then stCR name [] r
    else if c == 0 then .middle
    else if fieldByte c then stValue name [] (c :: r)
    else lineError (c :: r)

/-- `case COLON`, src/request.c:762-767. -/
def stColon (name : Bytes) : Bytes → LR
  | [] => .crash
  | c :: r => if ows c then stOws name (c :: r) else lineError (c :: r)

/-- `case FIELD_NAME`, src/request.c:749-761. -/
def stName (n : Bytes) : Bytes → LR
  | [] => .crash
  | c :: r =>
    if c == 58 then stColon n r
    else if c == 0 then .middle
    else if tchar c then stName (n ++ [c]) r
    else lineError (c :: r)

/-- `__fly_parse_header_line`, src/request.c:727-854, `case INIT` 738-748. -/
def parseLine : Bytes → LR
  | [] => .crash
  | c :: r =>
    if tchar c then stName [] (c :: r)
    else if c == 10 || c == 13 then .endHdr (c :: r)
    else if c == 0 then .middle
    else lineError (c :: r)

/-- Result of the header phase: the fields added with `fly_header_addb` and the unread bytes.  In the middle of a
line the fields read so far are lost (`fly_reqheader_operation` starts with a new list next time). -/
inductive HR where
  | ok (h : Header.HList) (rest : Bytes)
  | bad
  | middle (rest : Bytes)
  | crash
  deriving DecidableEq, Repr

/-- `__fly_parse_header`, src/request.c:864-937.  Each line takes at least one byte, so the length is enough
fuel.  The end of the header releases two bytes whatever they are (912). -/
def parseHeader : Nat → Header.HList → Bytes → HR
  | 0, _, _ => .crash
  | f + 1, h, p =>
    match parseLine p with
    | .crash => .crash
    | .fatal => .bad
    | .middle => .middle p
    | .endHdr r => .ok h (r.drop 2)
    | .bad r => parseHeader f h r
    | .ok n v r => parseHeader f (Header.addRequest h n v) r

/-- `fly_reqheader_operation`, src/request.c:936-945, on the received bytes. -/
def headerOperation (data : Bytes) : HR := parseHeader (data.length + 1) Header.HList.init (data ++ [0])

/-- The name copied by `fly_header_addb` (src/header.c:172-174): `name[i]` is read `name_len` times from the
chunk in which the name begins, of which `cur` are the bytes from the name on; `none`: reads behind the
chunk. -/
def addbName (cur : Bytes) (len : Nat) : Option Bytes :=
  if len ≤ cur.length then some ((cur.take len).map Header.lower) else none

end Fly.ReqHeader
