import Verif.Basic
import Verif.CStr
import Verif.Buffer.Model
import Verif.Header.Model

/-! # HTTP/1 request parsing: src/request.c, src/method.c, src/version.c, src/char.h

A `char *` into a NUL terminated string is modelled by the list of bytes from that position to and
including the terminator.  Reading the empty list is reading behind the terminator: `crash`.
Bytes are compared as unsigned values; every comparison in the code is an equality or a range inside
0..127, where signedness of `char` makes no difference. -/

namespace Fly.Req

/-! ## Character classes -/

/-- `fly_alpha`, src/char.h (upper or lower case letter). -/
def alpha (c : Nat) : Bool := (decide (65 ≤ c) && decide (c ≤ 90)) || (decide (97 ≤ c) && decide (c ≤ 122))

/-- `fly_numeral`, src/char.h. -/
def numeral (c : Nat) : Bool := decide (48 ≤ c) && decide (c ≤ 57)

/-- `__fly_vchar`, src/request.c:100-103. -/
def vchar (c : Nat) : Bool := decide (33 ≤ c) && decide (c ≤ 126)

/-- `__fly_sub_delims`, src/request.c:109-116. -/
def subDelims (c : Nat) : Bool := [33, 36, 38, 39, 40, 41, 42, 43, 44, 59, 61].contains c

/-- `__fly_hexdigit`, src/request.c:118-121. -/
def hexdigit (c : Nat) : Bool :=
  (decide (48 ≤ c) && decide (c ≤ 57)) || (decide (97 ≤ c) && decide (c ≤ 102)) || (decide (65 ≤ c) && decide (c ≤ 70))

/-- `__fly_tchar`, src/request.c:123-131 (also `__fly_token`, `__fly_method`, `__fly_header_field_name`). -/
def tchar (c : Nat) : Bool :=
  [33, 35, 36, 37, 38, 39, 42, 43, 45, 46, 94, 95, 96, 124, 126].contains c || numeral c || alpha c ||
    (c != 59 && vchar c)

/-- `__fly_unreserved`, src/request.c:141-147. -/
def unreserved (c : Nat) : Bool :=
  alpha c || numeral c || c == 61 || c == 46 || c == 95 || c == 126 || c == 45

/-- Outcome of the character tests that may look at a whole `%XX`. -/
inductive PC where
  | no            -- not of the class, pointer unchanged
  | one           -- one byte, pointer unchanged
  | three         -- `%XX`, pointer moved onto the last digit
  | crash
  deriving DecidableEq, Repr

/-- `__fly_pct_encoded`, src/request.c:149-162, at `c` with `r` behind it.  `len -= 2` changes the local
pointer, not the count. -/
def pctEncoded (c : Nat) (r : Bytes) : PC :=
  if c != 37 then .no
  else
    match r with
    | [] => .crash
    | h1 :: r1 =>
      if !hexdigit h1 then .no
      else
        match r1 with
        | [] => .crash
        | h2 :: _ => if !hexdigit h2 then .no else .three

/-- `__fly_pchar` / `__fly_segment`, src/request.c:164-175. -/
def pchar (c : Nat) (r : Bytes) : PC :=
  if unreserved c || c == 58 || subDelims c || c == 64 then .one else pctEncoded c r

/-- `__fly_query`, src/request.c:177-182. -/
def queryChar (c : Nat) (r : Bytes) : PC :=
  match pchar c r with
  | .no => if c == 47 || c == 63 then .one else .no
  | k => k

/-- `__fly_userinfo`, src/request.c:191-196. -/
def userinfo (c : Nat) (r : Bytes) : PC :=
  if unreserved c || subDelims c || c == 58 then .one else pctEncoded c r

/-- `__fly_host`, src/request.c:203-206. -/
def host (c : Nat) : Bool := alpha c || numeral c

/-! ## Methods and versions -/

inductive Method where
  | get | head | post | put | delete | connect | options | trace | patch
  deriving DecidableEq, Repr

/-- `methods`, src/method.c:4-15. -/
def methods : List (Bytes × Method) :=
  [(b!"GET", .get), (b!"HEAD", .head), (b!"POST", .post), (b!"PUT", .put), (b!"DELETE", .delete),
   (b!"CONNECT", .connect), (b!"OPTIONS", .options), (b!"TRACE", .trace), (b!"PATCH", .patch)]

/-- Comparison loop of `fly_match_method_name_len` and `fly_match_version_len`: `s` is the text at the
pointer, `n` the table entry with its NUL, `i` the number of equal bytes so far. -/
def matchLoop (len : Nat) : Nat → Bytes → Bytes → Bool
  | i, x :: s, y :: n => if x = y then (if i + 1 = len then true else matchLoop len (i + 1) s n) else false
  | _, _, _ => false

/-- `fly_match_method_name_len`, src/method.c:52-78. -/
def matchMethodLen (s : Bytes) (len : Nat) : Option Method :=
  (methods.find? fun m => m.1.length == len && matchLoop len 0 s (m.1 ++ [0])).map (·.2)

/-- `fly_match_method_name`, src/method.c:17-29 (used for HTTP/2): `strncmp` over the length of the table
entry. -/
def matchMethodName (s : Bytes) : Option Method :=
  (methods.find? fun m => m.1.isPrefixOf s).map (·.2)

/-- `__fly_request_method`, src/request.c:219-236: the first method with the same first letter decides. -/
def requestMethod (s : Bytes) : Option Method :=
  match methods.find? (fun m => m.1.head? == s.head?) with
  | none => none
  | some m => if m.1.isPrefixOf s then some m.2 else none

inductive Version where
  | v2 | v1_1
  deriving DecidableEq, Repr

/-- `versions`, src/version.c:6-10 (number and ALPN name). -/
def versions : List (Bytes × Bytes × Version) := [(b!"2", b!"h2", .v2), (b!"1.1", b!"http/1.1", .v1_1)]

/-- `fly_match_version_len`, src/version.c:48-68. -/
def matchVersionLen (s : Bytes) (len : Nat) : Option Version :=
  (versions.find? fun v => v.1.length == len && matchLoop len 0 s (v.1 ++ [0])).map (·.2.2)

/-- `__fly_version_alpn_cmp`, src/version.c:84-91: the first `len` bytes of the table entry (with NUL) and
of the client's name; `none`: reads behind the entry. -/
def alpnCmp : Bytes → Bytes → Option Bool
  | _, [] => some true
  | [], _ :: _ => none
  | d :: ds, v :: vs => if d = v then alpnCmp ds vs else some false

/-- `fly_match_version_from_alpn`, src/version.c:93-103. -/
def matchAlpn (name : Bytes) : Option (Option Version) :=
  if name = [] then some (some .v1_1)
  else
    match alpnCmp (b!"h2" ++ [0]) name with
    | none => none
    | some true => some (some .v2)
    | some false =>
      match alpnCmp (b!"http/1.1" ++ [0]) name with
      | none => none
      | some true => some (some .v1_1)
      | some false => some none

/-! ## The request line -/

/-- The fields of `struct fly_request_line` filled in by the parser. -/
structure ReqLine where
  method : Method
  uri : Bytes
  query : Option Bytes
  version : Version
  deriving DecidableEq, Repr

inductive Res where
  | ok (r : ReqLine)
  | bad
  | crash
  deriving DecidableEq, Repr

/-- End of the loop body, src/request.c:629-636: `ptr++`, `--len`, and the length check (`status != LF`). -/
def brk (len : Int) (k : Int → Res) : Res := if len - 1 ≤ 0 then .bad else k (len - 1)

/-- `case CR`, `LF`, `SUCCESS`, src/request.c:606-620 (the length check is skipped in state LF). -/
def stCR (r : ReqLine) : Bytes → Res
  | [] => .crash
  | c :: _ => if c == 10 then .ok r else .bad

/-- `case END_HTTP_VERSION`, src/request.c:594-605.  `ver` points at the version, `n` is its length. -/
def stEndVersion (m : Method) (uri : Bytes) (query : Option Bytes) (ver : Bytes) (n : Nat) (ptr : Bytes) : Res :=
  match matchVersionLen ver n with
  | none => .bad
  | some v => stCR ⟨m, uri, query, v⟩ ptr

/-- `case HTTP_VERSION_MINOR`, src/request.c:583-593. -/
def stMinor (m : Method) (uri : Bytes) (query : Option Bytes) (ver : Bytes) (len : Int) : Bytes → Res
  | [] => .crash
  | c :: r =>
    if c == 13 then brk len fun _ => stEndVersion m uri query ver (ver.length - (c :: r).length) r else .bad

/-- `case HTTP_VERSION_POINT`, src/request.c:573-582. -/
def stPoint (m : Method) (uri : Bytes) (query : Option Bytes) (ver : Bytes) (len : Int) : Bytes → Res
  | [] => .crash
  | c :: r => if numeral c then brk len fun l => stMinor m uri query ver l r else .bad

/-- `case HTTP_VERSION_MAJOR`, src/request.c:558-572. -/
def stMajor (m : Method) (uri : Bytes) (query : Option Bytes) (ver : Bytes) (len : Int) : Bytes → Res
  | [] => .crash
  | c :: r =>
    if c == 46 then brk len fun l => stPoint m uri query ver l r
    else if c == 13 then brk len fun _ => stEndVersion m uri query ver (ver.length - (c :: r).length) r
    else .bad

/-- `case HTTP_SLASH`, src/request.c:547-557. -/
def stSlash (m : Method) (uri : Bytes) (query : Option Bytes) (len : Int) : Bytes → Res
  | [] => .crash
  | c :: r => if numeral c then brk len fun l => stMajor m uri query (c :: r) l r else .bad

/-- `case HTTP_NAME`, src/request.c:535-546, with `__fly_http` 208-217 (four bytes, stays in the state). -/
def stName (m : Method) (uri : Bytes) (query : Option Bytes) : Int → Bytes → Res
  | _, [] => .crash
  | _, [72] => .crash
  | _, [72, 84] => .crash
  | _, [72, 84, 84] => .crash
  | len, 72 :: 84 :: 84 :: 80 :: r =>
    if len - 4 ≤ 0 then .bad else stName m uri query (len - 4) r
  | len, c :: r => if c == 47 then brk len fun l => stSlash m uri query l r else .bad

/-- `case REQUEST_TARGET_SPACE`, src/request.c:531-534. -/
def stTargetSpace (m : Method) (uri : Bytes) (query : Option Bytes) : Int → Bytes → Res
  | _, [] => .crash
  | len, c :: r =>
    if c == 32 then (if len - 1 ≤ 0 then .bad else stTargetSpace m uri query (len - 1) r)
    else stName m uri query len (c :: r)

/-- `case ORIGIN_FORM_QUERY`, src/request.c:379-390, then `END_REQUEST_TARGET` 524-530.  `q` is the
`query` pointer.  The `Nat` argument bounds the iterations by the bytes left (it never runs out). -/
def stQuery (m : Method) (uri q : Bytes) : Nat → Int → Bytes → Res
  | 0, _, _ => .crash
  | _ + 1, _, [] => .crash
  | f + 1, len, c :: r =>
    match queryChar c r with
    | .crash => .crash
    | .one => if len - 1 ≤ 0 then .bad else stQuery m uri q f (len - 1) r
    | .three => if len - 1 ≤ 0 then .bad else stQuery m uri q f (len - 1) (r.drop 2)
    | .no =>
      if c == 32 then stTargetSpace m uri (some (q.take (q.length - (c :: r).length))) len (c :: r) else .bad

/-- `case ORIGIN_FORM_QUESTION`, src/request.c:362-378.  After `%XX` the query pointer is already on the
last digit. -/
def stQuestion (m : Method) (uri : Bytes) (len : Int) : Bytes → Res
  | [] => .crash
  | c :: r =>
    if c == 32 then stTargetSpace m uri none len (c :: r)
    else
      match queryChar c r with
      | .crash => .crash
      | .one => brk len fun l => stQuery m uri (c :: r) r.length l r
      | .three => brk len fun l => stQuery m uri (r.drop 1) r.length l (r.drop 2)
      | .no => .bad

/-- `case ORIGIN_FORM`, src/request.c:344-361.  `t` is the `request_target` pointer. -/
def stOrigin (m : Method) (t : Bytes) : Nat → Int → Bytes → Res
  | 0, _, _ => .crash
  | _ + 1, _, [] => .crash
  | f + 1, len, c :: r =>
    if c == 47 then (if len - 1 ≤ 0 then .bad else stOrigin m t f (len - 1) r)
    else
      match pchar c r with
      | .crash => .crash
      | .one => if len - 1 ≤ 0 then .bad else stOrigin m t f (len - 1) r
      | .three => if len - 1 ≤ 0 then .bad else stOrigin m t f (len - 1) (r.drop 2)
      | .no =>
        if c == 32 then stTargetSpace m (t.take (t.length - (c :: r).length)) none len (c :: r)
        else if c == 63 then brk len fun l => stQuestion m (t.take (t.length - (c :: r).length)) l r
        else .bad

/-- `case AUTHORITY_FORM_PORT`, src/request.c:512-523; `target_len` is still 0. -/
def stPort (m : Method) : Int → Bytes → Res
  | _, [] => .crash
  | len, c :: r =>
    if numeral c then (if len - 1 ≤ 0 then .bad else stPort m (len - 1) r)
    else if c == 32 then stTargetSpace m [] none len (c :: r)
    else .bad

/-- `case AUTHORITY_FORM_COLON`, src/request.c:502-511. -/
def stColon (m : Method) (len : Int) : Bytes → Res
  | [] => .crash
  | c :: r => if numeral c then brk len fun l => stPort m l r else .bad

/-- `case AUTHORITY_FORM_HOST`, src/request.c:490-501. -/
def stHost (m : Method) : Int → Bytes → Res
  | _, [] => .crash
  | len, c :: r =>
    if host c then (if len - 1 ≤ 0 then .bad else stHost m (len - 1) r)
    else if c == 58 then brk len fun l => stColon m l r
    else .bad

/-- `case AUTHORITY_FORM_ATSIGN`, src/request.c:479-489. -/
def stAtsign (m : Method) (len : Int) : Bytes → Res
  | [] => .crash
  | c :: r => if host c then brk len fun l => stHost m l r else .bad

/-- `case AUTHORITY_FORM_USERINFO`, src/request.c:466-478. -/
def stUserinfo (m : Method) : Nat → Int → Bytes → Res
  | 0, _, _ => .crash
  | _ + 1, _, [] => .crash
  | f + 1, len, c :: r =>
    match userinfo c r with
    | .crash => .crash
    | .one => if len - 1 ≤ 0 then .bad else stUserinfo m f (len - 1) r
    | .three => if len - 1 ≤ 0 then .bad else stUserinfo m f (len - 1) (r.drop 2)
    | .no => if c == 64 then brk len fun l => stAtsign m l r else .bad

/-- `case AUTHORITY_FORM`, src/request.c:452-465. -/
def stAuthority (m : Method) (len : Int) : Bytes → Res
  | [] => .crash
  | c :: r =>
    match userinfo c r with
    | .crash => .crash
    | .one => brk len fun l => stUserinfo m r.length l r
    | .three => brk len fun l => stUserinfo m r.length l (r.drop 2)
    | .no => if host c then brk len fun l => stHost m l r else .bad

/-- `case METHOD_SPACE`, src/request.c:316-343.  `meth` is the `method` pointer.  State ASTERISK_FORM has
no case (error, 621-627); ABSOLUTE_FORM calls `is_fly_scheme` (src/scheme.c:10-20), whose loop condition
`type > 0` is false for the first entry (`fly_http` is 0), so it always reports an error. -/
def stMethodSpace (m : Method) (meth : Bytes) : Int → Bytes → Res
  | _, [] => .crash
  | len, c :: r =>
    if c == 32 then (if len - 1 ≤ 0 then .bad else stMethodSpace m meth (len - 1) r)
    else if requestMethod meth == some .connect then stAuthority m len (c :: r)
    else if c == 42 && requestMethod meth == some .options then .bad
    else if c == 47 then stOrigin m (c :: r) (r.length + 1) len (c :: r)
    else .bad

/-- `case METHOD`, src/request.c:294-315. -/
def stMethod (meth : Bytes) : Int → Bytes → Res
  | _, [] => .crash
  | len, c :: r =>
    if tchar c then (if len - 1 ≤ 0 then .bad else stMethod meth (len - 1) r)
    else if c == 32 then
      match matchMethodLen meth (meth.length - (c :: r).length) with
      | none => .bad
      | some m => stMethodSpace m meth len (c :: r)
    else .bad

/-- `__fly_parse_reqline`, src/request.c:238-640, starting in `case INIT`.  `line` is the request line
including CRLF; the caller has put a NUL behind it (667). -/
def parseReqline (line : Bytes) : Res :=
  match line ++ [0] with
  | [] => .crash
  | c :: r => if tchar c then stMethod (c :: r) line.length (c :: r) else .bad

/-- Result of `__fly_request_operation`. -/
inductive LineRes where
  | notReady
  | err (status : Nat)
  | ok (r : ReqLine) (b : Buffer.Buf)
  | crash
  deriving Repr

/-- `__fly_request_operation`, src/request.c:642-683. -/
def requestOperation (b : Buffer.Buf) : LineRes :=
  match Buffer.takeLine b with
  | .notReady => .notReady
  | .tooLong => .err 414
  | .crash => .crash
  | .line l =>
    match parseReqline l with
    | .crash => .crash
    | .bad => .err 400
    | .ok r =>
      match Buffer.release b l.length with
      | none => .crash
      | some b' => .ok r b'

/-! ## HTTP/2 request target -/

inductive TRes where
  | ok (uri : Bytes) (query : Option Bytes)
  | bad
  | crash
  deriving DecidableEq, Repr

/-- `case ORIGIN_FORM_QUERY` of `fly_hv2_request_target_parse`, src/request.c:1714-1722, and the loop end
1745-1751.  `uri` is the path found so far, `q` the `query` pointer. -/
def t2Query (uri q : Bytes) : Nat → Int → Bytes → TRes
  | 0, _, _ => .crash
  | _ + 1, _, [] => .crash
  | f + 1, len, c :: r =>
    match queryChar c r with
    | .crash => .crash
    | .one => if len - 1 = 0 then .ok uri (some (q.take (q.length - r.length))) else t2Query uri q f (len - 1) r
    | .three =>
      if len - 1 = 0 then .ok uri (some (q.take (q.length - (r.drop 2).length))) else t2Query uri q f (len - 1) (r.drop 2)
    | .no => if c == 32 then .ok uri (some (q.take (q.length - (c :: r).length))) else .bad

/-- `case ORIGIN_FORM_QUESTION`, src/request.c:1706-1713.  `full` is the unparsed `:path` value. -/
def t2Question (full uri : Bytes) (len : Int) : Bytes → TRes
  | [] => .crash
  | c :: r =>
    match queryChar c r with
    | .crash => .crash
    | .one => if len - 1 = 0 then .ok uri (some ((c :: r).take 1)) else t2Query uri (c :: r) r.length (len - 1) r
    | .three =>
      if len - 1 = 0 then .ok uri (some ((r.drop 1).take 1))
      else t2Query uri (r.drop 1) r.length (len - 1) (r.drop 2)
    | .no => .bad

/-- `case ORIGIN_FORM`, src/request.c:1693-1705.  Without a query the URI stays the whole value. -/
def t2Origin (full t : Bytes) : Nat → Int → Bytes → TRes
  | 0, _, _ => .crash
  | _ + 1, _, [] => .crash
  | f + 1, len, c :: r =>
    if c == 47 then (if len - 1 = 0 then .ok full none else t2Origin full t f (len - 1) r)
    else
      match pchar c r with
      | .crash => .crash
      | .one => if len - 1 = 0 then .ok full none else t2Origin full t f (len - 1) r
      | .three => if len - 1 = 0 then .ok full none else t2Origin full t f (len - 1) (r.drop 2)
      | .no =>
        if c == 32 then .ok full none
        else if c == 63 then
          (if len - 1 = 0 then .ok full none
           else t2Question full (t.take (t.length - (c :: r).length)) (len - 1) r)
        else .bad

/-- `case INIT`, src/request.c:1682-1692. -/
def t2Init (options : Bool) (full t : Bytes) : Int → Bytes → TRes
  | _, [] => .crash
  | len, c :: r =>
    if c == 32 then (if len - 1 = 0 then .ok full none else t2Init options full t (len - 1) r)
    else if c == 42 && options then .ok full none
    else if c == 47 then t2Origin full t (r.length + 1) len (c :: r)
    else .bad

/-- `fly_hv2_request_target_parse`, src/request.c:1646-1755, on the value of `:path` with its NUL. -/
def target2 (method : Method) (path : Bytes) : TRes :=
  t2Init (method == .options) path (path ++ [0]) path.length (path ++ [0])

end Fly.Req
