import Verif.Encode.Spec

/-! # Accept: src/mime.c

Allocation succeeds.  `FLY_MIME_PARSE_ERROR` (the quality is not within 0 and 1, or allocation fails) does not occur.  A pointer into the value is the rest of the value from there on, including the terminating 0; a
difference of two pointers is the difference of their lengths. -/

namespace Fly.Mime
open Fly.Encode (pct thousandths number)

/-- `__fly_tchar`, `__fly_token`, `__fly_type`, `__fly_subtype`, src/mime.c:270-300: every visible character but the semicolon.
(A byte over 127 is a negative `char`.) -/
def token (c : Nat) : Bool := (33 ≤ c && c ≤ 126) && c != 59

/-- `__fly_space`, src/mime.c:317-320. -/
def space (c : Nat) : Bool := c == 32 || c == 9

/-- `__fly_digit`, src/mime.c:239-242. -/
def digit (c : Nat) : Bool := 48 ≤ c && c ≤ 57

/-- `__fly_qdtext`, src/mime.c:327-333.  `__fly_obs_text` (335-338) takes an `unsigned`: a byte over 127, a negative `char`,
becomes larger than 255, so it is never true. -/
def qdtext (c : Nat) : Bool := space c || c == 33 || (35 ≤ c && c ≤ 91) || (93 ≤ c && c ≤ 126)

/-- `__fly_quoted_string`, src/mime.c:340-350, at the pointer `c :: r`. -/
def quotedString (c : Nat) (r : Bytes) : Bool :=
  qdtext c || (c == 92 && (match r with | d :: _ => space d || (33 ≤ d && d ≤ 126) | [] => false))

/-- A media range of the result (`struct __fly_mime`).  Of the extensions only the number is kept.  `subtype->asterisk` (never
set to false, 984) is left out. -/
structure Acc where
  type : Bytes
  subtype : Bytes
  q : Nat
  params : List (Bytes × Bytes)
  exts : Nat
  deriving DecidableEq, Repr

/-- The states, src/mime.c:364-404.  States that never consume a character (`COMMA`, `ADD`, `…_END`, `…_TOKENEND`) are not
resting places; `WEIGHT_Q` and `WEIGHT_OWS2` are never entered. -/
inductive St where
  | init | type | slash | subtype | ows1 | semi | maybeq | ows2 | pl | peq | pr | pql | pq | pqr
  | weq | oneInt | onePoint | zeroInt | zeroPoint | zeroDec
  | eows1 | esemi | eows2 | el | eeq | er | eql | eq | eqr | after
  deriving DecidableEq, Repr

/-- Local variables, src/mime.c:354-358, and the list filled so far.  A length is a difference of pointers, possibly of a
pointer and `NULL`: `none` then. -/
structure PS where
  st : St
  type : Option Bytes
  subtype : Option Bytes
  typeLen : Nat
  subtypeLen : Nat
  dec : Nat
  qv : Option Bytes
  pl : Option Bytes
  pr : Option Bytes
  plLen : Nat
  prLen : Nat
  el : Option Bytes
  er : Option Bytes
  elLen : Option Nat
  erLen : Nat
  params : List (Bytes × Bytes)
  exts : Nat
  acc : List Acc
  deriving DecidableEq, Repr

/-- `perror`: the value is malformed; `crash`: a null pointer is read, or bytes behind the value; `overflow`: bytes
behind a field of a structure are written. -/
inductive Stp where
  | perror | crash | overflow | done (l : List Acc) | go (p : PS)
  deriving DecidableEq, Repr

/-- `memcpy` of `n` bytes from a pointer into the value; reading more than the value (and its terminating 0) is
undefined, reading nothing from a null pointer is taken for harmless. -/
def copy (src : Option Bytes) (n : Nat) : Option Bytes :=
  if n = 0 then some [] else match src with
    | none => none
    | some s => if n ≤ s.length then some (s.take n) else none

/-- `ptr - p`, when the pointer is at `s`. -/
def diff (p : Option Bytes) (s : Bytes) : Option Nat := p.map fun x => x.length - s.length

/-- The names of `__fly_mime_type_list`, src/mime.c:897-905. -/
def known : List Bytes := [b!"text", b!"image", b!"application", b!"*", b!"multipart", b!"unknown"]

/-- `__fly_accept_type_from_str`, src/mime.c:955-976, on a type of `n` bytes: refused if it is not known and has 30 bytes
(`FLY_MIME_TYPE_MAXLEN`) or more. -/
def typeOk (t : Bytes) : Bool := known.contains t || t.length < 30

/-- `__fly_accept_qvalue_from_str`, src/mime.c:990-1010, into `char qv_str[6]`; `none`: it overflows. -/
def quality : Option Bytes → Option Nat
  | none => some 100
  | some s =>
    if s.head? == some 49 then some 100
    else
      let t := s.takeWhile fun c => c == 46 || number c
      if t.length < 6 then some (pct (thousandths t)) else none

/-- `__FLY_ACCEPT_MIME_MEDIA_RANGE_TYPE`, src/mime.c:437-445. -/
def stType (p : PS) (c : Nat) (s : Bytes) : Stp :=
  if c == 47 then
    match diff p.type s with
    | none => .crash
    | some n => .go { p with st := .slash, typeLen := n }
  else if token c then .go { p with st := .type }
  else .perror

/-- `__FLY_ACCEPT_MIME_MEDIA_RANGE_INIT`, src/mime.c:413-436; the lengths of extensions are not reset. -/
def stInit (p : PS) (c : Nat) (s : Bytes) : Stp :=
  if token c then
    stType ⟨.type, some s, none, 0, 0, 0, none, none, none, 0, 0, none, none, p.elLen, p.erLen, [], 0, p.acc⟩ c s
  else .perror

/-- `__FLY_ACCEPT_MIME_COMMA_AFTER_ADD`, src/mime.c:869-878. -/
def stAfter (p : PS) (c : Nat) (s : Bytes) : Stp :=
  if c == 0 then .done p.acc
  else if space c then .go { p with st := .after }
  else if c == 44 then .go { p with st := .after }
  else stInit p c s

/-- `__FLY_ACCEPT_MIME_ADD`, src/mime.c:852-868, with `__fly_accept_subtype_from_str` (979-987): `subtype_len` bytes are copied
into `char subtype[30]`. -/
def stAdd (p : PS) (c : Nat) (s : Bytes) : Stp :=
  match quality p.qv with
  | none => .overflow
  | some q =>
    match copy p.type p.typeLen with
    | none => .crash
    | some t =>
      if !typeOk t then .perror
      else match copy p.subtype p.subtypeLen with
        | none => .crash
        | some u =>
          if 30 < u.length then .overflow
          else stAfter { p with acc := p.acc ++ [⟨t, u, q, p.params, p.exts⟩] } c s

/-- `__FLY_ACCEPT_MIME_MEDIA_RANGE_OWS2`, src/mime.c:518-534; also what `SEMICOLON` (490-508) does, which enters `OWS2` on a
blank. -/
def stOws2 (p : PS) (c : Nat) (s : Bytes) : Stp :=
  if space c then .go { p with st := .ows2 }
  else if c == 113 then .go { p with st := .maybeq, pl := some s }
  else if token c then
    (if c == 61 then .go { p with st := .peq, pl := some s, plLen := 0 } else .go { p with st := .pl, pl := some s })
  else .perror

/-- `__FLY_ACCEPT_MIME_MEDIA_RANGE_OWS1`, src/mime.c:480-489; on `;` it enters `SEMICOLON` without advancing, which finds the
same `;`. -/
def stOws1 (p : PS) (c : Nat) (s : Bytes) : Stp :=
  if space c then .go { p with st := .ows1 }
  else if c == 59 then stOws2 p c s
  else .perror

/-- `…_PARAMETER_TOKENL`, src/mime.c:535-543. -/
def stPl (p : PS) (c : Nat) (s : Bytes) : Stp :=
  if c == 61 then
    match diff p.pl s with
    | none => .crash
    | some n => .go { p with st := .peq, plLen := n }
  else if token c then .go { p with st := .pl }
  else .perror

/-- `…_PARAMETER_TOKENEND` and `…_QUOTED_TOKENEND`, src/mime.c:563-597 and 617-651. -/
def stPend (p : PS) (c : Nat) (s : Bytes) : Stp :=
  match copy p.pl (min p.plLen 30), copy p.pr (min p.prLen 30) with
  | some l, some r =>
    let p := { p with params := p.params ++ [(l, r)], plLen := min p.plLen 30, prLen := min p.prLen 30 }
    if c == 0 then stAdd p c s
    else if space c then stOws1 p c s
    else if c == 59 then .go { p with st := .semi }
    else .perror
  | _, _ => .crash

/-- `…_PARAMETER_TOKENR`, src/mime.c:556-562. -/
def stPr (p : PS) (c : Nat) (s : Bytes) : Stp :=
  if token c then .go { p with st := .pr }
  else match diff p.pr s with
    | none => .crash
    | some n => stPend { p with prLen := n } c s

/-- `…_EXT_OWS1`, src/mime.c:736-743. -/
def stEows1 (p : PS) (c : Nat) : Stp :=
  if space c then .go { p with st := .eows1 }
  else if c == 59 then .go { p with st := .esemi }
  else .perror

/-- `…_EXT_TOKENEND`, src/mime.c:822-846; a length that is a difference to `NULL` is huge and becomes 30. -/
def stEend (p : PS) (c : Nat) (s : Bytes) : Stp :=
  match copy p.el (min (p.elLen.getD 30) 30), copy p.er (min p.erLen 30) with
  | some _, some _ =>
    let p := { p with exts := p.exts + 1, elLen := some (min (p.elLen.getD 30) 30), erLen := min p.erLen 30 }
    if c == 44 then stAdd p c s
    else stEows1 p c
  | _, _ => .crash

/-- `…_EXT_TOKENL`, src/mime.c:764-777. -/
def stEl (p : PS) (c : Nat) (s : Bytes) : Stp :=
  if c == 61 then .go { p with st := .eeq, elLen := diff p.el s }
  else if token c then .go { p with st := .el }
  else if space c then stEend { p with elLen := diff p.el s } c s
  else .perror

/-- `…_EXT_TOKENR`, src/mime.c:789-799. -/
def stEr (p : PS) (c : Nat) (s : Bytes) : Stp :=
  if c != 44 && token c then .go { p with st := .er }
  else match diff p.er s with
    | none => .crash
    | some n => stEend { p with erLen := n } c s

/-- `…_PARAMETER_QUOTED_STRING`, src/mime.c:605-613: a `"` is no qdtext. -/
def stPq (p : PS) (c : Nat) (s : Bytes) : Stp :=
  if quotedString c s.tail then .go { p with st := .pq }
  else if c == 34 then .go { p with st := .pqr }
  else .perror

/-- `…_EXT_QUOTED_STRING`, src/mime.c:809-818. -/
def stEq (p : PS) (c : Nat) (s : Bytes) : Stp :=
  if c == 34 then
    match diff p.er s with
    | none => .crash
    | some n => .go { p with st := .eqr, erLen := n }
  else if quotedString c s.tail then .go { p with st := .eq }
  else .perror

/-- `subtype_len = ptr-subtype`, src/mime.c:456, 461, 469, 475. -/
def measured (p : PS) (s : Bytes) (k : PS → Stp) : Stp :=
  match diff p.subtype s with
  | none => .crash
  | some n => k { p with subtypeLen := n }

/-- One turn of the loop up to the next `ptr++`, src/mime.c:411-887; `c` is `*ptr`, `s` is `ptr`. -/
def step (p : PS) (c : Nat) (s : Bytes) : Stp :=
  match p.st with
  | .init => stInit p c s
  | .type => stType p c s
  -- 446-453; then SUBTYPE
  | .slash =>
    if token c then
      (if c == 44 then stAdd { p with subtype := some s, subtypeLen := 0 } c s
       else .go { p with st := .subtype, subtype := some s })
    else .perror
  -- 454-479
  | .subtype =>
    if c == 44 then measured p s fun p => stAdd p c s
    else if c == 0 then measured p s fun p => stAdd p c s
    else if token c then .go p
    else if space c then measured p s fun p => stOws1 p c s
    else if c == 59 then measured p s fun p => .go { p with st := .semi }
    else .perror
  | .ows1 => stOws1 p c s
  | .semi => stOws2 p c s
  -- 509-517
  | .maybeq => if c == 61 then .go { p with st := .weq, pl := none } else stPl p c s
  | .ows2 => stOws2 p c s
  | .pl => stPl p c s
  -- 544-555
  | .peq =>
    if c == 34 then .go { p with st := .pql }
    else if token c then .go { p with st := .pr, pr := some s }
    else .perror
  | .pr => stPr p c s
  -- 598-604
  | .pql => if quotedString c s.tail then stPq { p with pr := some s } c s else .perror
  | .pq => stPq p c s
  -- 614-616
  | .pqr => stPend p c s
  -- 664-676
  | .weq =>
    if c == 49 then .go { p with st := .oneInt, qv := some s }
    else if c == 48 then .go { p with st := .zeroInt, qv := some s }
    else .perror
  -- 677-683
  | .oneInt => if c == 46 then .go { p with st := .onePoint } else .perror
  -- 684-690; on a `1` it enters ONE_DECIMAL_PLACE (691-701) without advancing, which takes a `0`, a blank or the end
  | .onePoint => .perror
  -- 702-707
  | .zeroInt => if c == 46 then .go { p with st := .zeroPoint } else .perror
  -- 708-713; then ZERO_DECIMAL_PLACE
  | .zeroPoint => if digit c then .go { p with st := .zeroDec, dec := p.dec + 1 } else .perror
  -- 714-735
  | .zeroDec =>
    if digit c then (if p.dec < 3 then .go { p with dec := p.dec + 1 } else .perror)
    else if space c then stEows1 p c
    else if c == 59 then .go { p with st := .esemi }
    else if c == 44 then stAdd p c s
    else if c == 0 then stAdd p c s
    else .perror
  | .eows1 => stEows1 p c
  -- 744-754; `ext_tokenl` is not set
  | .esemi => if space c then .go { p with st := .eows2 } else if token c then stEl p c s else .perror
  -- 755-763
  | .eows2 => if space c then .go p else if token c then stEl { p with el := some s } c s else .perror
  | .el => stEl p c s
  -- 778-788
  | .eeq =>
    if c == 34 then .go { p with st := .eql }
    else if token c then stEr { p with er := some s } c s
    else .perror
  | .er => stEr p c s
  -- 801-808
  | .eql => if quotedString c s.tail then stEq { p with er := some s } c s else .perror
  | .eq => stEq p c s
  -- 819-821
  | .eqr => stEend p c s
  | .after => stAfter p c s

inductive Out where
  | perror | crash | overflow | outside | ok (l : List Acc)
  deriving DecidableEq, Repr

/-- The loop of `__fly_accept_mime_parse`, src/mime.c:352-895. -/
def parse : PS → Bytes → Out
  | _, [] => .outside
  | p, c :: r =>
    match step p c (c :: r) with
    | .perror => .perror
    | .crash => .crash
    | .overflow => .overflow
    | .done l => .ok l
    | .go p' => parse p' r

/-- src/mime.c:354-410. -/
def start : PS := ⟨.init, none, none, 0, 0, 0, none, none, none, 0, 0, none, none, some 0, 0, [], 0, []⟩

/-- The parser on a header value. -/
def parseValue (v : Bytes) : Out := parse start (v ++ [0])

/-- `__fly_accept_mime`, src/mime.c:141-161: the first field of this name (whose value is not `NULL`). -/
def headerValue (hs : List (Bytes × Bytes)) : Option Bytes :=
  (hs.find? fun h => 0 < h.1.length && (h.1 == b!"Accept" || h.1 == b!"accept")).map (·.2)

/-- What the request does next, src/request.c:1333-1345. -/
inductive Res where
  | accepted (l : List Acc) | badRequest | notAcceptable | crash | overflow | outside
  deriving DecidableEq, Repr

/-- `fly_accept_mime` (src/mime.c:181-214) with `__fly_accept_parse` (1012-1044). -/
def accept (hs : List (Bytes × Bytes)) : Res :=
  match headerValue hs with
  | none => .accepted [⟨b!"*", b!"*", 100, [], 0⟩]
  | some v =>
    match parseValue v with
    | .perror => .badRequest
    | .crash => .crash
    | .overflow => .overflow
    | .outside => .outside
    | .ok l =>
      if l.length = 0 then .badRequest
      else if l.any fun a => a.q > 0 then .accepted l
      else .notAcceptable

end Fly.Mime
