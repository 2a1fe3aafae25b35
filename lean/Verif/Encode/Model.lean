import Verif.Request.Model
import Verif.CStr

/-! # Choosing a content coding: src/encode.c

Built with zlib and brotli (`HAVE_ZLIB_H`, `HAVE_LIBBROTLIDEC`, `HAVE_LIBBROTLIENC`).  Allocation succeeds. -/

namespace Fly.Encode

/-- The entries of `__fly_encodes`, src/encode.c:5-17. -/
inductive Coding where
  | gzip | xgzip | deflate | identity | br | any
  deriving DecidableEq, Repr

/-- Names and priorities in the order of the table, src/encode.c:5-17. -/
def table : List (Bytes × Coding × Nat) :=
  [(b!"gzip", .gzip, 100), (b!"x-gzip", .xgzip, 90), (b!"deflate", .deflate, 75), (b!"identity", .identity, 1),
   (b!"br", .br, 30), (b!"*", .any, 0)]

/-- `type->priority`. -/
def prio : Coding → Nat
  | .gzip => 100 | .xgzip => 90 | .deflate => 75 | .identity => 1 | .br => 30 | .any => 0

/-- `tolower` in the C locale. -/
def lower (c : Nat) : Nat := if 65 ≤ c ∧ c ≤ 90 then c + 32 else c

/-- `fly_encoding_from_name`, src/encode.c:89-106 (its argument has at most 19 bytes and fits its buffer). -/
def fromName (n : Bytes) : Option Coding := (table.find? fun e => e.1 == n.map lower).map (·.2.1)

/-- `__fly_most_priority`, src/encode.c:60-69: the first of the highest priority. -/
def mostPriority : Coding :=
  ((table.foldl (fun (m : Option (Coding × Nat)) e =>
    match m with
    | none => some e.2
    | some x => if e.2.2 > x.2 then some e.2 else m) none).map (·.1)).getD .any

def vchar (c : Nat) : Bool := 33 ≤ c && c ≤ 126
/-- `__fly_tchar`, src/encode.c:920-928: every visible character but the semicolon. -/
def tchar (c : Nat) : Bool := vchar c && c != 59
/-- `__fly_space`, src/encode.c:930-933. -/
def space (c : Nat) : Bool := c == 32 || c == 9
/-- `__fly_number`. -/
def number (c : Nat) : Bool := 48 ≤ c && c ≤ 57

/-- `__fly_memcpy_name`, src/encode.c:807-818, copying at most 20 bytes from the C string `src` into
`char encname[FLY_ENCNAME_MAXLEN]` (encode.h:177: 20), which was zeroed; `i` bytes are copied.  Line 1234 then sets the
last byte to 0.  `none`: the terminating 0 is written behind the array. -/
def copyName : Nat → Bytes → Option Bytes
  | i, c :: r =>
    if i + 1 ≥ 20 then
      (match r with
       | d :: _ => if space d || d == 59 || d == 44 || d == 0 then none else some []
       | [] => some [])
    else
      match r with
      | d :: _ => if space d || d == 59 || d == 44 || d == 0 then some [c] else (copyName (i + 1) r).map (c :: ·)
      | [] => some [c]
  | _, [] => some []

/-- Round to nearest, ties to even. -/
def rhe (n d : Nat) : Nat :=
  if 2 * (n % d) < d then n / d
  else if 2 * (n % d) > d then n / d + 1
  else if n / d % 2 = 0 then n / d else n / d + 1

/-- The exponent that gives `v / 1000` a 53 bit mantissa, for `1 ≤ v ≤ 999`. -/
def expo (v : Nat) : Nat := 52 + ((List.range 11).find? fun k => decide (v * 2 ^ k ≥ 1000)).getD 0

/-- `(int) (atof(v/1000) * 100)` in IEEE double precision, src/encode.c:1299-1305: the nearest double of `v / 1000`,
multiplied by 100, rounded to 53 bits, and truncated. -/
def pct (v : Nat) : Nat :=
  if v = 0 then 0
  else
    let e := expo v
    let m := rhe (v * 2 ^ e) 1000
    let s := if 100 * m < 2 ^ 59 then 6 else 7
    rhe (100 * m) (2 ^ s) * 2 ^ s / 2 ^ e

/-- `atof` in thousandths, on a text of digits and points that begins with zeros: the digits after the first point (at
most three here). -/
def frac : Nat → Bytes → Nat
  | _, [] => 0
  | w, c :: r => if number c then (c - 48) * w + frac (w / 10) r else 0

def thousandths (t : Bytes) : Nat :=
  match t.dropWhile number with
  | 46 :: r => frac 100 r
  | _ => 0

/-- `__fly_quality_value_from_str`, src/encode.c:1288-1306; `none`: more than 6 bytes are written into `qv_str`. -/
def quality : Option Bytes → Option Nat
  | none => some 100
  | some s =>
    if s.head? == some 49 then some 100
    else
      let t := s.takeWhile fun c => c == 46 || number c
      if t.length < 6 then some (pct (thousandths t)) else none

/-- An element of `accepts`. -/
structure Acc where
  coding : Coding
  q : Nat
  deriving DecidableEq, Repr

/-- The states of `__fly_parse_ae`, src/encode.c:980-997; a state is entered here after the character that led to it
was consumed, so `ADD` is not a state. -/
inductive PSt where
  | init | name | wspace | semi | spaceAfter | q | eq | oneInt | zeroInt | onePoint | zeroPoint | oneDec | zeroDec
  | lastSpace | comma
  deriving DecidableEq, Repr

/-- The local variables of `__fly_parse_ae`; `name` and `qv` are pointers into the value. -/
structure PS where
  st : PSt
  name : Option Bytes
  qv : Option Bytes
  dec : Nat
  acc : List Acc
  deriving DecidableEq, Repr

inductive Out where
  | err | outside | overflow | ok (l : List Acc)
  deriving DecidableEq, Repr

inductive Stp where
  | err | overflow | done (l : List Acc) | go (p : PS)
  deriving DecidableEq, Repr

/-- State `ADD`, src/encode.c:1222-1252: the new list. -/
def add (p : PS) : Option (List Acc) :=
  match copyName 0 (p.name.getD (b!"*" ++ [0])), quality p.qv with
  | some n, some q =>
    match fromName n with
    | none => some p.acc
    | some c => some (p.acc ++ [⟨c, q⟩])
  | _, _ => none

/-- End of the value. -/
def finish (p : PS) : Stp := match add p with | none => .overflow | some l => .done l

/-- A name begins at `s`, whose first character is `c` (`INIT`, then `NAME`). -/
def begin (p : PS) (c : Nat) (s : Bytes) : Stp :=
  if tchar c then .go { p with st := if c == 44 then .comma else .name, name := some s, dec := 0 }
  else .err

/-- `ADD`, then a new name begins. -/
def next (p : PS) (c : Nat) (s : Bytes) : Stp :=
  match add p with
  | none => .overflow
  | some l => begin { p with acc := l } c s

/-- One character `c` of `__fly_parse_ae`, src/encode.c:999-1252; `s` is the text from `c` on. -/
def step (p : PS) (c : Nat) (s : Bytes) : Stp :=
  if !(tchar c) && c != 59 && !(space c) && c != 0 then .err
  else
    match p.st with
    | .init => if c == 0 then finish { p with dec := 0 } else begin p c s
    | .name =>
      if space c then .go { p with st := .wspace }
      else if c == 59 then .go { p with st := .semi }
      else if c == 44 then .go { p with st := .comma }
      else if c == 0 then finish p
      else .go p
    | .wspace =>
      if space c then .go p
      else if c == 59 then .go { p with st := .semi }
      else .err
    | .semi =>
      if c == 59 then .go p
      else if space c then .go { p with st := .spaceAfter }
      else if c == 113 then .go { p with st := .q }
      else .err
    | .spaceAfter =>
      if space c then .go p
      else if c == 113 then .go { p with st := .q }
      else .err
    | .q =>
      if c == 113 then .go p
      else if c == 61 then .go { p with st := .eq }
      else .err
    | .eq =>
      if c == 61 then .go p
      else if c == 49 then .go { p with st := .oneInt, qv := some s }
      else if c == 48 then .go { p with st := .zeroInt, qv := some s }
      else .err
    | .oneInt =>
      if c == 49 then .go p
      else if space c then .go { p with st := .lastSpace }
      else if c == 46 then .go { p with st := .onePoint }
      else if c == 0 then finish p
      else if c == 44 then .go { p with st := .comma }
      else .err
    | .zeroInt =>
      if c == 48 then .go p
      else if space c then .go { p with st := .lastSpace }
      else if c == 46 then .go { p with st := .zeroPoint }
      else if c == 0 then finish p
      else if c == 44 then .go { p with st := .comma }
      else .err
    | .onePoint =>
      if c == 46 then .go p
      else if c == 48 && p.dec < 3 then .go { p with st := .oneDec, dec := p.dec + 1 }
      else .err
    | .zeroPoint =>
      if c == 46 then .go p
      else if number c && p.dec < 3 then .go { p with st := .zeroDec, dec := p.dec + 1 }
      else .err
    | .oneDec =>
      if c == 48 && p.dec < 3 then .go { p with dec := p.dec + 1 }
      else if c == 0 then finish p
      else if space c then .go { p with st := .lastSpace }
      else if c == 44 then .go { p with st := .comma }
      else .err
    | .zeroDec =>
      if number c && p.dec < 3 then .go { p with dec := p.dec + 1 }
      else if c == 0 then finish p
      else if space c then .go { p with st := .lastSpace }
      else if c == 44 then .go { p with st := .comma }
      else .err
    | .lastSpace =>
      if space c then .go p
      else if c == 44 then .go { p with st := .comma }
      else if c == 0 then finish p
      else next p c s
    | .comma =>
      if c == 44 || space c then .go p
      else if c == 0 then finish p
      else next p c s

/-- The loop, src/encode.c:999-1253. -/
def parse : PS → Bytes → Out
  | _, [] => .outside
  | p, c :: r =>
    match step p c (c :: r) with
    | .err => .err
    | .overflow => .overflow
    | .done l => .ok l
    | .go p' => parse p' r

def start : PS := ⟨.init, none, none, 0, []⟩

/-- `__fly_parse_ae` on a header value. -/
def parseAe (v : Bytes) : Out := parse start (v ++ [0])

/-- The loop of `__fly_decide_encoding`, src/encode.c:1318-1332; the second argument is `maxt` (whose quality is
`max_quality_value`). -/
def decideLoop : List Acc → Option Acc → Option Acc
  | [], m => m
  | a :: l, m =>
    decideLoop l (if a.q > 0 && a.q > (m.map (·.q)).getD 0 && (match m with | none => true | some x => prio a.coding > prio x.coding)
      then some a else m)

/-- Result of `fly_accept_encoding` with the coding `fly_decided_encoding_type` then finds (1361-1375). -/
inductive Choice where
  | notAcceptable
  | none
  | use (c : Coding)
  deriving DecidableEq, Repr

/-- `__fly_decide_encoding`, src/encode.c:1308-1343. -/
def decide' (l : List Acc) : Choice :=
  if l = [] then .none
  else match decideLoop l none with
    | none => .notAcceptable
    | some a => if a.coding = .any then .use mostPriority else .use a.coding

inductive Res where
  | syntaxError | outside | overflow | choice (c : Choice)
  deriving DecidableEq, Repr

/-- `__fly_accept_encoding`, src/encode.c:753-774: the first header field whose name begins with
`accept-encoding`. -/
def headerValue (hs : List (Bytes × Bytes)) : Option Bytes :=
  (hs.find? fun h => 0 < h.1.length && 0 < h.2.length && (b!"accept-encoding").isPrefixOf h.1).map (·.2)

/-- `fly_accept_encoding`, src/encode.c:847-893. -/
def accept (hs : List (Bytes × Bytes)) : Res :=
  match headerValue hs with
  | none => .choice (decide' [⟨.any, 100⟩])
  | some v =>
    match parseAe v with
    | .err => .syntaxError
    | .outside => .outside
    | .overflow => .overflow
    | .ok l => .choice (decide' l)

/-- `type->type` (encode.h:30-42): `gzip` and `x-gzip` have the same. -/
def kind : Coding → Coding
  | .xgzip => .gzip
  | c => c

/-- `accepts` after `__fly_decide_encoding` replaced the asterisk it chose (1337-1341). -/
def settle (l : List Acc) : List Acc :=
  match decideLoop l none with
  | some a => if a.coding = .any then l.map fun x => if x = a then { x with coding := mostPriority } else x else l
  | none => l

/-- `fly_encoding_matching`, src/encode.c:1440-1451: may content that was encoded before the request be sent. -/
def matching (l : List Acc) (t : Coding) : Bool := (settle l).any fun a => kind a.coding == kind t

/-- The content coding of a response, src/response.c:603-617: `pre` is the coding of content encoded in advance,
`big` whether the content reaches the threshold. -/
def responseCoding (l : List Acc) (pre : Option Coding) (big : Bool) : Option Coding :=
  match pre with
  | some t => if matching l t then some t
    else if big then (match decide' l with | .use c => some c | _ => none) else none
  | none => if big then (match decide' l with | .use c => some c | _ => none) else none

end Fly.Encode
