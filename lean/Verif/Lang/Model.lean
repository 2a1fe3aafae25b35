import Verif.Encode.Spec

/-! # Accept-Language and Accept-Charset: src/lang.c, src/charset.c

Both files contain the same state machine; they differ in the size of the name field, in what counts as a blank, and in
the lookup of the header field.  Allocation succeeds. -/

namespace Fly.Lang

/-- What differs between the two files. -/
structure Kind where
  /-- header name: `FLY_ACCEPT_LANG` (lang.h:45), `FLY_ACCEPT_CHARSET` (charset.h) -/
  header : Bytes
  /-- `FLY_LANG_MAXLEN` (lang.h:7), `FLY_CHARSET_MAXLEN` (charset.h:7): size of the array `lname`, `cname` -/
  max : Nat
  /-- `__fly_space` (lang.c:109-112) accepts the tab, `fly_space` (char.h:12-15) does not -/
  tab : Bool
  /-- charset.c:38-40 skips fields without value, lang.c:37 does not -/
  skipEmpty : Bool

/-- src/lang.c, src/lang.h. -/
def lang : Kind := ⟨b!"accept-language", 10, true, false⟩

/-- src/charset.c, src/charset.h. -/
def charset : Kind := ⟨b!"accept-charset", 30, false, true⟩

/-- `__fly_tchar`, src/lang.c:81-89, src/charset.c:84-92: every visible character but the semicolon (a byte over 127 is
a negative `char`). -/
def token (c : Nat) : Bool := (33 ≤ c && c ≤ 126) && c != 59

/-- `__fly_space`, src/lang.c:109-112; `fly_space`, src/char.h:12-15. -/
def space (k : Kind) (c : Nat) : Bool := c == 32 || (k.tab && c == 9)

/-- `fly_numeral`. -/
def digit (c : Nat) : Bool := 48 ≤ c && c ≤ 57

/-- The loop of `__fly_lname_cpy` (src/lang.c:383-386) and `__fly_cname_cpy` (src/charset.c:373-376): the bytes copied from
`src`, of which `i` were copied before.  The terminating 0 is then written behind them (lang.c:388, charset.c:378). -/
def copied (max : Nat) : Nat → Bytes → Bytes
  | _, [] => []
  | i, c :: r => if token c && c != 44 && i < max then c :: copied max (i + 1) r else []

/-- Thousandths of a fraction `.ddd`; `atof` (src/lang.c:372-377) stops at the first character that is no digit.  The
value is kept exactly; the code keeps the nearest `float`. -/
def fraction : Nat → Bytes → Nat
  | _, [] => 0
  | w, c :: r => if digit c then (c - 48) * w + fraction (w / 10) r else 0

/-- `__fly_qvalue_from_str`, src/lang.c:372-377, src/charset.c:364-369, on a text that begins with `0` or `1` (the only
ones that occur), in thousandths. -/
def qvalue : Option Bytes → Nat
  | none => 1000
  | some (49 :: _) => 1000
  | some (_ :: 46 :: r) => fraction 100 r
  | some _ => 0

/-- `struct __fly_lang`, `struct __fly_charset`. -/
structure Acc where
  name : Bytes
  q : Nat
  deriving DecidableEq, Repr

/-- The states, src/lang.c:162-181, src/charset.c:151-170.  `COMMA`, `ADD` and `END` are left without consuming a character. -/
inductive St where
  | init | name | ows1 | semi | ows2 | q | qeq | oneInt | onePoint | oneDec | zeroInt | zeroPoint | zeroDec | addEnd
  deriving DecidableEq, Repr

/-- Local variables (src/lang.c:182-183) and the list filled so far; `str` and `qv` point into the value; `top` is the
highest index of a name field written so far, plus one. -/
structure PS where
  st : St
  str : Option Bytes
  qv : Option Bytes
  dec : Nat
  acc : List Acc
  top : Nat
  deriving DecidableEq, Repr

inductive Stp where
  | perror | crash | done (l : List Acc) (top : Nat) | go (p : PS)
  deriving DecidableEq, Repr

/-- `INIT` followed by `LANG` on the same character, src/lang.c:189-212 (a comma is a token character). -/
def stInit (p : PS) (c : Nat) (s : Bytes) (add : PS → Stp) : Stp :=
  if token c then
    (if c == 44 then add { p with str := some s, qv := none, dec := 0 }
     else .go { p with st := .name, str := some s, qv := none, dec := 0 })
  else .perror

/-- The new element of state `ADD`, src/lang.c:288-299: bytes `0 … n` of the name field are written, where `n` is the number of
characters copied. -/
def stAdd (k : Kind) (p : PS) : Option PS :=
  match p.str with
  | none => none
  | some s =>
    some { p with acc := p.acc ++ [⟨copied k.max 0 s, qvalue p.qv⟩], top := max p.top ((copied k.max 0 s).length + 1) }

/-- `COMMA`, `ADD` and `ADD_END` on a comma, src/lang.c:286-303. -/
def comma (k : Kind) (p : PS) : Stp :=
  match stAdd k p with
  | none => .crash
  | some p' => .go { p' with st := .addEnd }

/-- `ADD`, `ADD_END` and `END` on the terminating 0, src/lang.c:288-310. -/
def finish (k : Kind) (p : PS) : Stp :=
  match stAdd k p with
  | none => .crash
  | some p' => .done p'.acc p'.top

/-- One turn of the loop up to the next `ptr++`, src/lang.c:187-315, src/charset.c:176-304: `c` is `*ptr`, `s` is `ptr`. -/
def step (k : Kind) (p : PS) (c : Nat) (s : Bytes) : Stp :=
  match p.st with
  | .init => stInit p c s (comma k)
  | .name =>
    if c == 44 then comma k p
    else if c == 0 then finish k p
    else if c == 59 then .go { p with st := .semi }
    else if space k c then .go { p with st := .ows1 }
    else if token c then .go p
    else .perror
  | .ows1 =>
    if space k c then .go p
    else if c == 59 then .go { p with st := .semi }
    else .perror
  | .semi =>
    if space k c then .go { p with st := .ows2 }
    else if c == 113 then .go { p with st := .q }
    else .perror
  | .ows2 =>
    if space k c then .go p
    else if c == 113 then .go { p with st := .q }
    else .perror
  | .q => if c == 61 then .go { p with st := .qeq } else .perror
  | .qeq =>
    if c == 49 then .go { p with st := .oneInt, qv := some s }
    else if c == 48 then .go { p with st := .zeroInt, qv := some s }
    else .perror
  | .oneInt =>
    if c == 46 then .go { p with st := .onePoint }
    else if c == 44 then comma k p
    else if c == 0 then finish k p
    else .perror
  | .onePoint => if c == 48 then .go { p with st := .oneDec, dec := p.dec + 1 } else .perror
  | .oneDec =>
    if c == 48 then (if p.dec < 3 then .go { p with dec := p.dec + 1 } else .perror)
    else if c == 44 then comma k p
    else if c == 0 then finish k p
    else .perror
  | .zeroInt =>
    if c == 46 then .go { p with st := .zeroPoint }
    else if c == 44 then comma k p
    else if c == 0 then finish k p
    else .perror
  | .zeroPoint => if digit c then .go { p with st := .zeroDec, dec := p.dec + 1 } else .perror
  | .zeroDec =>
    if digit c then (if p.dec < 3 then .go { p with dec := p.dec + 1 } else .perror)
    else if c == 44 then comma k p
    else if c == 0 then finish k p
    else .perror
  | .addEnd =>
    if space k c then .go p
    else if c == 44 then .go p
    else if c == 0 then .done p.acc p.top
    else stInit p c s (comma k)

/-- Outcome of the parser; `outside`: it reads behind the terminating 0; `crash`: a null pointer is read. -/
inductive Out where
  | perror | crash | outside | ok (l : List Acc) (top : Nat)
  deriving DecidableEq, Repr

/-- The loop of `__fly_al_parse` and `__fly_ac_parse`. -/
def parse (k : Kind) : PS → Bytes → Out
  | _, [] => .outside
  | p, c :: r =>
    match step k p c (c :: r) with
    | .perror => .perror
    | .crash => .crash
    | .done l t => .ok l t
    | .go p' => parse k p' r

def start : PS := ⟨.init, none, none, 0, [], 0⟩

/-- The parser on a header value. -/
def parseValue (k : Kind) (v : Bytes) : Out := parse k start (v ++ [0])

/-- `__fly_accept_lang`, src/lang.c:27-45; `__fly_accept_charset`, src/charset.c:28-47. -/
def headerValue (k : Kind) (hs : List (Bytes × Bytes)) : Option Bytes :=
  (hs.find? fun h => 0 < h.1.length && (!k.skipEmpty || 0 < h.2.length) && h.1 == k.header).map (·.2)

/-- What the request does next, src/request.c:1347-1373: go on with the accepted list, 400, 406; `corrupt`: a byte
behind the name field was written. -/
inductive Res where
  | accepted (l : List Acc) | badRequest | notAcceptable | crash | outside | corrupt
  deriving DecidableEq, Repr

/-- `fly_accept_language`, src/lang.c:328-370; `fly_accept_charset`, src/charset.c:317-361. -/
def accept (k : Kind) (hs : List (Bytes × Bytes)) : Res :=
  match headerValue k hs with
  | none => .accepted [⟨b!"*", 1000⟩]
  | some v =>
    match parseValue k v with
    | .perror => .badRequest
    | .crash => .crash
    | .outside => .outside
    | .ok l t =>
      if t > k.max then .corrupt
      else if l.length = 0 then .badRequest
      else if l.any fun a => a.q > 0 then .accepted l
      else .notAcceptable

end Fly.Lang
