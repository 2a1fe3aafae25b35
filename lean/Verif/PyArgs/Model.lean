import Verif.Basic

/-!
# Model of how the Python layer reads a request and writes a cookie

Models `fly/_parse.py` (`RequestParser`) and `fly/cookie.py`, and the functions of Python's library
they use on strings: `split`, `strip`, `lower`, `replace`, `urllib.parse.unquote` and
`unquote_plus`, `bytes.decode("utf-8")` (strict and `errors="replace"`), `int`.

A Python `str` is the list of its code points.

Simplifications:
* `lower` is modelled on ASCII letters;
* `int` is modelled on ASCII digits, without the limit on the number of digits;
* whether `float` accepts a text is a parameter;
* annotations other than the request's parts (pydantic models) are modelled up to the dictionary of
  form fields; multipart and JSON bodies are not modelled.
-/

namespace Fly.PyArgs

abbrev Str := List Nat

/-! ## Python's string functions -/

/-- `s.split(c)` for a one-character separator: never empty. -/
def splitOn (c : Nat) : Str → List Str
  | [] => [[]]
  | x :: xs =>
    match splitOn c xs with
    | [] => [[x]]
    | p :: ps => if x = c then [] :: p :: ps else (x :: p) :: ps

/-- `str.isspace` for one character (Unicode white space as CPython's `str.strip` uses it). -/
def isSpace (c : Nat) : Bool :=
  (9 ≤ c && c ≤ 13) || (28 ≤ c && c ≤ 32) || c == 0x85 || c == 0xA0 || c == 0x1680 ||
  (0x2000 ≤ c && c ≤ 0x200A) || c == 0x2028 || c == 0x2029 || c == 0x202F || c == 0x205F || c == 0x3000

/-- `s.strip()`. -/
def strip (s : Str) : Str := ((s.dropWhile isSpace).reverse.dropWhile isSpace).reverse

/-- `lower` then `replace('-', '_')` (fly/_parse.py:113-115). -/
def normC (c : Nat) : Nat :=
  if (if 65 ≤ c ∧ c ≤ 90 then c + 32 else c) = 45 then 95 else (if 65 ≤ c ∧ c ≤ 90 then c + 32 else c)
def norm (s : Str) : Str := s.map normC

/-- Value of a hexadecimal digit. -/
def hexv (c : Nat) : Option Nat :=
  if 48 ≤ c ∧ c ≤ 57 then some (c - 48)
  else if 65 ≤ c ∧ c ≤ 70 then some (c - 55)
  else if 97 ≤ c ∧ c ≤ 102 then some (c - 87)
  else none

/-- `urllib.parse.unquote_to_bytes` on ASCII text: `%` and two hexadecimal digits become a byte, any
other `%` stays. -/
def unpercent : Str → List Nat
  | [] => []
  | 37 :: a :: b :: r =>
    match hexv a, hexv b with
    | some x, some y => (16 * x + y) :: unpercent r
    | _, _ => 37 :: unpercent (a :: b :: r)
  | c :: r => c :: unpercent r

def cont (c : Nat) : Bool := 0x80 ≤ c && c ≤ 0xBF

/-- What a UTF-8 decoder finds at the beginning of a non-empty byte string: a code point and the
number of bytes it takes, or `none` and the number of bytes to replace (CPython: the longest prefix
that could begin a character, at least one byte). -/
def utf8Head : List Nat → Option Nat × Nat
  | [] => (none, 1)
  | b :: r =>
    if b < 0x80 then (some b, 1)
    else if 0xC2 ≤ b ∧ b ≤ 0xDF then
      match r with
      | c1 :: _ => if cont c1 then (some ((b - 0xC0) * 64 + (c1 - 0x80)), 2) else (none, 1)
      | [] => (none, 1)
    else if 0xE0 ≤ b ∧ b ≤ 0xEF then
      match r with
      | c1 :: r1 =>
        if cont c1 && (b != 0xE0 || 0xA0 ≤ c1) && (b != 0xED || c1 ≤ 0x9F) then
          match r1 with
          | c2 :: _ =>
            if cont c2 then (some ((b - 0xE0) * 4096 + (c1 - 0x80) * 64 + (c2 - 0x80)), 3)
            else (none, 2)
          | [] => (none, 2)
        else (none, 1)
      | [] => (none, 1)
    else if 0xF0 ≤ b ∧ b ≤ 0xF4 then
      match r with
      | c1 :: r1 =>
        if cont c1 && (b != 0xF0 || 0x90 ≤ c1) && (b != 0xF4 || c1 ≤ 0x8F) then
          match r1 with
          | c2 :: r2 =>
            if cont c2 then
              match r2 with
              | c3 :: _ =>
                if cont c3 then
                  (some ((b - 0xF0) * 262144 + (c1 - 0x80) * 4096 + (c2 - 0x80) * 64 + (c3 - 0x80)), 4)
                else (none, 3)
              | [] => (none, 3)
            else (none, 2)
          | [] => (none, 2)
        else (none, 1)
      | [] => (none, 1)
    else (none, 1)

/-- `b.decode("utf-8", errors="replace")`; `fuel` is at least the number of bytes. -/
def decodeReplaceF : Nat → List Nat → Str
  | 0, _ => []
  | _, [] => []
  | fuel + 1, b :: r =>
    ((utf8Head (b :: r)).1.getD 0xFFFD) :: decodeReplaceF fuel ((b :: r).drop (utf8Head (b :: r)).2)
def decodeReplace (bs : List Nat) : Str := decodeReplaceF bs.length bs

/-- `b.decode("utf-8")`: `none` is a `UnicodeDecodeError`. -/
def decodeStrictF : Nat → List Nat → Option Str
  | 0, _ => some []
  | _, [] => some []
  | fuel + 1, b :: r =>
    match utf8Head (b :: r) with
    | (some c, n) => (decodeStrictF fuel ((b :: r).drop n)).map (c :: ·)
    | (none, _) => none
def decodeStrict (bs : List Nat) : Option Str := decodeStrictF bs.length bs

/-- The loop of `urllib.parse.unquote` over the ASCII runs of the text: each run has its percent
signs undone and is decoded, other characters stay.  `run` is the current run, reversed. -/
def unquoteRuns (run : Str) : Str → Str
  | [] => decodeReplace (unpercent run.reverse)
  | c :: r =>
    if c < 128 then unquoteRuns (c :: run) r
    else decodeReplace (unpercent run.reverse) ++ c :: unquoteRuns [] r

/-- `urllib.parse.unquote`. -/
def unquote (s : Str) : Str := if 37 ∈ s then unquoteRuns [] s else s

/-- `urllib.parse.unquote_plus`. -/
def unquotePlus (s : Str) : Str := unquote (s.map (fun c => if c = 43 then 32 else c))

/-- `int(s)`: optional sign, digits, single underscores between digits, white space around. -/
def digitsF (last : Bool) (acc : Nat) : Str → Option Nat
  | [] => if last then some acc else none
  | c :: r =>
    if 48 ≤ c ∧ c ≤ 57 then digitsF true (10 * acc + (c - 48)) r
    else if c = 95 ∧ last then digitsF false acc r
    else none
def pyInt (s : Str) : Option Int :=
  match strip s with
  | 43 :: r => (digitsF false 0 r).map Int.ofNat
  | 45 :: r => (digitsF false 0 r).map (fun n => - Int.ofNat n)
  | r => (digitsF false 0 r).map Int.ofNat

/-! ## Set-Cookie -/

inductive SameSite | strict | lax | none_
  deriving DecidableEq, Repr

/-- `samesite.value` (fly/cookie.py:3-6). -/
def SameSite.text : SameSite → Str
  | .strict => b!"Strict" | .lax => b!"Lax" | .none_ => b!"None"

/-- The arguments of `set_cookie` (fly/cookie.py:9-18); `value` is `str(value)`. -/
structure Cookie where
  name : Str
  value : Str
  maxAge : Option Int := none
  secure : Bool := false
  httpOnly : Bool := false
  domain : Option Str := none
  path : Option Str := none
  sameSite : Option SameSite := none
  deriving DecidableEq, Repr

/-- The decimal text of an integer in an f-string. -/
def dec (n : Int) : Str := (toString n).toList.map Char.toNat

/-- `header_value_from_cookie` (fly/cookie.py:9-61): an attribute is written when the argument is
true in Python's sense, so 0 and empty texts count as missing. -/
def cookieValue (c : Cookie) : Str :=
  c.name ++ b!"=" ++ c.value ++
  (match c.maxAge with | some n => if n ≠ 0 then b!"; " ++ (b!"Max-Age=" ++ dec n) else [] | none => []) ++
  (if c.secure then b!"; " ++ b!"Secure" else []) ++
  (if c.httpOnly then b!"; " ++ b!"HttpOnly" else []) ++
  (match c.domain with | some d => if d ≠ [] then b!"; " ++ (b!"Domain=" ++ d) else [] | none => []) ++
  (match c.path with | some p => if p ≠ [] then b!"; " ++ (b!"Path=" ++ p) else [] | none => []) ++
  (match c.sameSite with | some s => b!"; " ++ (b!"SameSite=" ++ s.text) | none => [])

/-! ## Cookies and the query string of a request -/

/-- Everything before the first and between the first and the second separator (the
`iter(item.split('='))` of fly/_parse.py:56-58, 96-98, 171-174). -/
def nameValue (s : Str) : Str × Option Str :=
  match splitOn 61 s with
  | [] => ([], none)
  | [n] => (n, none)
  | n :: v :: _ => (n, some v)

/-- `RequestParser.parse_cookie` (fly/_parse.py:44-63) on the list of the `Cookie` header values. -/
def parseCookie (lines : List Str) : List (Str × Option Str) :=
  lines.flatMap (fun l => (splitOn 59 l).map (fun item =>
    (strip (nameValue item).1, (nameValue item).2.map strip)))

/-- `RequestParser._parse_query` (fly/_parse.py:168-178). -/
def parseQuery (q : Str) : List (Str × Option Str) :=
  (splitOn 38 q).map (fun i => (unquote (nameValue i).1, (nameValue i).2.map unquote))

/-- The value of the first entry whose name matches (`_get_cookie`, `_get_header`,
`_get_query_params`, fly/_parse.py:118-134, 181-189); `none` also when that entry has no value. -/
def getNamed (name : Str) : List (Str × Option Str) → Option Str
  | [] => none
  | (n, v) :: l => if norm n = name then v else getNamed name l

/-! ## Form bodies -/

/-- `d[n] = v`. -/
def setKey (d : List (Str × Option Str)) (n : Str) (v : Option Str) : List (Str × Option Str) :=
  match d with
  | [] => [(n, v)]
  | (m, w) :: d => if m = n then (m, v) :: d else (m, w) :: setKey d n v

/-- `_parse_application_x_www_form_urlencoded` (fly/_parse.py:91-103): the whole body is decoded
first, then it is taken apart.  `none`: the body is not UTF-8 (`UnicodeDecodeError`). -/
def parseForm (body : List Nat) : Option (List (Str × Option Str)) :=
  (decodeStrict body).map (fun s =>
    (splitOn 38 (unquotePlus s)).foldl (fun d item =>
      setKey d (strip (nameValue item).1) ((nameValue item).2.map strip)) [])

/-- Which reader `_parse_data_form` chooses for a content type (fly/_parse.py:204-214); `none` is
`HTTP415Exception`. -/
inductive FormKind | multipart | urlencoded | json
  deriving DecidableEq, Repr
def formKind (ct : Str) : Option FormKind :=
  let t := (splitOn 59 ct).headD []
  if t = b!"multipart/form-data" then some .multipart
  else if t = b!"application/x-www-form-urlencoded" then some .urlencoded
  else if t = b!"application/json" then some .json
  else none

/-! ## Arguments of a handler -/

/-- Path parameter types (fly/_parse.py:27-30); every other number counts as text. -/
inductive PType | int | float | bool | str
  deriving DecidableEq, Repr

structure PathParam where
  param : Str
  type : PType
  value : Str
  deriving DecidableEq, Repr

/-- An argument value.  `float s` is the number `float(s)`; `field k` is the entry `k` of the request
dictionary as it stands; `request` is the whole dictionary. -/
inductive Val where
  | str (s : Str)
  | int (n : Int)
  | float (s : Str)
  | bool (b : Bool)
  | field (k : Str)
  | request
  deriving DecidableEq, Repr

/-- How binding ends: a value, `HTTP404Exception`, `KeyError`, or `AttributeError`. -/
inductive Bound where
  | val (v : Val)
  | notFound
  | keyError
  | attributeError
  deriving DecidableEq, Repr

/-- A request as the dictionary made by src/pyserver.c: the names of its entries, the path parameters,
the query string, the `Cookie` header values and the headers. -/
structure Req where
  keys : List Str
  path : List PathParam
  query : Option Str
  cookies : List Str
  header : List (Str × Str)
  deriving DecidableEq, Repr

/-- `_get_path_params` (fly/_parse.py:136-166); `fl` says which texts `float` accepts; the outer
`none` is Python's `None`, the inner one `HTTP404Exception`. -/
def getPath (fl : Str → Bool) (name : Str) : List PathParam → Option (Option Val)
  | [] => none
  | p :: l =>
    if name ≠ norm p.param then getPath fl name l
    else some (match p.type with
      | .int => (pyInt p.value).map .int
      | .float => if fl p.value then some (.float p.value) else none
      | .bool => some (.bool (!p.value.isEmpty))
      | .str => some (.str p.value))

/-- One parameter without annotation (fly/_parse.py:295-326), with the entries the dictionary still
has. -/
def bindOne (fl : Str → Bool) (r : Req) (keys : List Str) (name : Str) : Bound :=
  if name ∉ keys ∧ name ≠ b!"request" then
    match getPath fl name r.path with
    | some (some v) => .val v
    | some none => .notFound
    | none =>
      match r.query.bind (fun q => getNamed name (parseQuery q)) with
      | some v => .val (.str v)
      | none =>
        match getNamed name (parseCookie r.cookies) with
        | some v => .val (.str v)
        | none =>
          match getNamed name (r.header.map (fun h => (h.1, some h.2))) with
          | some v => .val (.str v)
          | none => .keyError
  else if name = b!"request" then .val .request
  else .val (.field name)

/-- The loop over the parameters (fly/_parse.py:286-326): an entry handed out by name is taken out of
the dictionary. -/
def bindAll (fl : Str → Bool) (r : Req) : List Str → List Str → List Val ⊕ Bound
  | _, [] => .inl []
  | keys, p :: ps =>
    match bindOne fl r keys p with
    | .val v =>
      match bindAll fl r (if p = b!"request" then keys else keys.erase p) ps with
      | .inl vs => .inl (v :: vs)
      | .inr e => .inr e
    | e => .inr e

/-- `RequestParser.parse_func_args` (fly/_parse.py:275-338) for a function whose parameters have no
annotations.  The entry `cookie` is always there (line 282).  `varkw`: the function takes `**kwargs`;
then line 330 uses an attribute that does not exist. -/
def parseArgs (fl : Str → Bool) (r : Req) (params : List Str) (varkw : Bool) : List Val ⊕ Bound :=
  match bindAll fl r (r.keys.erase b!"cookie" ++ [b!"cookie"]) params with
  | .inr e => .inr e
  | .inl vs => if varkw then .inr .attributeError else .inl vs

end Fly.PyArgs
