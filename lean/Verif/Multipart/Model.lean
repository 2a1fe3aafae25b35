import Verif.Header.Model
import Verif.PyBridge.Model

/-! # Multipart bodies (src/body.c:120-375, src/header.c:321-341, src/mime.c:131-140, src/pyserver.c:615-700)

A pointer into the body is the text from there to the end of the body.  The body is allocated with exactly its length
(src/request.c:1478), so a read behind its end is undefined behaviour.  Allocation failures are not modelled. -/

namespace Fly.Multipart

/-! ## The header of a part -/

abbrev Field := Bytes × Bytes

/-- Result of a piece of parsing: success, parse error (-1), or a read outside of the body. -/
inductive P (α : Type) where
  | ok (a : α)
  | err
  | undef
  deriving DecidableEq, Repr

/-- `strncmp(*ptr, "Content-", 8) == 0`, src/body.c:143: the bytes are compared up to the first difference; if the
body ends before, the read is outside of it. -/
def isPrefix : Bytes → Bytes → P Unit
  | [], _ => .ok ()
  | _ :: _, [] => .undef
  | a :: p, b :: s => if a = b then isPrefix p s else .err

/-- State NAME, src/body.c:150-161: the name, and the text from the separator on.  After every advance the line is
given up if the pointer is at the last byte of the body (lines 201-203). -/
def scanName : Bytes → Option (Bytes × Bytes)
  | [] => none
  | c :: r =>
    if c = 32 ∨ c = 9 ∨ c = 58 then some ([], c :: r)
    else if r.length < 2 then none
    else
      match scanName r with
      | none => none
      | some (n, t) => some (c :: n, t)

/-- States NAME_SPACE and COLON_SPACE, src/body.c:162-164, 182-184: skip blanks. -/
def skipBlank : Bytes → Option Bytes
  | [] => none
  | c :: r => if c = 32 ∨ c = 9 then (if r.length < 2 then none else skipBlank r) else some (c :: r)

/-- States VALUE, ADD and END, src/body.c:189-207: the value up to CR LF, and the text from the LF on. -/
def scanValue : Bytes → Option (Bytes × Bytes)
  | a :: b :: r =>
    if a = 13 ∧ b = 10 then (if r.length = 0 then none else some ([], b :: r))
    else if r.length = 0 then none
    else
      match scanValue (b :: r) with
      | none => none
      | some (v, t) => some (a :: v, t)
  | _ => none

/-- From the state COLON on, src/body.c:172-207. -/
def afterColon (name : Bytes) (t : Bytes) : P (Field × Bytes) :=
  if t.length < 2 then .err
  else
    match skipBlank t with
    | none => .err
    | some t =>
      match scanValue t with
      | none => .err
      | some (v, rest) => .ok ((name, v), rest)

/-- `__fly_multipart_parse_line`, src/body.c:120-210. -/
def parseLine (s : Bytes) : P (Field × Bytes) :=
  match isPrefix b!"Content-" s with
  | .undef => .undef
  | .err => .err
  | .ok _ =>
    match scanName s with
    | none => .err
    | some (_, []) => .err
    | some (name, c :: t) =>
      if c = 58 then afterColon name t
      else if t.length < 2 then .err
      else
        match skipBlank t with
        | none => .err
        | some [] => .err
        | some (c :: t) => if c = 58 then afterColon name t else .err

/-- `__fly_multipart_header_parse`, src/body.c:244-266.  Without the empty line the pointer is moved behind the end
of the body, and its target is compared by the caller: `undef`.  `fuel` bounds the number of lines. -/
def parseHeader : Nat → Bytes → P (List Field × Bytes)
  | 0, _ => .undef
  | n + 1, s =>
    match s with
    | a :: b :: r =>
      if a = 13 ∧ b = 10 then .ok ([], r)
      else
        match parseLine s with
        | .undef => .undef
        | .err => .err
        | .ok (f, t) =>
          match parseHeader n (t.drop 1) with
          | .undef => .undef
          | .err => .err
          | .ok (fs, rest) => .ok (f :: fs, rest)
    | _ => .undef

/-! ## The body -/

/-- `struct fly_body_parts`, src/body.h:17-24: the header, the text from `ptr` on, and `parts_len`. -/
structure RawPart where
  header : List Field
  start : Bytes
  len : Int
  deriving DecidableEq, Repr

/-- Lines 326-331 of src/body.c: the length of the last part, from its start to two bytes before here. -/
def setLast (ps : List RawPart) (here : Bytes) : List RawPart :=
  match ps with
  | [] => []
  | [p] => [{ p with len := (p.start.length : Int) - here.length - 2 }]
  | p :: q :: l => p :: setLast (q :: l) here

inductive Cmp where
  | mismatch (rest : Bytes)
  | full (rest : Bytes)
  | undef
  deriving DecidableEq, Repr

/-- The loop `while(boundary[i++] == *body_ptr++)` up to the end of the boundary, src/body.c:335-336. -/
def cmp : Bytes → Bytes → Cmp
  | [], s => .full s
  | _ :: _, [] => .undef
  | x :: xs, y :: s => if x = y then (if xs = [] then .full s else cmp xs s) else .mismatch s

inductive Found where
  | stop
  | undef
  | part (header : List Field) (rest : Bytes)
  deriving DecidableEq, Repr

/-- Behind a boundary, src/body.c:339-360. -/
def found (s : Bytes) : Found :=
  match s with
  | [] => .undef
  | [a] => if a = 45 ∨ a = 13 then .undef else .stop
  | a :: b :: r =>
    if a = 45 ∧ b = 45 then .stop
    else if a ≠ 13 ∨ b ≠ 10 then .stop
    else if r = [] then .stop
    else
      match parseHeader (r.length + 1) r with
      | .undef => .undef
      | .err => .stop
      | .ok (fs, rest) => .part fs rest

inductive Out where
  | done (ps : List RawPart)
  | undef
  deriving DecidableEq, Repr

/-- The loop of `fly_body_parse_multipart`, src/body.c:319-369.  After a part is found, the inner loop goes on with
the NUL behind the boundary: a first content byte NUL counts as a match, and if another part follows then, the
boundary is read behind its NUL.  `fuel` is the length of the body. -/
def scan : Nat → Bytes → List RawPart → Bytes → Out
  | 0, _, ps, _ => .done ps
  | n + 1, bd, ps, s =>
    match s with
    | [] => .done ps
    | [a] => if a = 45 then .undef else .done ps
    | a :: b :: r =>
      if a = 45 ∧ b = 45 then
        match cmp bd r with
        | .undef => .undef
        | .mismatch rest => scan n bd (setLast ps s) rest
        | .full rest =>
          match found rest with
          | .stop => .done (setLast ps s)
          | .undef => .undef
          | .part fs [] => .undef
          | .part fs (y :: rest) =>
            if y ≠ 0 then scan n bd (setLast ps s ++ [⟨fs, y :: rest, 0⟩]) rest
            else
              match found rest with
              | .stop => .done (setLast ps s ++ [⟨fs, y :: rest, 0⟩])
              | _ => .undef
      else scan n bd ps (b :: r)

/-- A loop that advances to the byte `c` and gives up at the last byte, src/body.c:298-312. -/
def seek (c : Nat) : Bytes → Option Bytes
  | [] => none
  | x :: r => if x = c then some (x :: r) else if r.length ≤ 1 then none else seek c r

/-- The boundary of a Content-Type, src/body.c:298-316. -/
def boundaryOf (v : Bytes) : Option Bytes :=
  match seek 59 v with
  | none => none
  | some v =>
    match seek 32 v with
    | none => none
    | some v =>
      match seek 61 v with
      | none => none
      | some v => some (v.drop 1)

/-- A field called `Content-Type` or `content-type` with a value, src/body.c:287-290 and src/header.c:332-333. -/
def isContentType (f : Header.HField) : Bool :=
  (f.name == some b!"Content-Type" || f.name == some b!"content-type") && f.value.isSome

/-- `fly_mime_type_from_strn`, src/mime.c:131-140; `none`: read behind the table, which has no end mark. -/
def mimeFromStrn (v : Bytes) : Option Bytes := PyBridge.mimes.find? (fun m => m.length ≤ v.length && v.take m.length == m)

/-- `fly_is_multipart_form_data`, src/header.c:321-341; `none`: undefined. -/
def isMultipart : List Header.HField → Option Bool
  | [] => some false
  | f :: l =>
    if isContentType f then
      match mimeFromStrn (f.value.getD []) with
      | none => none
      | some m => if m = b!"multipart/form-data" then some true else isMultipart l
    else isMultipart l

/-- `fly_body_parse_multipart`, src/body.c:269-372. -/
def parseMultipart (h : List Header.HField) (body : Bytes) : Out :=
  match h.find? isContentType with
  | none => .done []
  | some f =>
    match boundaryOf (f.value.getD []) with
    | none => .done []
    | some bd => scan (body.length + 1) bd [] body

/-! ## The body as the handler sees it -/

/-- What is stored under `body`: bytes, or a list of parts, or a 500, or undefined behaviour. -/
inductive Body where
  | bytes (b : Bytes)
  | parts (l : List (List Field × Bytes))
  | error
  | undef
  deriving DecidableEq, Repr

/-- The list of parts, src/pyserver.c:630-690 (`none`: negative length).  The names and values of part headers are
texts here; bytes that are no UTF-8 give a 500 there. -/
def pyParts : List RawPart → Option (List (List Field × Bytes))
  | [] => some []
  | p :: l =>
    if p.len < 0 then none
    else
      match pyParts l with
      | none => none
      | some l => some ((p.header, p.start.take p.len.toNat) :: l)

/-- src/request.c:1485-1486 (src/v2.c:4938-4939) and src/pyserver.c:616-700; `body->multipart` is set with the first
part. -/
def bodySeen (h : List Header.HField) (body : Bytes) : Body :=
  match isMultipart h with
  | none => .undef
  | some false => .bytes body
  | some true =>
    match parseMultipart h body with
    | .undef => .undef
    | .done [] => .bytes body
    | .done ps =>
      match pyParts ps with
      | none => .error
      | some l => .parts l

end Fly.Multipart
