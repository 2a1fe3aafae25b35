import Verif.CStr

/-! # Model of the header list (src/header.c)

A header cell holds two pointers with lengths; a pointer may be NULL (`none`).  Allocation is assumed to
succeed.  `none` as a result of an operation is undefined behaviour (NULL passed to `strcmp`, use of freed
memory). -/

namespace Fly.Header

/-- `struct fly_hdr_chain`, src/header.h:28-50 (without the HPACK fields). -/
structure HField where
  name : Option Bytes
  value : Option Bytes
  deriving DecidableEq, Repr

/-- `struct fly_hdr_chain_info`, src/header.h:53-60. -/
structure HList where
  items : List HField
  count : Nat
  deriving DecidableEq, Repr

/-- `fly_header_init`, src/header.c:15-24. -/
def HList.init : HList := ⟨[], 0⟩

/-- A C string stops at the first NUL. -/
def cstr (s : Bytes) : Bytes := s.takeWhile (· != 0)

/-- `strcmp(p, q) == 0`; undefined for a NULL pointer. -/
def strEq (p : Option Bytes) (q : Bytes) : Option Bool :=
  match p with
  | none => none
  | some s => some (cstr s == cstr q)

/-- The cell built by `__fly_header_add` (src/header.c:69-93): empty name or value stays NULL. -/
def mkField (name value : Bytes) : HField :=
  ⟨if name.length = 0 then none else some name, if value.length = 0 then none else some value⟩

/-- `__fly_header_add` + `__fly_header_add_ci`, src/header.c:31-38, 69-97; `fly_header_add` 116-122,
`fly_header_addc` 153-156, and `fly_header_add_v2` (src/v2.c:5362-5420) as far as the list goes. -/
def add (h : HList) (name value : Bytes) (beginning : Bool) : HList :=
  if beginning then ⟨mkField name value :: h.items, h.count + 1⟩
  else ⟨h.items ++ [mkField name value], h.count + 1⟩

/-- `strcmp` against the cells in order, until the first equal one: its position. -/
def findStr (name : Bytes) : List HField → Option (Option Nat)
  | [] => some none
  | f :: fs =>
    match strEq f.name name with
    | none => none
    | some true => some (some 0)
    | some false =>
      match findStr name fs with
      | none => none
      | some r => some (r.map (· + 1))

/-- `fly_header_add_ifno`, src/header.c:99-114. -/
def addIfNo (h : HList) (name value : Bytes) : Option HList :=
  match findStr name h.items with
  | none => none
  | some (some _) => some h
  | some none => some (add h name value false)

/-- Test of `fly_header_add_ver_ifno` (src/header.c:132-136): same `name_len` and `strncmp` equal. -/
def sameLenName (f : HField) (name : Bytes) : Bool :=
  match f.name with
  | none => name.length == 0
  | some s => s.length == name.length && cstr s == cstr name

/-- `fly_header_add_ver_ifno`, src/header.c:125-143 (both versions append one cell). -/
def addVerIfNo (h : HList) (name value : Bytes) : HList :=
  if h.items.any (sameLenName · name) then h else add h name value false

/-- `fly_header_addmodify`, src/header.c:218-242: the value is replaced by a fresh allocation, even if
empty. -/
def addModify (h : HList) (name value : Bytes) : Option HList :=
  match findStr name h.items with
  | none => none
  | some (some i) => some { h with items := h.items.modify i fun f => { f with value := some value } }
  | some none => some (add h name value false)

/-- `fly_header_delete`, src/header.c:244-262 (`none`: not found, reported as -1). -/
def delete (h : HList) (name : Bytes) : Option HList :=
  match findStr name h.items with
  | none => none
  | some (some i) => some ⟨h.items.eraseIdx i, h.count - 1⟩
  | some none => some h

/-- `fly_remove_header_chain`, src/header.c:667-691: the cell is freed and the loop then reads its `next`
pointer: undefined as soon as one cell matches. -/
def removeChain (h : HList) (name : Bytes) : Option HList :=
  if h.count = 0 then some h
  else if h.items.any (fun f => (f.name.getD []).length == name.length && cstr (f.name.getD []) == cstr name) then none
  else some h

/-- `fly_content_length`, src/header.c:304-319. -/
def contentLength (h : HList) : Int :=
  if h.count = 0 then 0
  else
    match h.items.find? (fun f => f.value.isSome && ((f.name.getD [] |> cstr) == b!"Content-Length" || (f.name.getD [] |> cstr) == b!"content-length")) with
    | some f => atoll (cstr (f.value.getD []))
    | none => 0

inductive Conn where
  | close
  | keepAlive
  deriving DecidableEq, Repr

/-- `fly_connection`, src/header.c:342-368. -/
def connection (h : HList) : Option Conn :=
  if h.count = 0 then some .keepAlive
  else
    match findStr b!"Connection" h.items with
    | none => none
    | some none => some .keepAlive
    | some (some i) =>
      match (h.items[i]?).bind (·.value) with
      | none => some .keepAlive
      | some v =>
        if cstr v = b!"close" then some .close
        else if cstr v = b!"keep-alive" then some .keepAlive
        else some .close

/-- ASCII lower case, `fly_alpha_lower`. -/
def lower (b : Nat) : Nat := if 65 ≤ b ∧ b ≤ 90 then b + 32 else b

/-- `fly_check_expect_100`, src/header.c:644-665: some `expect` header equal to `100-continue` up to
case. -/
def expect100 (h : HList) : Bool :=
  h.items.any fun f => (f.name.getD []) == b!"expect" && (f.value.getD []).map lower == b!"100-continue"

/-- `fly_header_addb` (src/header.c:158-188) as used for HTTP/1 request headers: name lower-cased, both
allocated.  Simplification: the name is read from the chunk it starts in (the copy across chunks made just
before is overwritten from there). -/
def addRequest (h : HList) (name value : Bytes) : HList :=
  ⟨h.items ++ [⟨some (name.map lower), some value⟩], h.count + 1⟩

/-! ## Histories -/

inductive Op where
  | add (name value : Bytes)
  | addHead (name value : Bytes)
  | addIfNo (name value : Bytes)
  | addVerIfNo (name value : Bytes)
  | set (name value : Bytes)
  | delete (name : Bytes)
  deriving DecidableEq, Repr

def step (h : HList) : Op → Option HList
  | .add n v => some (Header.add h n v false)
  | .addHead n v => some (Header.add h n v true)
  | .addIfNo n v => Header.addIfNo h n v
  | .addVerIfNo n v => some (Header.addVerIfNo h n v)
  | .set n v => Header.addModify h n v
  | .delete n => Header.delete h n

def run (h : HList) : List Op → Option HList
  | [] => some h
  | op :: ops =>
    match step h op with
    | none => none
    | some h' => run h' ops

end Fly.Header
