import Verif.Hpack.Model

/-! # Model of header encoding in `src/v2.c` -/

namespace Fly.Hpack

/-- How a response header is going to be written (`fly_hdr_c`): the fields set by
`fly_header_add_v2`.  `huffman_name`/`huffman_value` stay false (src/header.c:63-64). -/
inductive EncKind where
  /-- `static_table`/`dynamic_table` with `index` -/
  | indexed (j : Nat)
  /-- `name_index` with `index` -/
  | nameIndex (j : Nat)
  | literal
  deriving DecidableEq, Repr

/-- One turn of the loop in `fly_header_add_v2`, src/v2.c:5375-5419, for table entry `j` with name
`tn` and value `tv` (`none`: NULL).  `strncmp(entry, s, strlen(entry)) == 0` is "entry is a prefix
of s". -/
def matchEntry (j : Nat) (tn : Option Bytes) (tv : Option Bytes) (name value : Bytes) : Option EncKind :=
  let nameEq := (tn.map fun t => t.isPrefixOf name).getD false
  let valueEq := (tv.map fun t => t.isPrefixOf value).getD false
  if nameEq && valueEq then some (.indexed j)
  else if tv.isNone && nameEq then some (.nameIndex j)
  else none

/-- The static part of the loop. -/
def matchStatic : List (Bytes × Option Bytes) → Nat → Bytes → Bytes → Option EncKind
  | [], _, _, _ => none
  | (tn, tv) :: es, j, name, value =>
    match matchEntry j (some tn) tv name value with
    | some k => some k
    | none => matchStatic es (j + 1) name value

/-- A zero-length string is stored as NULL in the dynamic table (src/v2.c:3672, 3679). -/
def nonEmpty (b : Bytes) : Option Bytes := if b = [] then none else some b

/-- The dynamic part: the entries of `state->dtable`, i.e. those the peer inserted. -/
def matchDynamic : List (Bytes × Bytes) → Nat → Bytes → Bytes → Option EncKind
  | [], _, _, _ => none
  | (tn, tv) :: es, j, name, value =>
    match matchEntry j (nonEmpty tn) (nonEmpty tv) name value with
    | some k => some k
    | none => matchDynamic es (j + 1) name value

/-- `fly_header_add_v2`, src/v2.c:5362-5421; `dyn` are the entries of the connection's dynamic table,
newest first. -/
def classify (dyn : List (Bytes × Bytes)) (name value : Bytes) : EncKind :=
  match matchStatic staticTable 0 name value with
  | some k => k
  | none =>
    match matchDynamic dyn staticLen name value with
    | some k => k
    | none => .literal

/-- A string without Huffman coding: length with a 7-bit prefix after clearing the top bit, bytes. -/
def encodeString (g : Nat) (s : Bytes) : Bytes := encodeInt 7 (g % 128) s.length ++ s

/-- `__fly_payload_from_headers`, src/v2.c:2288-2397.  `g` is the byte lying in the buffer where a
new field starts; `index_update` is `INDEX_UPDATE` in both literal cases (src/v2.c:5414,
src/header.c:59). -/
def encodeHeader (g : Nat) (dyn : List (Bytes × Bytes)) (name value : Bytes) : Bytes :=
  match classify dyn name value with
  | .indexed j => encodeInt 7 (g % 128 + 128) (j + 1)
  | .nameIndex j => encodeInt 6 (g % 64 + 64) (j + 1) ++ encodeString g value
  | .literal => encodeInt 6 (g % 64 + 64) 0 ++ encodeString g name ++ encodeString g value

/-- The header block of a response. -/
def encodeBlock (g : Nat) (dyn : List (Bytes × Bytes)) (hs : List (Bytes × Bytes)) : Bytes :=
  hs.flatMap fun h => encodeHeader g dyn h.1 h.2

end Fly.Hpack
