import Verif.Hpack.Model

/-! # Specification: RFC 7541 (HPACK)

Written from the RFC; shares with the model only the tables' data types. -/

namespace Fly.Hpack

/-! ## §5.1 integers -/

/-- The continuation bytes of `v`, least significant group first.  (`fuel` ≥ number of groups;
`v` itself always is.) -/
def rfcCont : Nat → Nat → Bytes
  | 0, v => [v]
  | fuel + 1, v => if v < 128 then [v] else (v % 128 + 128) :: rfcCont fuel (v / 128)

/-- Integer `i` with an `n`-bit prefix; `pat` are the bits in front of the prefix (a multiple of 2^n). -/
def rfcInt (n pat i : Nat) : Bytes :=
  if i < 2 ^ n - 1 then [pat + i] else (pat + (2 ^ n - 1)) :: rfcCont i (i - (2 ^ n - 1))

/-! ## Appendix B: the canonical Huffman code with the given lengths -/

/-- Symbols in order of code length, then value. -/
def canonicalOrder : List Nat :=
  (List.range 31).flatMap fun len => (List.range 257).filter fun s => rfcLengths.getD s 0 == len

/-- Codes in that order: the first is 0, each next one is the successor, extended with zeros. -/
def canonicalCodes : List Nat → Nat → Nat → List (Nat × Nat × Nat)
  | [], _, _ => []
  | s :: ss, code, len =>
    let l := rfcLengths.getD s 0
    let c := code * 2 ^ (l - len)
    (s, c, l) :: canonicalCodes ss (c + 1) l

def rfcCodes : List (Nat × Nat × Nat) := canonicalCodes canonicalOrder 0 5

/-- Bits of `c`, most significant first. -/
def bitsMSB : Nat → Nat → List Bool
  | 0, _ => []
  | n + 1, c => decide (c / 2 ^ n % 2 = 1) :: bitsMSB n c

/-- The code of a symbol. -/
def rfcCode (s : Nat) : List Bool :=
  match rfcCodes.find? fun e => e.1 == s with
  | some (_, c, l) => bitsMSB l c
  | none => []

/-- Group bits into bytes; the last byte is padded with ones (§5.2).  `fuel` ≥ number of bytes. -/
def packBits : Nat → List Bool → Bytes
  | 0, _ => []
  | fuel + 1, bits =>
    if bits = [] then []
    else ((bits ++ List.replicate 7 true).take 8).foldl (fun a b => 2 * a + b.toNat) 0 :: packBits fuel (bits.drop 8)

/-- §5.2: Huffman coding of a byte string. -/
def rfcHuffman (s : Bytes) : Bytes :=
  let bits := s.flatMap rfcCode
  packBits bits.length bits

/-! ## §5.2 strings, §6 representations -/

/-- A string as its sender chose to write it. -/
structure Str where
  huffman : Bool
  bytes : Bytes

def Str.wire (s : Str) : Bytes :=
  if s.huffman then rfcInt 7 128 (rfcHuffman s.bytes).length ++ rfcHuffman s.bytes
  else rfcInt 7 0 s.bytes.length ++ s.bytes

inductive NameRef where
  | index (i : Nat)
  | new (s : Str)

inductive Rep where
  /-- §6.1 -/
  | indexed (i : Nat)
  /-- §6.2.1 (`update`), §6.2.2 (`noUpdate`), §6.2.3 (`noIndex`) -/
  | literal (ty : IndexType) (name : NameRef) (value : Str)

def pattern : IndexType → Nat
  | .update => 64
  | .noUpdate => 0
  | .noIndex => 16

def prefixOf : IndexType → Nat
  | .update => 6
  | .noUpdate => 4
  | .noIndex => 4

def Rep.wire : Rep → Bytes
  | .indexed i => rfcInt 7 128 i
  | .literal ty (.index i) v => rfcInt (prefixOf ty) (pattern ty) i ++ v.wire
  | .literal ty (.new n) v => rfcInt (prefixOf ty) (pattern ty) 0 ++ n.wire ++ v.wire

/-! ## §2.3, §4 tables -/

abbrev Entry := Bytes × Bytes

/-- §4.1 -/
def entrySize (e : Entry) : Nat := e.1.length + e.2.length + 32

def tableSize (t : List Entry) : Nat := (t.map entrySize).sum

/-- The newest entries that fit: older entries are dropped from the first that does not fit on. -/
def fit (limit : Nat) : List Entry → List Entry
  | [] => []
  | e :: es => if entrySize e ≤ limit then e :: fit (limit - entrySize e) es else []

/-- §4.4 insertion with eviction; the newest entry is first. -/
def rfcInsert (limit : Nat) (t : List Entry) (e : Entry) : List Entry := fit limit (e :: t)

/-- §2.3.3: one index space, 1..61 static, then dynamic. -/
def rfcLookup (t : List Entry) (i : Nat) : Option Entry :=
  if i = 0 then none else (rfcStatic ++ t)[i - 1]?

/-- Meaning of one representation: the header it denotes and the table afterwards; `none` is a
decoding error. -/
def rfcRep (limit : Nat) (t : List Entry) : Rep → Option (Entry × List Entry)
  | .indexed i => (rfcLookup t i).map fun e => (e, t)
  | .literal ty (.index i) v =>
    (rfcLookup t i).map fun e =>
      ((e.1, v.bytes), if ty = .update then rfcInsert limit t (e.1, v.bytes) else t)
  | .literal ty (.new n) v =>
    some ((n.bytes, v.bytes), if ty = .update then rfcInsert limit t (n.bytes, v.bytes) else t)

/-- Meaning of a header block. -/
def rfcBlock (limit : Nat) (t : List Entry) : List Rep → Option (List Entry × List Entry)
  | [] => some ([], t)
  | r :: rs =>
    match rfcRep limit t r with
    | none => none
    | some (h, t') => (rfcBlock limit t' rs).map fun p => (h :: p.1, p.2)

/-- What the dynamic table of a connection holds, read through the index space. -/
def DTab.entries (t : DTab) : List (Option Entry) := (List.range t.count).map fun k => t.lookup (staticLen + k)

end Fly.Hpack
