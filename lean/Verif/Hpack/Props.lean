import Verif.Hpack.Wrong
import Verif.Hpack.Encode

/-! # Theorems: header compression -/

namespace Fly.Hpack
open Fly.Buffer Fly.H2

/-! ## C08 integers -/

/-- C08, receiving: the RFC encoding of any integer below 2^31, with any prefix width from 1 to 7,
however its bytes lie over the buffer's chunks, is decoded to that integer and exactly its bytes are
consumed.  (`rest`: the buffer memory behind it.) -/
theorem C08_decode_integer (n pat i : Nat) (hn : 0 < n ∧ n ≤ 7) (hp : pat % 2 ^ n = 0) (hi : i < 2 ^ 31)
    (c : Cursor) (hc : c.cur ≠ [] ∧ ∀ p ∈ c.rest, p ≠ []) (rest : Bytes) (hr : rest ≠ [])
    (hb : c.cur ++ c.rest.flatten = rfcInt n pat i ++ rest) :
    ∃ c', decodeInt n c = some (i, (rfcInt n pat i).length, some c') ∧ c'.cur ++ c'.rest.flatten = rest := by
  obtain ⟨c', h1, _, h3⟩ := decodeInt_spec n pat i hn.1 hn.2 hp hi c ⟨hc.1, hc.2⟩ rest hr hb
  exact ⟨c', h1, h3⟩

example : rfcInt 5 224 1337 = [255, 154, 10] := by decide
example : ∃ c : Cursor, (c.cur ≠ [] ∧ ∀ p ∈ c.rest, p ≠ []) ∧ c.cur ++ c.rest.flatten = rfcInt 5 224 1337 ++ [7] ∧
    (decodeInt 5 c).map (fun r => (r.1, r.2.1)) = some (1337, 3) := ⟨⟨[255], [[154, 10], [7]]⟩, by decide⟩

/-- **C08 refuted** (large integers): an integer with five continuation bytes of which the last has a value of 8 or more, so every integer from 2^31 + 2^n - 1 on, is undefined behaviour
(overflow of a signed number), with any prefix width and whatever follows. -/
theorem C08_large_integer_undefined_refuted (n p b1 b2 b3 b4 b5 : Nat) (hp : p % 2 ^ n = 2 ^ n - 1) (h1 : 128 ≤ b1 ∧ b1 < 256) (h2 : 128 ≤ b2 ∧ b2 < 256)
    (h3 : 128 ≤ b3 ∧ b3 < 256) (h4 : 128 ≤ b4 ∧ b4 < 256) (h5 : 8 ≤ b5 % 128) (rest : Bytes) :
    decodeInt n ⟨p :: b1 :: b2 :: b3 :: b4 :: b5 :: rest, []⟩ = none := by
  have ad : ∀ (x y : Nat) (t : Bytes), advance ⟨x :: y :: t, []⟩ 1 = some ⟨y :: t, []⟩ := by intro x y t; simp [advance]
  have st : ∀ (f x y : Nat) (t : Bytes) (num pw u : Nat), pw ≤ 21 → 128 ≤ y ∧ y < 256 →
      ∃ num', intLoop (f + 1) ⟨x :: y :: t, []⟩ num pw u = intLoop f ⟨y :: t, []⟩ num' (pw + 7) (u + 1) := by
    intro f x y t num pw u hw hy
    refine ⟨(num + y % 128 * 2 ^ pw) % 2 ^ 32, ?_⟩
    have h : y % 128 * 2 ^ pw < 2 ^ 31 := by
      have a : 2 ^ pw ≤ 2 ^ 21 := Nat.pow_le_pow_right (by omega) hw
      have b : y % 128 * 2 ^ pw ≤ 127 * 2 ^ 21 := Nat.mul_le_mul (by omega) a
      omega
    rw [intLoop, ad]
    simp only
    rw [if_neg (by omega), if_pos (by omega)]
  rw [decodeInt]
  simp only
  rw [if_pos hp]
  obtain ⟨m1, e1⟩ := st 4 p b1 (b2 :: b3 :: b4 :: b5 :: rest) (2 ^ n - 1) 0 0 (by omega) h1
  obtain ⟨m2, e2⟩ := st 3 b1 b2 (b3 :: b4 :: b5 :: rest) m1 7 1 (by omega) h2
  obtain ⟨m3, e3⟩ := st 2 b2 b3 (b4 :: b5 :: rest) m2 14 2 (by omega) h3
  obtain ⟨m4, e4⟩ := st 1 b3 b4 (b5 :: rest) m3 21 3 (by omega) h4
  rw [e1, e2, e3, e4, intLoop, ad]
  simp only
  rw [if_pos]
  exact Nat.mul_le_mul_right (2 ^ 28) h5

/-- 2^31 itself. -/
example : rfcInt 7 0 (2 ^ 31) = [127, 129, 255, 255, 255, 7] ∧ rfcInt 7 0 (2 ^ 31 + 127) = [127, 128, 128, 128, 128, 8] := by decide

theorem or_low (a b n : Nat) (hb : b < 2 ^ n) : (a * 2 ^ n ||| b) = a * 2 ^ n + b := by
  have := Nat.two_pow_add_eq_or_of_lt hb a
  rw [Nat.mul_comm a]
  exact this.symm

/-- C08, sending (partial): integers that fit the prefix are written as the RFC says.
Missing: larger integers, see below. -/
theorem C08_encode_small_partial (n b0 i : Nat) (hn : n ≤ 7) (hi : i < 2 ^ n - 1) :
    encodeInt n b0 i = rfcInt n (b0 / 2 ^ n * 2 ^ n) i := by
  have h2 : 2 ^ n ≤ 2 ^ 7 := Nat.pow_le_pow_right (by omega) hn
  unfold encodeInt rfcInt
  simp only
  rw [if_pos hi, if_pos hi, Nat.mod_eq_of_lt (by omega), or_low _ _ _ (by omega)]

theorem encodeCont_eq (f : Nat) : ∀ f' v, v ≤ f → v ≤ f' → encodeCont f v = rfcCont f' v := by
  induction f with
  | zero =>
    intro f' v h _
    have : v = 0 := by omega
    subst this
    cases f' <;> simp [encodeCont, rfcCont]
  | succ f ih =>
    intro f' v h h'
    unfold encodeCont
    by_cases h128 : v < 128
    · rw [if_neg (by omega), Nat.mod_eq_of_lt h128]
      cases f' <;> simp [rfcCont, h128]
    · rw [if_pos (by omega)]
      obtain ⟨g, rfl⟩ : ∃ g, f' = g + 1 := ⟨f' - 1, by omega⟩
      simp only [rfcCont]
      rw [if_neg h128, ih g (v / 128) (by omega) (by omega)]

/-- C08, sending, exactly when: with an all-zero pattern byte, an integer that does not fit the prefix
is written correctly iff its low byte happens to be the all-ones prefix. -/
theorem C08_encode_large_iff (n i : Nat) (hi : 2 ^ n - 1 ≤ i) :
    encodeInt n 0 i = rfcInt n 0 i ↔ i % 256 = 2 ^ n - 1 := by
  unfold encodeInt rfcInt
  simp only [Nat.zero_div, Nat.zero_mul, Nat.zero_or, Nat.zero_add]
  rw [if_neg (by omega), if_neg (by omega), encodeCont_eq _ i _ (Nat.le_refl _) (by omega)]
  simp

example : encodeInt 7 0 100 = [100] ∧ encodeInt 7 0 127 = [127, 0] ∧ encodeInt 7 0 383 = [127, 128, 2] := by decide

/-- REFUTED: an integer that does not fit the seven-bit prefix (the length of a string of 127 bytes or
more) is read back as another: whatever follows, a reader that uses a seven-bit prefix takes `i % 128`
from the first byte alone, unless `i % 128 = 127`; and when `i % 256 ≥ 128` the Huffman bit is set. -/
theorem C08_encode_128_wrong_refuted (i : Nat) (hi : 127 ≤ i) (hm : i % 128 ≠ 127) (rest : Bytes) :
    (∃ c', decodeInt 7 ⟨encodeInt 7 0 i ++ rest, []⟩ = some (i % 128, 1, c')) ∧ i % 128 ≠ i ∧
    (∃ t, encodeInt 7 0 i = i % 256 :: t) ∧ encodeInt 7 0 i ≠ rfcInt 7 0 i := by
  have he : ∃ t, encodeInt 7 0 i = i % 256 :: t := by
    unfold encodeInt
    simp only [Nat.zero_div, Nat.zero_mul, Nat.zero_or]
    rw [if_neg (by omega)]
    exact ⟨_, rfl⟩
  refine ⟨?_, by omega, he, fun h => ?_⟩
  · obtain ⟨t, ht⟩ := he
    rw [ht]
    unfold decodeInt
    have h1 : i % 256 % 2 ^ 7 = i % 128 := by omega
    simp only [List.cons_append, h1]
    rw [if_neg (by omega)]
    exact ⟨_, rfl⟩
  · have := (C08_encode_large_iff 7 i (by omega)).1 h
    omega

/-- A length of 128 is written as `80 01`, which is read as length 0 with the Huffman bit set. -/
example : encodeInt 7 0 128 = [128, 1] ∧ rfcInt 7 0 128 = [127, 1] ∧
    (decodeInt 7 ⟨encodeInt 7 0 128 ++ [9], []⟩).map (·.1) = some 0 := by decide

/-! ## C11 Huffman -/

/-- The C table is the RFC's canonical code except for symbol 13. -/
theorem C11_table_is_canonical_partial :
    rfcCodes.map (fun e => if e.1 = 13 then (13, 0x3ffffefd, 30) else e) = huffmanCodes := by decide +kernel

/-- C11 (partial): the Huffman coding of any byte string without the byte 13 (and shorter than the
20000 bytes of the decode buffer), however it lies over the chunks and whatever follows it, is decoded
to that string.  Missing: byte 13. -/
theorem C11_huffman_roundtrip_partial (s : Bytes) (hs : ∀ b ∈ s, b < 256 ∧ b ≠ 13) (hcap : s.length < 20000)
    (hl : (rfcHuffman s).length < 2 ^ 32)
    (c : Cursor) (hc : c.cur ≠ [] ∧ ∀ p ∈ c.rest, p ≠ []) (rest : Bytes)
    (hb : c.cur ++ c.rest.flatten = rfcHuffman s ++ rest) :
    huffDecode (some c) (rfcHuffman s).length = some s :=
  huffDecode_spec s hs hcap hl c ⟨hc.1, hc.2⟩ rest hb

/-- RFC 7541 C.4.1: "www.example.com", here split over two chunks. -/
example : rfcHuffman b!"www.example.com" = [0xf1, 0xe3, 0xc2, 0xe5, 0xf2, 0x3a, 0x6b, 0xa0, 0xab, 0x90, 0xf4, 0xff] := by
  decide +kernel
example : ∃ c : Cursor, (c.cur ≠ [] ∧ ∀ p ∈ c.rest, p ≠ []) ∧ c.cur ++ c.rest.flatten =
    [0xf1, 0xe3, 0xc2, 0xe5, 0xf2, 0x3a, 0x6b, 0xa0, 0xab, 0x90, 0xf4, 0xff] ++ [1, 2] :=
  ⟨⟨[0xf1, 0xe3, 0xc2], [[0xe5, 0xf2, 0x3a, 0x6b, 0xa0, 0xab, 0x90, 0xf4, 0xff, 1], [2]]⟩, by decide⟩

/-- REFUTED: every Huffman coded string that contains the byte 13 aborts the process (no table entry
matches), whatever precedes and follows it and however it lies over the chunks. -/
theorem C11_carriage_return_aborts_refuted (s t : Bytes) (hs : ∀ b ∈ s, b < 256 ∧ b ≠ 13)
    (hl : (rfcHuffman (s ++ 13 :: t)).length < 2 ^ 32)
    (c : Cursor) (hc : c.cur ≠ [] ∧ ∀ p ∈ c.rest, p ≠ []) (rest : Bytes)
    (hb : c.cur ++ c.rest.flatten = rfcHuffman (s ++ 13 :: t) ++ rest) :
    huffDecode (some c) (rfcHuffman (s ++ 13 :: t)).length = none :=
  huffDecode_cr s t hs hl c ⟨hc.1, hc.2⟩ rest hb

example : rfcHuffman ([] ++ 13 :: [48]) = [255, 255, 255, 244, 31] ∧
    huffDecode (some ⟨rfcHuffman [13, 48] ++ [0, 0], []⟩) 5 = none := by decide +kernel

/-- REFUTED: a string whose padding is not all ones is a decoding error (RFC 7541 §5.2), but is not
rejected: the decoder goes on into the bytes behind the string.  For every coded string `s` without
the byte 13 and every such padding, whatever comes back has symbols after `s` that nobody sent (if
it comes back at all: no match behind the string is an abort). -/
theorem C11_bad_padding_reads_beyond_refuted (s enc : Bytes) (pad : List Bool) (hs : ∀ b ∈ s, b < 256 ∧ b ≠ 13)
    (hl : enc.length < 2 ^ 32) (hb : bitsOf enc = s.flatMap rfcCode ++ pad) (hp8 : pad.length < 8) (hpf : false ∈ pad)
    (c : Cursor) (hc : c.cur ≠ [] ∧ ∀ p ∈ c.rest, p ≠ []) (rest : Bytes) (hf : c.cur ++ c.rest.flatten = enc ++ rest) :
    huffDecode (some c) enc.length = none ∨ ∃ t, t ≠ [] ∧ huffDecode (some c) enc.length = some (s ++ t) := by
  cases ho : huffDecode (some c) enc.length with
  | none => exact .inl rfl
  | some out =>
    obtain ⟨t, h1, h2⟩ := huffDecode_badpad s enc pad hs hl hb hp8 hpf c ⟨hc.1, hc.2⟩ rest hf out ho
    exact .inr ⟨t, h1, by rw [h2]⟩

/-- `00` is a '0' and three zero bits (illegal); it is decoded to two symbols, the second depending on
the byte behind the string. -/
example : bitsOf [0] = b!"0".flatMap rfcCode ++ [false, false, false] ∧
    huffDecode (some ⟨[0, 0, 0], []⟩) 1 = some b!"00" ∧ huffDecode (some ⟨[0, 0xc0, 0], []⟩) 1 = some b!"0a" := by
  decide +kernel

/-! ## C09, C10 dynamic table -/

/-- Insert header fields one after the other. -/
def insertAll (t : DTab) : List Entry → Option DTab
  | [] => some t
  | e :: es => (t.addEntry e.1 e.2).bind fun t' => insertAll t' es

/-- The RFC table after the same insertions. -/
def rfcInsertAll (limit : Nat) (t : List Entry) (es : List Entry) : List Entry :=
  es.foldl (rfcInsert limit) t

theorem insertAll_repr (es : List Entry) : ∀ (t : DTab) (xs : List Node), Repr t xs → t.size ≤ t.limit →
    ∃ t' xs', insertAll t es = some t' ∧ Repr t' xs' ∧ ents xs' = rfcInsertAll t.limit (ents xs) es ∧
      t'.limit = t.limit ∧ t'.size ≤ t'.limit := by
  induction es with
  | nil => intro t xs h hs; exact ⟨t, xs, rfl, h, rfl, rfl, hs⟩
  | cons e es ih =>
    intro t xs h hs
    obtain ⟨t1, xs1, a1, a2, a3, a4, a5⟩ := addEntry_repr t xs h e.1 e.2
    obtain ⟨t2, xs2, b1, b2, b3, b4, b5⟩ := ih t1 xs1 a2 a5
    refine ⟨t2, xs2, ?_, b2, ?_, by rw [b4, a4], b5⟩
    · simp [insertAll, a1, b1]
    · rw [b3, a3, a4]; rfl

/-- C09: after any sequence of insertions the table's size counter is the sum of its entries' sizes
(name + value + 32) and never exceeds the limit; the insertion loop always ends. -/
theorem C09_dynamic_table_bounded (g : DNode) (limit : Nat) (es : List Entry) :
    ∃ t, insertAll (DTab.init g limit) es = some t ∧ t.size ≤ limit ∧
      t.size = tableSize (rfcInsertAll limit [] es) ∧ t.count = (rfcInsertAll limit [] es).length ∧
      t.maxIndex = 61 + t.count := by
  obtain ⟨t, xs, h1, h2, h3, h4, h5⟩ := insertAll_repr es (DTab.init g limit) [] (init_repr g limit) (by simp [DTab.init])
  have hl : t.limit = limit := h4
  rw [hl] at h5
  have h3' : ents xs = rfcInsertAll limit [] es := h3
  refine ⟨t, h1, h5, by rw [h2.size, h3'], ?_, ?_⟩
  · rw [h2.count, ← h3']; simp [ents]
  · rw [h2.maxIndex, h2.count]; unfold staticLen; omega

/-- C10: after any sequence of insertions, reading the table through the index space gives exactly the
RFC's table: newest first, oldest evicted first, and nothing beyond it. -/
theorem C10_dynamic_table_order (g : DNode) (limit : Nat) (es : List Entry) :
    ∃ t, insertAll (DTab.init g limit) es = some t ∧
      ∀ k, t.lookup (61 + k) = (rfcInsertAll limit [] es)[k]? := by
  obtain ⟨t, xs, h1, h2, h3, h4, h5⟩ := insertAll_repr es (DTab.init g limit) [] (init_repr g limit) (by simp [DTab.init])
  refine ⟨t, h1, fun k => ?_⟩
  have := lookup_repr t xs h2 k
  rw [h3] at this
  exact this

/-- Eviction really happens: with room for two entries of size 34 the third pushes out the first. -/
example : ((insertAll (DTab.init ⟨[], [], 0, 7, 9⟩ 70) [([1], [2]), ([3], [4]), ([5], [6])]).map
    fun t => ((List.range 3).map fun k => t.lookup (61 + k), t.count, t.size)) =
    some ([some ([5], [6]), some ([3], [4]), none], 2, 68) := by decide +kernel

/-! ## C60 header blocks -/

/-- C60 (partial): every header block an RFC 7541 encoder may send -- any list of indexed fields and
literals, with or without Huffman coding, against any dynamic table history -- is decoded to exactly the
header list the RFC assigns to it, and the dynamic table afterwards is the RFC's, however the block lies
over the buffer's chunks.
Missing (`okRep`): static entries 16, 17 (value) and 41, never-indexed literals with a new name,
Huffman strings containing byte 13 or longer than 20000, dynamic table size updates; and new names
not Huffman coded must not cross a chunk (`c.rest = []` or `huffNames`).  All are refuted below. -/
theorem C60_header_block_partial (g : DNode) (limit : Nat) (before : List Entry) (rs : List Rep)
    (hs tab : List Entry) (hrs : ∀ r ∈ rs, okRep r)
    (hrfc : rfcBlock limit (rfcInsertAll limit [] before) rs = some (hs, tab))
    (c : Cursor) (hc : c.cur ≠ [] ∧ ∀ p ∈ c.rest, p ≠ []) (rest : Bytes) (hr : rest ≠ [])
    (hb : c.cur ++ c.rest.flatten = rs.flatMap Rep.wire ++ rest)
    (hsafe : c.rest = [] ∨ ∀ r ∈ rs, huffNames r) (hdrs : List Entry) :
    ∃ t st, insertAll (DTab.init g limit) before = some t ∧
      parseHeaders (rs.flatMap Rep.wire).length ⟨t, hdrs⟩ (rs.flatMap Rep.wire).length 0 (some c) = some (.ok st) ∧
      st.headers = hdrs ++ hs ∧ ∀ k, st.dtab.lookup (61 + k) = tab[k]? := by
  obtain ⟨t, xs, h1, h2, h3, h4, h5⟩ := insertAll_repr before (DTab.init g limit) [] (init_repr g limit) (by simp [DTab.init])
  have hl : t.limit = limit := h4
  have h3' : ents xs = rfcInsertAll limit [] before := h3
  obtain ⟨st, xs', e1, e2, e3, e4, e5⟩ := parseHeaders_spec rs (rs.flatMap Rep.wire).length ⟨t, hdrs⟩ xs 0 c rest hs tab h2 hrs
    (by simp only [hl, h3']; exact hrfc) ⟨hc.1, hc.2⟩ hr hb hsafe (Nat.le_refl _)
  refine ⟨t, st, h1, ?_, e2, fun k => ?_⟩
  · rw [Nat.zero_add] at e1; exact e1
  · have := lookup_repr st.dtab xs' e3 k
    rw [e4] at this; exact this

/-- RFC 7541 C.4.1/C.4.2: a request with Huffman coding, then one that refers to the table. -/
def exampleBlock : List Rep :=
  [.indexed 2, .indexed 6, .indexed 4, .literal .update (.index 1) ⟨true, b!"www.example.com"⟩, .indexed 62,
   .literal .update (.new ⟨true, b!"x-key"⟩) ⟨true, b!"v"⟩, .indexed 62, .indexed 63]

example : ∀ r ∈ exampleBlock, okRep r ∧ huffNames r := by
  have hs : ∀ s ∈ [b!"www.example.com", b!"x-key", b!"v"], okStr ⟨true, s⟩ := by
    have : ([b!"www.example.com", b!"x-key", b!"v"].all fun s => decide (s.length < 2 ^ 31) &&
      (s.all (fun b => decide (b < 256 ∧ b ≠ 13)) && (decide (s.length < 20000) && decide ((rfcHuffman s).length < 2 ^ 31)))) = true := by
      decide +kernel
    intro s hs
    have := List.all_eq_true.1 this s hs
    simp only [Bool.and_eq_true, decide_eq_true_eq, List.all_eq_true] at this
    exact ⟨this.1, fun _ => this.2⟩
  intro r hr
  simp only [exampleBlock, List.mem_cons, List.not_mem_nil, or_false] at hr
  rcases hr with rfl | rfl | rfl | rfl | rfl | rfl | rfl | rfl
  · exact ⟨by simp [okRep], trivial⟩
  · exact ⟨by simp [okRep], trivial⟩
  · exact ⟨by simp [okRep], trivial⟩
  · exact ⟨⟨by omega, by omega, hs _ (by simp)⟩, trivial⟩
  · exact ⟨by simp [okRep], trivial⟩
  · exact ⟨⟨by simp, hs _ (by simp), hs _ (by simp)⟩, by simp [huffNames]⟩
  · exact ⟨by simp [okRep], trivial⟩
  · exact ⟨by simp [okRep], trivial⟩

example : rfcBlock 4096 [] exampleBlock = some (
    [(b!":method", b!"GET"), (b!":scheme", b!"http"), (b!":path", b!"/"), (b!":authority", b!"www.example.com"),
     (b!":authority", b!"www.example.com"), (b!"x-key", b!"v"), (b!"x-key", b!"v"), (b!":authority", b!"www.example.com")],
    [(b!"x-key", b!"v"), (b!":authority", b!"www.example.com")]) := by decide +kernel

/-- The headers a block at the front of one chunk decodes to (empty table, nothing before). -/
def decodeAll (block rest : Bytes) : Option (Option (List Entry)) :=
  (parseHeaders block.length ⟨DTab.init ⟨[], [], 0, 0, 0⟩ 4096, []⟩ block.length 0 (some ⟨block ++ rest, []⟩)).map fun o =>
    match o with
    | .ok st => some st.headers
    | .error => none

theorem rfcBlock_append (limit : Nat) (rs1 rs2 : List Rep) : ∀ t hs1 t1, rfcBlock limit t rs1 = some (hs1, t1) →
    rfcBlock limit t (rs1 ++ rs2) = (rfcBlock limit t1 rs2).map fun p => (hs1 ++ p.1, p.2) := by
  induction rs1 with
  | nil =>
    intro t hs1 t1 h
    simp [rfcBlock] at h
    obtain ⟨rfl, rfl⟩ := h
    rw [List.nil_append]
    cases rfcBlock limit t rs2 <;> simp
  | cons r rs1 ih =>
    intro t hs1 t1 h
    simp only [rfcBlock, List.cons_append] at h ⊢
    cases hr : rfcRep limit t r with
    | none => rw [hr] at h; simp at h
    | some p =>
      rw [hr] at h
      simp only [Option.map_eq_some_iff] at h ⊢
      obtain ⟨q, hq, he⟩ := h
      simp at he
      obtain ⟨rfl, rfl⟩ := he
      rw [ih p.2 q.1 q.2 hq]
      cases rfcBlock limit q.2 rs2 <;> simp

/-- A block with any fields (of the kind proved above) before and after one more indexed field. -/
theorem middle_indexed (g : DNode) (limit : Nat) (before : List Entry) (rs1 rs2 : List Rep) (i : Nat) (hi : i < 2 ^ 31)
    (hs1 tab1 hs2 tab2 : List Entry) (h1 : ∀ r ∈ rs1, okRep r) (h2 : ∀ r ∈ rs2, okRep r)
    (hb1 : rfcBlock limit (rfcInsertAll limit [] before) rs1 = some (hs1, tab1)) (hb2 : rfcBlock limit tab1 rs2 = some (hs2, tab2))
    (c : Cursor) (hc : c.cur ≠ [] ∧ ∀ p ∈ c.rest, p ≠ []) (rest : Bytes) (hr : rest ≠ [])
    (hb : c.cur ++ c.rest.flatten = (rs1 ++ Rep.indexed i :: rs2).flatMap Rep.wire ++ rest)
    (hsafe : c.rest = [] ∨ ∀ r ∈ rs1 ++ rs2, huffNames r) (hdrs : List Entry) :
    ∃ t st t1 xs1, insertAll (DTab.init g limit) before = some t ∧
      parseHeaders ((rs1 ++ Rep.indexed i :: rs2).flatMap Rep.wire).length ⟨t, hdrs⟩
        ((rs1 ++ Rep.indexed i :: rs2).flatMap Rep.wire).length 0 (some c) = some (.ok st) ∧
      Repr t1 xs1 ∧ ents xs1 = tab1 ∧ st.headers = hdrs ++ hs1 ++ [tableEntry t1 (dec32 i)] ++ hs2 := by
  obtain ⟨t, xs, a1, a2, a3, a4, a5⟩ := insertAll_repr before (DTab.init g limit) [] (init_repr g limit) (by simp [DTab.init])
  have hl : t.limit = limit := a4
  have a3' : ents xs = rfcInsertAll limit [] before := a3
  have hw : 0 < (Rep.wire (.indexed i)).length := wire_pos _
  have hb' : c.flat = rs1.flatMap Rep.wire ++ (Rep.wire (.indexed i) ++ (rs2.flatMap Rep.wire ++ rest)) := by
    have : c.flat = c.cur ++ c.rest.flatten := rfl
    rw [this, hb]; simp
  have hL : ((rs1 ++ Rep.indexed i :: rs2).flatMap Rep.wire).length =
      (rs1.flatMap Rep.wire).length + ((Rep.wire (.indexed i)).length + (rs2.flatMap Rep.wire).length) := by simp
  obtain ⟨st1, xs1, c1, fuel1, f1, f2, f3, f4, f5, f6, f7, f8, f9⟩ := parseHeaders_prefix rs1
    ((rs1 ++ Rep.indexed i :: rs2).flatMap Rep.wire).length ⟨t, hdrs⟩ xs ((rs1 ++ Rep.indexed i :: rs2).flatMap Rep.wire).length 0 c
    _ hs1 tab1 a2 h1 (by simp only [hl, a3']; exact hb1) ⟨hc.1, hc.2⟩ (by simp [hr]) hb' (by
      rcases hsafe with h | h
      · exact .inl h
      · exact .inr fun r hr => h r (by simp [hr])) (by omega) (by omega)
  obtain ⟨c2, k1, k2, k3, k4⟩ := parseRep_indexed st1 i hi c1 f3 _ (by simp [hr]) f4 (0 + (rs1.flatMap Rep.wire).length)
  obtain ⟨st3, xs3, m1, m2, m3, m4, m5⟩ := parseHeaders_spec rs2 fuel1 (addByIndex st1 (dec32 i)) xs1
    (0 + (rs1.flatMap Rep.wire).length + (Rep.wire (.indexed i)).length) c2 rest hs2 tab2 f7 h2
    (by simp only [addByIndex, f9, hl, f8]; exact hb2) k2 hr k3 (by
      rcases hsafe with h | h
      · exact .inl (k4 (f5 h))
      · exact .inr fun r hr => h r (by simp [hr])) (by omega)
  refine ⟨t, st3, st1.dtab, xs1, a1, ?_, f7, f8, ?_⟩
  · rw [f1, parseHeaders.eq_def (fuel1 + 1)]
    dsimp only
    rw [if_neg (by omega)]
    simp only [k1]
    rw [← m1]
    have hLe : ((rs1 ++ Rep.indexed i :: rs2).flatMap Rep.wire).length =
      0 + (rs1.flatMap Rep.wire).length + (Rep.wire (.indexed i)).length + (rs2.flatMap Rep.wire).length := by omega
    rw [hLe]
    rfl
  · rw [m2]
    simp only [addByIndex, f6]

/-- REFUTED: `accept-encoding: gzip, deflate` sent as the indexed field 16 arrives without its value, in
every block, whatever stands before and after it. -/
theorem C60_static_16_wrong_refuted (g : DNode) (limit : Nat) (before : List Entry) (rs1 rs2 : List Rep)
    (hs1 tab1 hs2 tab2 : List Entry) (h1 : ∀ r ∈ rs1, okRep r) (h2 : ∀ r ∈ rs2, okRep r)
    (hb1 : rfcBlock limit (rfcInsertAll limit [] before) rs1 = some (hs1, tab1)) (hb2 : rfcBlock limit tab1 rs2 = some (hs2, tab2))
    (c : Cursor) (hc : c.cur ≠ [] ∧ ∀ p ∈ c.rest, p ≠ []) (rest : Bytes) (hr : rest ≠ [])
    (hb : c.cur ++ c.rest.flatten = (rs1 ++ Rep.indexed 16 :: rs2).flatMap Rep.wire ++ rest)
    (hsafe : c.rest = [] ∨ ∀ r ∈ rs1 ++ rs2, huffNames r) (hdrs : List Entry) :
    rfcBlock limit (rfcInsertAll limit [] before) (rs1 ++ Rep.indexed 16 :: rs2) =
      some (hs1 ++ (b!"accept-encoding", b!"gzip, deflate") :: hs2, tab2) ∧
    ∃ t st, insertAll (DTab.init g limit) before = some t ∧
      parseHeaders ((rs1 ++ Rep.indexed 16 :: rs2).flatMap Rep.wire).length ⟨t, hdrs⟩
        ((rs1 ++ Rep.indexed 16 :: rs2).flatMap Rep.wire).length 0 (some c) = some (.ok st) ∧
      st.headers = hdrs ++ hs1 ++ [(b!"accept-encoding", [])] ++ hs2 := by
  constructor
  · rw [rfcBlock_append limit rs1 _ _ hs1 tab1 hb1]
    have : rfcRep limit tab1 (.indexed 16) = some ((b!"accept-encoding", b!"gzip, deflate"), tab1) := by
      simp only [rfcRep, rfcLookup]
      rw [if_neg (by decide), List.getElem?_append_left (by rw [rfcStatic_length]; omega)]
      rfl
    simp only [rfcBlock, this, hb2, Option.map_some]
  · obtain ⟨t, st, t1, xs1, a1, a2, a3, a4, a5⟩ := middle_indexed g limit before rs1 rs2 16 (by omega) hs1 tab1 hs2 tab2 h1 h2 hb1 hb2
      c hc rest hr hb hsafe hdrs
    exact ⟨t, st, a1, a2, a5⟩

example : decodeAll (Rep.wire (.indexed 16)) [0] = some (some [(b!"accept-encoding", [])]) ∧
    rfcBlock 4096 [] [.indexed 16] = some ([(b!"accept-encoding", b!"gzip, deflate")], []) := by decide +kernel

/-- REFUTED: a reference to an entry that does not exist (0, or beyond the dynamic table as it then
stands) is a decoding error in the RFC; the server adds a header without name and goes on, in every
block. -/
theorem C60_bad_index_accepted_refuted (g : DNode) (limit : Nat) (hlim : limit < 2 ^ 32) (before : List Entry) (rs1 rs2 : List Rep)
    (i : Nat) (hi : i < 2 ^ 31) (hs1 tab1 hs2 tab2 : List Entry) (h1 : ∀ r ∈ rs1, okRep r) (h2 : ∀ r ∈ rs2, okRep r)
    (hb1 : rfcBlock limit (rfcInsertAll limit [] before) rs1 = some (hs1, tab1)) (hb2 : rfcBlock limit tab1 rs2 = some (hs2, tab2))
    (hbad : rfcLookup tab1 i = none) (htab : tableSize tab1 ≤ limit)
    (c : Cursor) (hc : c.cur ≠ [] ∧ ∀ p ∈ c.rest, p ≠ []) (rest : Bytes) (hr : rest ≠ [])
    (hb : c.cur ++ c.rest.flatten = (rs1 ++ Rep.indexed i :: rs2).flatMap Rep.wire ++ rest)
    (hsafe : c.rest = [] ∨ ∀ r ∈ rs1 ++ rs2, huffNames r) (hdrs : List Entry) :
    rfcBlock limit (rfcInsertAll limit [] before) (rs1 ++ Rep.indexed i :: rs2) = none ∧
    ∃ t st, insertAll (DTab.init g limit) before = some t ∧
      parseHeaders ((rs1 ++ Rep.indexed i :: rs2).flatMap Rep.wire).length ⟨t, hdrs⟩
        ((rs1 ++ Rep.indexed i :: rs2).flatMap Rep.wire).length 0 (some c) = some (.ok st) ∧
      st.headers = hdrs ++ hs1 ++ [([], [])] ++ hs2 := by
  constructor
  · rw [rfcBlock_append limit rs1 _ _ hs1 tab1 hb1]
    simp [rfcBlock, rfcRep, hbad]
  · obtain ⟨t, st, t1, xs1, a1, a2, a3, a4, a5⟩ := middle_indexed g limit before rs1 rs2 i hi hs1 tab1 hs2 tab2 h1 h2 hb1 hb2
      c hc rest hr hb hsafe hdrs
    have hlen : ∀ es : List Entry, 32 * es.length ≤ tableSize es := by
      intro es
      induction es with
      | nil => simp
      | cons e es ih => simp [tableSize, entrySize] at ih ⊢; omega
    have hx : xs1.length < 2 ^ 31 := by
      have := hlen tab1
      rw [← a4] at this
      have e : (ents xs1).length = xs1.length := by simp [ents]
      rw [e, a4] at this
      omega
    rw [tableEntry_none t1 xs1 a3 hx i hi (by rw [a4]; exact hbad)] at a5
    exact ⟨t, st, a1, a2, a5⟩

example : decodeAll (Rep.wire (.indexed 70)) [0] = some (some [([], [])]) ∧ rfcBlock 4096 [] [.indexed 70] = none ∧
    rfcLookup [] 70 = none ∧ rfcLookup [] 0 = none := by
  decide +kernel

/-- REFUTED: `if-none-match` sent with the static name index 41 arrives as `if-none-matcho`, at the end
of every block, whatever its value and kind. -/
theorem C60_static_41_wrong_refuted (g : DNode) (limit : Nat) (before : List Entry) (rs : List Rep) (hs tab : List Entry)
    (ty : IndexType) (v : Str) (hv : okStr v) (hrs : ∀ r ∈ rs, okRep r)
    (hrfc : rfcBlock limit (rfcInsertAll limit [] before) rs = some (hs, tab))
    (c : Cursor) (hc : c.cur ≠ [] ∧ ∀ p ∈ c.rest, p ≠ []) (rest : Bytes) (hr : rest ≠ [])
    (hb : c.cur ++ c.rest.flatten = (rs ++ [Rep.literal ty (.index 41) v]).flatMap Rep.wire ++ rest)
    (hsafe : c.rest = [] ∨ ∀ r ∈ rs, huffNames r) (hdrs : List Entry) :
    (∃ tab', rfcBlock limit (rfcInsertAll limit [] before) (rs ++ [Rep.literal ty (.index 41) v]) =
      some (hs ++ [(b!"if-none-match", v.bytes)], tab')) ∧
    ∃ t st, insertAll (DTab.init g limit) before = some t ∧
      parseHeaders ((rs ++ [Rep.literal ty (.index 41) v]).flatMap Rep.wire).length ⟨t, hdrs⟩
        ((rs ++ [Rep.literal ty (.index 41) v]).flatMap Rep.wire).length 0 (some c) = some (.ok st) ∧
      st.headers = hdrs ++ hs ++ [(b!"if-none-matcho", v.bytes)] := by
  constructor
  · rw [rfcBlock_append limit rs _ _ hs tab hrfc]
    have : ∃ tab', rfcRep limit tab (.literal ty (.index 41) v) = some ((b!"if-none-match", v.bytes), tab') := by
      simp only [rfcRep, rfcLookup]
      rw [if_neg (by decide), List.getElem?_append_left (by rw [rfcStatic_length]; omega)]
      exact ⟨_, rfl⟩
    obtain ⟨tab', h⟩ := this
    exact ⟨tab', by simp [rfcBlock, h]⟩
  · obtain ⟨t, xs, a1, a2, a3, a4, a5⟩ := insertAll_repr before (DTab.init g limit) [] (init_repr g limit) (by simp [DTab.init])
    have hl : t.limit = limit := a4
    have a3' : ents xs = rfcInsertAll limit [] before := a3
    have hw : 0 < (Rep.wire (.literal ty (.index 41) v)).length := wire_pos _
    have hb' : c.flat = rs.flatMap Rep.wire ++ (Rep.wire (.literal ty (.index 41) v) ++ rest) := by
      have : c.flat = c.cur ++ c.rest.flatten := rfl
      rw [this, hb]; simp
    have hL : ((rs ++ [Rep.literal ty (.index 41) v]).flatMap Rep.wire).length =
        (rs.flatMap Rep.wire).length + (Rep.wire (.literal ty (.index 41) v)).length := by simp
    obtain ⟨st1, xs1, c1, fuel1, f1, f2, f3, f4, f5, f6, f7, f8, f9⟩ := parseHeaders_prefix rs
      ((rs ++ [Rep.literal ty (.index 41) v]).flatMap Rep.wire).length ⟨t, hdrs⟩ xs
      ((rs ++ [Rep.literal ty (.index 41) v]).flatMap Rep.wire).length 0 c
      _ hs tab a2 hrs (by simp only [hl, a3']; exact hrfc) ⟨hc.1, hc.2⟩ (by simp [hr]) hb' hsafe (by omega) (by omega)
    obtain ⟨c2, t2, xs2, k1, _⟩ := parseRep_litidx st1 xs1 f7 ty 41 v (by omega) (.inl (by omega)) hv c1 f3 rest hr
      (by rw [f4]; simp only [Rep.wire]) (0 + (rs.flatMap Rep.wire).length)
    refine ⟨t, ⟨t2, st1.headers ++ [((tableEntry st1.dtab (dec32 41)).1, v.bytes)]⟩, a1, ?_, ?_⟩
    · rw [f1, parseHeaders.eq_def (fuel1 + 1)]
      dsimp only
      rw [if_neg (by omega)]
      simp only [k1]
      unfold parseHeaders
      rw [if_pos (by rw [hL]; simp only [Rep.wire]; omega)]
    · simp only [f6]
      rfl

example : decodeAll (Rep.wire (.literal .noUpdate (.index 41) ⟨false, b!"x"⟩)) [0] = some (some [(b!"if-none-matcho", b!"x")]) ∧
    rfcBlock 4096 [] [.literal .noUpdate (.index 41) ⟨false, b!"x"⟩] = some ([(b!"if-none-match", b!"x")], []) := by
  decide +kernel

/-- REFUTED: a never-indexed literal with a new name (the kind meant for secrets): in every block, its
name becomes the value of a header without name, and its value is parsed as further fields.  So if
the block is accepted at all, that anonymous header is among the request's headers. -/
theorem C60_never_indexed_name_misparsed_refuted (g : DNode) (limit : Nat) (hlim : limit < 2 ^ 32) (before : List Entry)
    (rs : List Rep) (hs tab : List Entry)
    (n v : Str) (hn : okStr n) (hrs : ∀ r ∈ rs, okRep r)
    (hrfc : rfcBlock limit (rfcInsertAll limit [] before) rs = some (hs, tab)) (htab : tableSize tab ≤ limit)
    (c : Cursor) (hc : c.cur ≠ [] ∧ ∀ p ∈ c.rest, p ≠ []) (rest : Bytes) (hr : rest ≠ [])
    (hb : c.cur ++ c.rest.flatten = (rs ++ [Rep.literal .noIndex (.new n) v]).flatMap Rep.wire ++ rest)
    (hsafe : c.rest = [] ∨ ∀ r ∈ rs, huffNames r) (hdrs : List Entry) :
    rfcBlock limit (rfcInsertAll limit [] before) (rs ++ [Rep.literal .noIndex (.new n) v]) =
      some (hs ++ [(n.bytes, v.bytes)], tab) ∧
    ∃ t, insertAll (DTab.init g limit) before = some t ∧
      ∀ st, parseHeaders ((rs ++ [Rep.literal .noIndex (.new n) v]).flatMap Rep.wire).length ⟨t, hdrs⟩
          ((rs ++ [Rep.literal .noIndex (.new n) v]).flatMap Rep.wire).length 0 (some c) = some (.ok st) →
        ∃ more, st.headers = hdrs ++ hs ++ ([], n.bytes) :: more := by
  constructor
  · rw [rfcBlock_append limit rs _ _ hs tab hrfc]
    simp [rfcBlock, rfcRep]
  · obtain ⟨t, xs, a1, a2, a3, a4, a5⟩ := insertAll_repr before (DTab.init g limit) [] (init_repr g limit) (by simp [DTab.init])
    have hl : t.limit = limit := a4
    have a3' : ents xs = rfcInsertAll limit [] before := a3
    have hw : 0 < (Rep.wire (.literal .noIndex (.new n) v)).length := wire_pos _
    have hb' : c.flat = rs.flatMap Rep.wire ++ (Rep.wire (.literal .noIndex (.new n) v) ++ rest) := by
      have : c.flat = c.cur ++ c.rest.flatten := rfl
      rw [this, hb]; simp
    have hL : ((rs ++ [Rep.literal .noIndex (.new n) v]).flatMap Rep.wire).length =
        (rs.flatMap Rep.wire).length + (Rep.wire (.literal .noIndex (.new n) v)).length := by simp
    obtain ⟨st1, xs1, c1, fuel1, f1, f2, f3, f4, f5, f6, f7, f8, f9⟩ := parseHeaders_prefix rs
      ((rs ++ [Rep.literal .noIndex (.new n) v]).flatMap Rep.wire).length ⟨t, hdrs⟩ xs
      ((rs ++ [Rep.literal .noIndex (.new n) v]).flatMap Rep.wire).length 0 c
      _ hs tab a2 hrs (by simp only [hl, a3']; exact hrfc) ⟨hc.1, hc.2⟩ (by simp [hr]) hb' hsafe (by omega) (by omega)
    obtain ⟨c2, t2, xs2, k1, _⟩ := parseRep_litidx st1 xs1 f7 .noIndex 0 n (by omega) (.inr rfl) hn c1 f3 (v.wire ++ rest) (by simp [hr])
      (by rw [f4]; simp only [Rep.wire, List.append_assoc]) (0 + (rs.flatMap Rep.wire).length)
    refine ⟨t, a1, fun st hst => ?_⟩
    rw [f1, parseHeaders.eq_def (fuel1 + 1)] at hst
    dsimp only at hst
    rw [if_neg (by omega)] at hst
    simp only [k1] at hst
    have := parseHeaders_mono _ _ _ _ _ _ hst
    obtain ⟨more, hm⟩ := this
    have hlen : ∀ es : List Entry, 32 * es.length ≤ tableSize es := by
      intro es
      induction es with
      | nil => simp
      | cons e es ih => simp [tableSize, entrySize] at ih ⊢; omega
    have hx : xs1.length < 2 ^ 31 := by
      have := hlen tab
      rw [← f8] at this
      have e : (ents xs1).length = xs1.length := by simp [ents]
      rw [e, f8] at this
      omega
    have hte := tableEntry_none st1.dtab xs1 f7 hx 0 (by omega) rfl
    refine ⟨more, ?_⟩
    rw [← hm]
    simp only [f6, hte]
    simp

example :
    decodeAll (Rep.wire (.literal .noIndex (.new ⟨false, b!"a"⟩) ⟨false, b!" "⟩)) [0] ≠
      some (some [(b!"a", b!" ")]) ∧
    decodeAll (Rep.wire (.literal .noIndex (.new ⟨false, b!"a"⟩) ⟨true, []⟩)) [0] = some (some [([], b!"a"), ([], [])]) ∧
    rfcBlock 4096 [] [.literal .noIndex (.new ⟨false, b!"a"⟩) ⟨false, b!" "⟩] = some ([(b!"a", b!" ")], []) := by
  refine ⟨?_, ?_, ?_⟩ <;> decide +kernel

/-- REFUTED: a dynamic table size update (RFC 7541 §6.3) is refused, to whatever size and wherever it
stands in a block; at the start of a block (`rs = []`) it is legal. -/
theorem C60_size_update_refused_refuted (g : DNode) (limit : Nat) (before : List Entry) (rs : List Rep) (hs tab : List Entry)
    (n : Nat) (hrs : ∀ r ∈ rs, okRep r)
    (hrfc : rfcBlock limit (rfcInsertAll limit [] before) rs = some (hs, tab))
    (c : Cursor) (hc : c.cur ≠ [] ∧ ∀ p ∈ c.rest, p ≠ []) (more rest : Bytes) (hr : rest ≠ [])
    (hb : c.cur ++ c.rest.flatten = rs.flatMap Rep.wire ++ rfcInt 5 32 n ++ more ++ rest)
    (hsafe : c.rest = [] ∨ ∀ r ∈ rs, huffNames r) (hdrs : List Entry) :
    ∃ t, insertAll (DTab.init g limit) before = some t ∧
      parseHeaders (rs.flatMap Rep.wire ++ rfcInt 5 32 n ++ more).length ⟨t, hdrs⟩
        (rs.flatMap Rep.wire ++ rfcInt 5 32 n ++ more).length 0 (some c) = some .error := by
  obtain ⟨t, xs, a1, a2, a3, a4, a5⟩ := insertAll_repr before (DTab.init g limit) [] (init_repr g limit) (by simp [DTab.init])
  have hl : t.limit = limit := a4
  have a3' : ents xs = rfcInsertAll limit [] before := a3
  have hw : 0 < (rfcInt 5 32 n).length := by obtain ⟨t, ht⟩ := rfcInt_head 5 32 n; rw [ht]; simp
  have hb' : c.flat = rs.flatMap Rep.wire ++ (rfcInt 5 32 n ++ (more ++ rest)) := by
    have : c.flat = c.cur ++ c.rest.flatten := rfl
    rw [this, hb]; simp
  have hL : (rs.flatMap Rep.wire ++ rfcInt 5 32 n ++ more).length =
      (rs.flatMap Rep.wire).length + (rfcInt 5 32 n).length + more.length := by simp; omega
  obtain ⟨st1, xs1, c1, fuel1, f1, f2, f3, f4, f5, f6, f7, f8, f9⟩ := parseHeaders_prefix rs
    (rs.flatMap Rep.wire ++ rfcInt 5 32 n ++ more).length ⟨t, hdrs⟩ xs
    (rs.flatMap Rep.wire ++ rfcInt 5 32 n ++ more).length 0 c
    _ hs tab a2 hrs (by simp only [hl, a3']; exact hrfc) ⟨hc.1, hc.2⟩ (by simp [hr]) hb' hsafe (by omega) (by omega)
  refine ⟨t, a1, ?_⟩
  rw [f1, parseHeaders.eq_def (fuel1 + 1)]
  dsimp only
  rw [if_neg (by omega), parseRep_size st1 n c1 f3 _ f4]

/-- An update to 0 in front of `:method: GET`. -/
example : decodeAll [0x20, 0x82] [0] = some none ∧ rfcInt 5 32 0 = [0x20] := by decide +kernel

/-- REFUTED: every new name (without Huffman coding) that begins in one chunk and ends in the next is
copied from beyond the first chunk's memory, whatever the table, the headers so far and the rest. -/
theorem C60_literal_across_chunks_refuted (st : HState) (ty : IndexType) (hty : ty ≠ .noIndex) (n1 n2 : Bytes)
    (h1 : n1 ≠ []) (h2 : n2 ≠ []) (hlen : (n1 ++ n2).length < 127) (chunks : List Bytes) (hch : ∀ p ∈ chunks, p ≠ [])
    (rest : Bytes) (hr : rest ≠ []) (v : Str) (hv : okStr v) (L : Nat) (hL : 0 < L) (fuel : Nat)
    (hb : chunks.flatten = n2 ++ v.wire ++ rest) :
    (pattern ty :: (n1 ++ n2).length :: n1) ++ chunks.flatten = Rep.wire (.literal ty (.new ⟨false, n1 ++ n2⟩) v) ++ rest ∧
    parseHeaders fuel st L 0 (some ⟨pattern ty :: (n1 ++ n2).length :: n1, chunks⟩) = none := by
  have h0 : rfcInt (prefixOf ty) (pattern ty) 0 = [pattern ty] := by cases ty <;> decide
  have hs : rfcInt 7 0 (n1 ++ n2).length = [(n1 ++ n2).length] := by
    unfold rfcInt; rw [if_pos (by omega)]; simp
  have hl1 := List.length_pos_iff.2 h1
  have hl2 := List.length_pos_iff.2 h2
  have hok : okStr ⟨false, n1 ++ n2⟩ := ⟨by simp only; omega, by simp⟩
  constructor
  · simp only [Rep.wire, Str.wire, h0, hs, hb]
    simp
  · have hp : parseRep st 0 (some ⟨pattern ty :: (n1 ++ n2).length :: n1, chunks⟩) = none := by
      have hfacts : ¬ 128 ≤ pattern ty % 256 ∧ literalType (pattern ty) = some ty ∧ pattern ty % 64 = 0 := by
        cases ty
        · exact ⟨by decide, by decide, by decide⟩
        · exact ⟨by decide, by decide, by decide⟩
        · exact absurd rfl hty
      obtain ⟨q1, q2, q3⟩ := hfacts
      unfold parseRep
      simp only
      rw [if_neg q1, q2]
      simp only [ne_eq, q3, not_true_eq_false, if_false]
      have e1 : advance ⟨pattern ty :: (n1 ++ n2).length :: n1, chunks⟩ 1 = some ⟨(n1 ++ n2).length :: n1, chunks⟩ := by
        unfold advance
        rw [if_pos (by simp)]
        rfl
      have e2 : stringHead (some ⟨(n1 ++ n2).length :: n1, chunks⟩) = some (false, (n1 ++ n2).length, 1, some ⟨n1, chunks⟩) := by
        unfold stringHead decodeInt
        simp only
        have hm : (n1 ++ n2).length % 2 ^ 7 = (n1 ++ n2).length := Nat.mod_eq_of_lt (by omega)
        rw [hm, if_neg (by omega)]
        have : advance ⟨(n1 ++ n2).length :: n1, chunks⟩ 1 = some ⟨n1, chunks⟩ := by
          unfold advance
          rw [if_pos (by simp; omega)]
          rfl
        rw [this]
        have hd : decide (128 ≤ (n1 ++ n2).length % 256) = false := by
          rw [decide_eq_false_iff_not]; omega
        rw [hd]
      unfold repName
      rw [e1, e2]
      simp only
      split
      · rfl
      · have : rawCopy (some ⟨n1, chunks⟩) (n1 ++ n2).length = none := by
          unfold rawCopy
          rw [List.length_append, if_neg (by omega)]
          simp only
          rw [if_neg (by omega)]
        unfold addByName
        simp only [Bool.false_eq_true, if_false, this]
    cases fuel with
    | zero => unfold parseHeaders; rw [if_neg (by omega)]
    | succ fuel => unfold parseHeaders; rw [if_neg (by omega)]; simp only [hp]

/-- `ab: c`, the chunk ending between the letters of the name. -/
example : [64, 2, 97] ++ [[98, 1, 99, 0]].flatten = Rep.wire (.literal .update (.new ⟨false, b!"ab"⟩) ⟨false, b!"c"⟩) ++ [0] := by
  decide

/-! ## C61 response headers -/

/-- Headers whose encoding is right: short enough for the length prefix, and no static entry is a proper
prefix of the name, or of the value under the same name. -/
def okHeader (h : Entry) : Prop :=
  h.1.length < 127 ∧ h.2.length < 127 ∧ h.1 ≠ b!"accept-language" ∧ h.1 ≠ b!"if-none-matcho" ∧
  (∀ e ∈ staticTable, e.1.isPrefixOf h.1 = true → e.1 = h.1) ∧
  (∀ e ∈ staticTable, e.1 = h.1 → ∀ w ∈ e.2.toList, w.isPrefixOf h.2 = true → w = h.2)

instance (h : Entry) : Decidable (okHeader h) := by unfold okHeader; infer_instance

theorem matchStatic_spec (name value : Bytes) (es : List (Bytes × Option Bytes)) : ∀ j k, matchStatic es j name value = some k →
    (∃ m e w, k = .indexed (j + m) ∧ es[m]? = some e ∧ e.1.isPrefixOf name = true ∧ e.2 = some w ∧ w.isPrefixOf value = true) ∨
    (∃ m e, k = .nameIndex (j + m) ∧ es[m]? = some e ∧ e.1.isPrefixOf name = true ∧ e.2 = none) := by
  induction es with
  | nil => intro j k h; simp [matchStatic] at h
  | cons x es ih =>
    obtain ⟨tn, tv⟩ := x
    intro j k h
    unfold matchStatic at h
    split at h
    · next k' hk =>
      simp at h; subst h
      unfold matchEntry at hk
      simp only [Option.map_some, Option.getD_some] at hk
      split at hk
      · next hc =>
        simp at hk hc
        left
        cases tv with
        | none => simp at hc
        | some w =>
          simp at hc
          refine ⟨0, (tn, some w), w, by simp [hk], rfl, ?_, rfl, ?_⟩
          · simpa using hc.1
          · simpa using hc.2
      · split at hk
        · next hc =>
          simp at hk hc
          right
          refine ⟨0, (tn, tv), by simp [hk], rfl, by simpa using hc.2, by simpa using hc.1⟩
        · simp at hk
    · rcases ih (j + 1) k h with ⟨m, e, w, h1, h2⟩ | ⟨m, e, h1, h2⟩
      · exact .inl ⟨m + 1, e, w, by rw [h1]; congr 1; omega, by simpa using h2⟩
      · exact .inr ⟨m + 1, e, by rw [h1]; congr 1; omega, by simpa using h2⟩

theorem encodeString_eq (g : Nat) (s : Bytes) (h : s.length < 127) : encodeString g s = Str.wire ⟨false, s⟩ := by
  unfold encodeString Str.wire
  rw [C08_encode_small_partial 7 _ _ (by omega) (by simpa using h)]
  have : g % 128 / 2 ^ 7 * 2 ^ 7 = 0 := by
    have : g % 128 < 128 := Nat.mod_lt _ (by omega)
    omega
  rw [this]; simp

theorem static_agree_idx (m : Nat) (e : Bytes × Option Bytes) (h : staticTable[m]? = some e) :
    m < 61 ∧ (e.1 ≠ b!"if-none-matcho" → ∃ e', rfcStatic[m]? = some e' ∧ e'.1 = e.1 ∧
      (e.1 ≠ b!"accept-language" → ∀ w, e.2 = some w → e'.2 = w)) := by
  have hm : m < 61 := by
    have := List.getElem?_eq_some_iff.1 h
    obtain ⟨hl, _⟩ := this
    rw [staticTable_length] at hl; exact hl
  refine ⟨hm, ?_⟩
  have hall : (List.range 61).all (fun k =>
      match staticTable[k]?, rfcStatic[k]? with
      | some e, some e' => e.1 == b!"if-none-matcho" || (e'.1 == e.1 && (e.1 == b!"accept-language" ||
          match e.2 with
          | none => true
          | some w => e'.2 == w))
      | _, _ => false) = true := by decide +kernel
  have := List.all_eq_true.1 hall m (by simp [hm])
  rw [h] at this
  split at this
  · next e0 e1 h0 h1 =>
    simp at h0; subst h0
    intro hne
    simp only [Bool.or_eq_true, beq_iff_eq, hne, false_or, Bool.and_eq_true] at this
    refine ⟨e1, h1, this.1, ?_⟩
    intro hne2 w hw
    have h2 := this.2
    rw [hw] at h2
    simpa [hne2] using h2
  · simp at this

/-- C61 (partial): as long as the client has inserted nothing into its own dynamic table, the header
block of a response is a block that by RFC 7541 means exactly the response's headers, in order, whatever
the client's decoding table holds.
Missing: headers outside `okHeader` and clients that use incremental indexing (refuted below). -/
theorem C61_response_headers_partial (g limit : Nat) (hs : List Entry) (hok : ∀ h ∈ hs, okHeader h) (t : List Entry) :
    ∃ rs tab, encodeBlock g [] hs = rs.flatMap Rep.wire ∧ rfcBlock limit t rs = some (hs, tab) := by
  induction hs generalizing t with
  | nil => exact ⟨[], t, rfl, rfl⟩
  | cons h hs ih =>
    obtain ⟨n, v⟩ := h
    obtain ⟨h1, h2, h3, h4, h5, h6⟩ := hok (n, v) (by simp)
    simp only at h1 h2 h3 h4 h5 h6
    have key : ∃ r t', encodeHeader g [] n v = r.wire ∧ rfcRep limit t r = some ((n, v), t') := by
      have hlook : ∀ m e, staticTable[m]? = some e → e.1 ≠ b!"if-none-matcho" → ∃ e', rfcLookup t (m + 1) = some e' ∧ e'.1 = e.1 ∧
          (e.1 ≠ b!"accept-language" → ∀ w, e.2 = some w → e'.2 = w) := by
        intro m e he hne
        obtain ⟨hm, hx⟩ := static_agree_idx m e he
        obtain ⟨e', y1, y2, y3⟩ := hx hne
        refine ⟨e', ?_, y2, y3⟩
        unfold rfcLookup
        rw [if_neg (by omega)]
        simp only [Nat.add_sub_cancel]
        rw [List.getElem?_append_left (by rw [rfcStatic_length]; exact hm)]
        exact y1
      unfold encodeHeader
      cases hc : matchStatic staticTable 0 n v with
      | some k =>
        have hcl : classify [] n v = k := by unfold classify; rw [hc]
        rw [hcl]
        rcases matchStatic_spec n v staticTable 0 k hc with ⟨m, e, w, rfl, a1, a2, a3, a4⟩ | ⟨m, e, rfl, a1, a2, a3⟩
        · have he1 := h5 e (List.mem_of_getElem? a1) a2
          have hw := h6 e (List.mem_of_getElem? a1) he1 w (by rw [a3]; simp) a4
          obtain ⟨e', b1, b2, b3⟩ := hlook m e a1 (by rw [he1]; exact h4)
          have hm := (static_agree_idx m e a1).1
          refine ⟨.indexed (m + 1), t, ?_, ?_⟩
          · simp only [Rep.wire, Nat.zero_add]
            rw [C08_encode_small_partial 7 _ _ (by omega) (by simp; omega)]
            congr 1
            have : g % 128 < 128 := Nat.mod_lt _ (by omega)
            omega
          · simp only [rfcRep, b1, Option.map_some]
            have : e' = (n, v) := by
              have x := b3 (by rw [he1]; exact h3) w a3
              apply Prod.ext
              · rw [b2, he1]
              · rw [x, hw]
            rw [this]
        · have he1 := h5 e (List.mem_of_getElem? a1) a2
          obtain ⟨e', b1, b2, b3⟩ := hlook m e a1 (by rw [he1]; exact h4)
          have hm := (static_agree_idx m e a1).1
          refine ⟨.literal .update (.index (m + 1)) ⟨false, v⟩, rfcInsert limit t (n, v), ?_, ?_⟩
          · simp only [Rep.wire, Nat.zero_add, prefixOf, pattern]
            rw [C08_encode_small_partial 6 _ _ (by omega) (by simp; omega), encodeString_eq g v h2]
            congr 2
            have : g % 64 < 64 := Nat.mod_lt _ (by omega)
            omega
          · simp only [rfcRep, b1, Option.map_some, if_true, b2, he1]
      | none =>
        have hcl : classify [] n v = .literal := by unfold classify; rw [hc]; rfl
        rw [hcl]
        refine ⟨.literal .update (.new ⟨false, n⟩) ⟨false, v⟩, rfcInsert limit t (n, v), ?_, by simp [rfcRep]⟩
        simp only [Rep.wire, prefixOf, pattern]
        rw [C08_encode_small_partial 6 _ _ (by omega) (by simp), encodeString_eq g v h2, encodeString_eq g n h1]
        congr 3
        have : g % 64 < 64 := Nat.mod_lt _ (by omega)
        omega
    obtain ⟨r, t', k1, k2⟩ := key
    obtain ⟨rs, tab, m1, m2⟩ := ih (fun x hx => hok x (by simp [hx])) t'
    refine ⟨r :: rs, tab, ?_, ?_⟩
    · simp only [encodeBlock, List.flatMap_cons] at m1 ⊢
      rw [k1, m1]
    · simp [rfcBlock, k2, m2]

/-- A typical response. -/
example : ∀ h ∈ ([(b!":status", b!"200"), (b!"content-length", b!"12"), (b!"x-powered-by", b!"fly"), (b!"server", b!"fly"),
    (b!"content-type", b!"text/html")] : List Entry), okHeader h := by decide +kernel

theorem rfcLookup_static (t : List Entry) (m : Nat) (hm : m < 61) : rfcLookup t (m + 1) = rfcStatic[m]? := by
  unfold rfcLookup
  rw [if_neg (by omega)]
  simp only [Nat.add_sub_cancel]
  rw [List.getElem?_append_left (by rw [rfcStatic_length]; exact hm)]

theorem static_names : (List.range 61).all (fun k =>
    match staticTable[k]?, rfcStatic[k]? with
    | some e, some e' => e'.1.isPrefixOf e.1
    | _, _ => false) = true := by decide +kernel

theorem static_name_prefix (m : Nat) (e : Bytes × Option Bytes) (h : staticTable[m]? = some e) :
    m < 61 ∧ ∃ e', rfcStatic[m]? = some e' ∧ e'.1 <+: e.1 := by
  have hm := (static_agree_idx m e h).1
  refine ⟨hm, ?_⟩
  have := List.all_eq_true.1 static_names m (by simp [hm])
  rw [h] at this
  split at this
  · next e0 e1 h0 h1 =>
    simp at h0; subst h0
    exact ⟨e1, h1, List.isPrefixOf_iff_prefix.1 this⟩
  · simp at this

theorem enc_index (g m : Nat) (hm : m < 61) : encodeInt 7 (g % 128 + 128) (m + 1) = Rep.wire (.indexed (m + 1)) := by
  simp only [Rep.wire]
  rw [C08_encode_small_partial 7 _ _ (by omega) (by simp; omega)]
  congr 1
  have : g % 128 < 128 := Nat.mod_lt _ (by omega)
  omega

theorem enc_name (g m : Nat) (hm : m < 61) (v : Bytes) (h2 : v.length < 127) :
    encodeInt 6 (g % 64 + 64) (m + 1) ++ encodeString g v = Rep.wire (.literal .update (.index (m + 1)) ⟨false, v⟩) := by
  simp only [Rep.wire, prefixOf, pattern]
  rw [C08_encode_small_partial 6 _ _ (by omega) (by simp; omega), encodeString_eq g v h2]
  congr 2
  have : g % 64 < 64 := Nat.mod_lt _ (by omega)
  omega

theorem matchStatic_some (name value : Bytes) (es : List (Bytes × Option Bytes)) (e : Bytes × Option Bytes) (he : e ∈ es)
    (hn : e.1.isPrefixOf name = true) (hv : ∀ w, e.2 = some w → w.isPrefixOf value = true) : ∀ j,
    (matchStatic es j name value).isSome = true := by
  induction es with
  | nil => simp at he
  | cons x es ih =>
    intro j
    obtain ⟨tn, tv⟩ := x
    unfold matchStatic
    cases hm : matchEntry j (some tn) tv name value with
    | some k => rfl
    | none =>
      simp only
      rcases List.mem_cons.1 he with rfl | he
      · exfalso
        unfold matchEntry at hm
        simp only at hn hv
        cases tv with
        | none => simp [hn] at hm
        | some w => simp [hn, hv w rfl] at hm
      · exact ih he (j + 1)

/-- REFUTED: a response header whose name merely begins with a name of the static table (one listed
without value: `age`, `host`, `link`, `from`, `date`, `via` ...) reaches the client under a shorter name,
whatever its value, the client's table, and the table of the connection. -/
theorem C61_prefix_name_changed_refuted (g limit : Nat) (dyn t : List Entry) (n v : Bytes) (hv : v.length < 127)
    (hpre : ∃ e ∈ staticTable, e.2 = none ∧ e.1.isPrefixOf n = true) (hno : ∀ e ∈ staticTable, e.1 ≠ n) :
    ∃ r e' t', encodeHeader g dyn n v = r.wire ∧ rfcRep limit t r = some (e', t') ∧ e'.1 <+: n ∧ e'.1 ≠ n := by
  obtain ⟨e0, he0, hv0, hn0⟩ := hpre
  have hsome := matchStatic_some n v staticTable e0 he0 hn0 (by rw [hv0]; simp) 0
  obtain ⟨k, hk⟩ := Option.isSome_iff_exists.1 hsome
  have hcl : classify dyn n v = k := by unfold classify; rw [hk]
  have hne : ∀ m e, staticTable[m]? = some e → e.1.isPrefixOf n = true →
      ∃ e', m < 61 ∧ rfcLookup t (m + 1) = some e' ∧ e'.1 <+: n ∧ e'.1 ≠ n := by
    intro m e h1 h2
    obtain ⟨hm, e', b1, b2⟩ := static_name_prefix m e h1
    have hp := List.isPrefixOf_iff_prefix.1 h2
    refine ⟨e', hm, by rw [rfcLookup_static t m hm, b1], b2.trans hp, ?_⟩
    intro heq
    have hl1 := b2.length_le
    have hl2 := hp.length_le
    rw [heq] at hl1
    exact hno e (List.mem_of_getElem? h1) (hp.eq_of_length (by omega))
  unfold encodeHeader
  rw [hcl]
  rcases matchStatic_spec n v staticTable 0 k hk with ⟨m, e, w, rfl, a1, a2, a3, a4⟩ | ⟨m, e, rfl, a1, a2, a3⟩
  · obtain ⟨e', hm, b1, b2, b3⟩ := hne m e a1 a2
    refine ⟨.indexed (m + 1), e', t, ?_, by simp [rfcRep, b1], b2, b3⟩
    simp only [Nat.zero_add]
    exact enc_index g m hm
  · obtain ⟨e', hm, b1, b2, b3⟩ := hne m e a1 a2
    refine ⟨.literal .update (.index (m + 1)) ⟨false, v⟩, (e'.1, v), rfcInsert limit t (e'.1, v), ?_, by simp [rfcRep, b1], b2, b3⟩
    simp only [Nat.zero_add]
    exact enc_name g m hm v hv

/-- `agent: x` reaches the client as `age: x`. -/
example : (∃ e ∈ staticTable, e.2 = none ∧ e.1.isPrefixOf b!"agent" = true) ∧ (∀ e ∈ staticTable, e.1 ≠ b!"agent") ∧
    encodeHeader 0 [] b!"agent" b!"x" = Rep.wire (.literal .update (.index 21) ⟨false, b!"x"⟩) ∧
    rfcBlock 4096 [] [.literal .update (.index 21) ⟨false, b!"x"⟩] = some ([(b!"age", b!"x")], [(b!"age", b!"x")]) := by
  refine ⟨⟨(b!"age", none), by decide +kernel⟩, ?_, ?_, ?_⟩ <;> decide +kernel

/-- REFUTED: a value that merely begins with a value the static table lists under the header's name is
replaced by it.  For every header that is not itself a static entry and whose name is only listed
with values (`:path`, `:method`, `:status`, `:scheme` ...), some of them a prefix of its value, the
client receives another header. -/
theorem C61_prefix_value_changed_refuted (g limit : Nat) (dyn t : List Entry) (n v : Bytes)
    (hpre : ∃ e ∈ staticTable, ∃ w, e.2 = some w ∧ e.1.isPrefixOf n = true ∧ w.isPrefixOf v = true)
    (hno : ∀ e ∈ staticTable, e.2 = none → e.1.isPrefixOf n = false) (hne : (n, v) ∉ rfcStatic) :
    ∃ r e', encodeHeader g dyn n v = r.wire ∧ rfcRep limit t r = some (e', t) ∧ e' ∈ rfcStatic ∧ e' ≠ (n, v) := by
  obtain ⟨e0, he0, w0, hv0, hn0, hw0⟩ := hpre
  have hsome := matchStatic_some n v staticTable e0 he0 hn0 (by rw [hv0]; intro w hw; cases hw; exact hw0) 0
  obtain ⟨k, hk⟩ := Option.isSome_iff_exists.1 hsome
  have hcl : classify dyn n v = k := by unfold classify; rw [hk]
  unfold encodeHeader
  rw [hcl]
  rcases matchStatic_spec n v staticTable 0 k hk with ⟨m, e, w, rfl, a1, a2, a3, a4⟩ | ⟨m, e, rfl, a1, a2, a3⟩
  · obtain ⟨hm, e', b1, b2⟩ := static_name_prefix m e a1
    have hmem := List.mem_of_getElem? b1
    refine ⟨.indexed (m + 1), e', ?_, by simp [rfcRep, rfcLookup_static t m hm, b1], hmem, fun h => hne (h ▸ hmem)⟩
    simp only [Nat.zero_add]
    exact enc_index g m hm
  · have := hno e (List.mem_of_getElem? a1) a3
    rw [this] at a2; simp at a2

/-- `:path: /x` is replaced by `:path: /`. -/
example : (∃ e ∈ staticTable, ∃ w, e.2 = some w ∧ e.1.isPrefixOf b!":path" = true ∧ w.isPrefixOf b!"/x" = true) ∧
    (∀ e ∈ staticTable, e.2 = none → e.1.isPrefixOf b!":path" = false) ∧ (b!":path", b!"/x") ∉ rfcStatic ∧
    encodeHeader 0 [] b!":path" b!"/x" = Rep.wire (.indexed 4) ∧
    rfcBlock 4096 [] [.indexed 4] = some ([(b!":path", b!"/")], []) := by
  refine ⟨⟨(b!":path", some b!"/"), by decide +kernel, b!"/", by decide +kernel⟩, ?_, ?_, ?_, ?_⟩ <;> decide +kernel

theorem matchDynamic_at (name value : Bytes) (hn : name ≠ []) (hv : value ≠ []) (es : List Entry) : ∀ k j, es[k]? = some (name, value) →
    (∀ e ∈ es.take k, e.1.isPrefixOf name = false) → matchDynamic es j name value = some (.indexed (j + k)) := by
  induction es with
  | nil => intro k j h; simp at h
  | cons x es ih =>
    intro k j h hp
    obtain ⟨tn, tv⟩ := x
    unfold matchDynamic
    cases k with
    | zero =>
      simp at h
      obtain ⟨rfl, rfl⟩ := h
      have : matchEntry j (nonEmpty tn) (nonEmpty tv) tn tv = some (.indexed j) := by
        unfold matchEntry nonEmpty
        simp [hn, hv]
      rw [this]; simp
    | succ k =>
      have h0 := hp (tn, tv) (by simp)
      simp only at h0
      have : matchEntry j (nonEmpty tn) (nonEmpty tv) name value = none := by
        have hx : ((nonEmpty tn).map fun t => t.isPrefixOf name).getD false = false := by
          unfold nonEmpty; split <;> simp [h0]
        unfold matchEntry
        simp [hx]
      rw [this]
      simp only
      rw [ih k (j + 1) (by simpa using h) (fun e he => hp e (by simp [he]))]
      congr 2; omega

/-- REFUTED: the encoder consults the table of what the CLIENT inserted for its own requests.  Whenever
a response header (no static match) equals an entry the client inserted there, the response refers
to it by number, which the client's decoder looks up in the other table: unless that one happens to
hold the same header at the same place, the client gets another header or a decoding error. -/
theorem C61_wrong_table_consulted_refuted (g limit : Nat) (dyn t : List Entry) (n v : Bytes) (hn : n ≠ []) (hv : v ≠ [])
    (k : Nat) (hk : dyn[k]? = some (n, v)) (hk65 : k < 65) (hfirst : ∀ e ∈ dyn.take k, e.1.isPrefixOf n = false)
    (hstat : matchStatic staticTable 0 n v = none) (ht : t[k]? ≠ some (n, v)) :
    ∃ r, encodeHeader g dyn n v = r.wire ∧ ∀ e t', rfcRep limit t r = some (e, t') → e ≠ (n, v) := by
  have hcl : classify dyn n v = .indexed (staticLen + k) := by
    unfold classify
    rw [hstat]
    simp only [matchDynamic_at n v hn hv dyn k staticLen hk hfirst]
  refine ⟨.indexed (62 + k), ?_, ?_⟩
  · unfold encodeHeader
    rw [hcl]
    simp only [Rep.wire]
    have hs : staticLen + k + 1 = 62 + k := by unfold staticLen; omega
    rw [hs, C08_encode_small_partial 7 _ _ (by omega) (by simp; omega)]
    congr 1
    have : g % 128 < 128 := Nat.mod_lt _ (by omega)
    omega
  · intro e t' he heq
    simp only [rfcRep, rfcLookup] at he
    rw [if_neg (by omega), List.getElem?_append_right (by rw [rfcStatic_length]; omega), rfcStatic_length] at he
    have hs : 62 + k - 1 - 61 = k := by omega
    rw [hs] at he
    simp only [Option.map_eq_some_iff, Prod.mk.injEq] at he
    obtain ⟨a, ha, rfl, _⟩ := he
    exact ht (by rw [ha, heq])

/-- With an empty decoding table the client reports a decoding error. -/
example : matchStatic staticTable 0 b!"x-a" b!"1" = none ∧ ([] : List Entry)[0]? ≠ some (b!"x-a", b!"1") ∧
    encodeHeader 0 [(b!"x-a", b!"1")] b!"x-a" b!"1" = Rep.wire (.indexed 62) ∧ rfcBlock 4096 [] [.indexed 62] = none := by
  decide +kernel

end Fly.Hpack
