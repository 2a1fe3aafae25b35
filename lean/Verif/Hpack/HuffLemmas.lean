import Verif.Hpack.Spec
import Verif.H2Frame.Lemmas

set_option linter.all false

namespace Fly.Hpack
open Fly.Buffer Fly.H2

/-! ## bit streams -/

def byteBits (x : Nat) : List Bool := (List.range 8).map fun k => x.testBit (7 - k)

def bitsOf (bs : Bytes) : List Bool := bs.flatMap byteBits

theorem byteBits_length (x : Nat) : (byteBits x).length = 8 := by simp [byteBits]

theorem bitsOf_length (bs : Bytes) : (bitsOf bs).length = 8 * bs.length := by
  induction bs with
  | nil => rfl
  | cons b bs ih => simp [bitsOf, byteBits_length] at ih ⊢; omega

/-- The bits from pointer `c`, bit `j` on. -/
def stream (c : Option Cursor) (j : Nat) : List Bool :=
  match c with
  | none => []
  | some cu => (bitsOf cu.flat).drop j

def OKc (c : Option Cursor) : Prop := ∀ cu, c = some cu → NE cu

theorem drop_byteBits (x j : Nat) (hj : j < 8) :
    (byteBits x).drop j = x.testBit (7 - j) :: (byteBits x).drop (j + 1) := by
  rw [List.drop_eq_getElem_cons (by rw [byteBits_length]; exact hj)]
  simp [byteBits]

theorem stream_cons (cu : Cursor) (x : Nat) (t : Bytes) (hf : cu.flat = x :: t) (j : Nat) (hj : j < 8) :
    stream (some cu) j = (byteBits x).drop j ++ bitsOf t := by
  simp only [stream, hf, bitsOf, List.flatMap_cons]
  rw [List.drop_append_of_le_length (by rw [byteBits_length]; omega)]

theorem head_flat {c : Cursor} (h : NE c) : ∃ x t u, c.cur = x :: u ∧ c.flat = x :: t := by
  obtain ⟨x, u, h1, h2⟩ := cur_head h
  cases hf : c.flat with
  | nil => rw [hf] at h2; simp at h2
  | cons y t => rw [hf] at h2; simp at h2; exact ⟨x, t, u, h1, by rw [h2]⟩

theorem advance_one {c : Cursor} (h : NE c) (x : Nat) (t : Bytes) (hf : c.flat = x :: t) :
    (t = [] → advance c 1 = none) ∧ (t ≠ [] → ∃ c', advance c 1 = some c' ∧ NE c' ∧ c'.flat = t) := by
  constructor
  · intro ht
    subst ht
    obtain ⟨cur, rest⟩ := c
    have hc := h.cur
    simp only at hc
    cases cur with
    | nil => exact absurd rfl hc
    | cons y u =>
      simp [Cursor.flat] at hf
      obtain ⟨rfl, hu, hr⟩ := hf
      subst hu
      cases rest with
      | nil => rfl
      | cons r rs =>
        have := h.rest r (by simp)
        exact absurd (hr r (by simp)) this
  · intro ht
    have := List.length_pos_iff.2 ht
    obtain ⟨c', e1, e2, e3⟩ := advance_spec c h 1 (by rw [hf]; simp; omega)
    exact ⟨c', e1, e2, by rw [e3, hf]; rfl⟩

theorem stream_advance {c : Cursor} (h : NE c) (x : Nat) (t : Bytes) (hf : c.flat = x :: t) :
    OKc (advance c 1) ∧ stream (advance c 1) 0 = bitsOf t := by
  obtain ⟨a, b⟩ := advance_one h x t hf
  by_cases ht : t = []
  · rw [a ht, ht]; exact ⟨by intro cu hcu; simp at hcu, rfl⟩
  · obtain ⟨c', e1, e2, e3⟩ := b ht
    rw [e1]
    refine ⟨fun cu hcu => by cases hcu; exact e2, ?_⟩
    simp [stream, e3]

theorem matchBits_ok (bs : List Bool) : ∀ (c : Option Cursor) (j step : Nat) (after : List Bool), OKc c → j < 8 →
    stream c j = bs ++ after →
    ∃ c' j' s', matchBits bs c j step = some (some (c', j', s')) ∧ OKc c' ∧ j' < 8 ∧ stream c' j' = after ∧
      8 * s' + j' = 8 * step + j + bs.length ∧ step ≤ s' := by
  induction bs with
  | nil =>
    intro c j step after hc hj hs
    exact ⟨c, j, step, rfl, hc, hj, by simpa using hs, by simp, Nat.le_refl _⟩
  | cons b bs ih =>
    intro c j step after hc hj hs
    cases c with
    | none => simp [stream] at hs
    | some cu =>
      have hne := hc cu rfl
      obtain ⟨x, t, u, h1, h2⟩ := head_flat hne
      rw [stream_cons cu x t h2 j hj, drop_byteBits x j hj] at hs
      simp only [List.cons_append, List.cons.injEq] at hs
      obtain ⟨hb, hs⟩ := hs
      unfold matchBits
      rw [h1]
      simp only [hb, ne_eq, not_true_eq_false, if_false]
      by_cases hj8 : 8 ≤ j + 1
      · rw [if_pos hj8]
        have hj7 : j = 7 := by omega
        subst hj7
        have he : List.drop (7 + 1) (byteBits x) = [] := List.drop_of_length_le (by rw [byteBits_length]; omega)
        rw [he] at hs
        obtain ⟨k1, k2⟩ := stream_advance hne x t h2
        obtain ⟨c', j', s', e1, e2, e3, e4, e5, e6⟩ := ih (advance cu 1) 0 (step + 1) after k1 (by omega) (by
          rw [k2]; simpa using hs)
        exact ⟨c', j', s', e1, e2, e3, e4, by simp at e5 ⊢; omega, by omega⟩
      · rw [if_neg hj8]
        obtain ⟨c', j', s', e1, e2, e3, e4, e5, e6⟩ := ih (some cu) (j + 1) step after hc (by omega) (by
          rw [stream_cons cu x t h2 (j + 1) (by omega)]; exact hs)
        exact ⟨c', j', s', e1, e2, e3, e4, by simp at e5 ⊢; omega, e6⟩

/-- Two bit strings that differ at some position. -/
def Incomp (a b : List Bool) : Prop := ∃ p x a' b', a = p ++ x :: a' ∧ b = p ++ (!x) :: b'

theorem matchBits_fail (bs : List Bool) : ∀ (c : Option Cursor) (j step : Nat) (s after : List Bool), OKc c → j < 8 →
    stream c j = s ++ after → Incomp bs s → matchBits bs c j step = some none := by
  induction bs with
  | nil =>
    intro c j step s after hc hj hs hi
    obtain ⟨p, x, a', b', h, _⟩ := hi
    cases p <;> simp at h
  | cons b bs ih =>
    intro c j step s after hc hj hs hi
    obtain ⟨p, y, a', b', hp1, hp2⟩ := hi
    cases c with
    | none =>
      subst hp2
      cases p <;> simp [stream] at hs
    | some cu =>
      have hne := hc cu rfl
      obtain ⟨x, t, u, h1, h2⟩ := head_flat hne
      rw [stream_cons cu x t h2 j hj, drop_byteBits x j hj] at hs
      unfold matchBits
      rw [h1]
      simp only
      cases p with
      | nil =>
        simp at hp1 hp2
        subst hp2
        simp at hs
        obtain ⟨rfl, rfl⟩ := hp1
        rw [if_pos]
        rw [hs.1]; cases b <;> simp
      | cons z p =>
        simp only [List.cons_append, List.cons.injEq] at hp1
        obtain ⟨rfl, hp1⟩ := hp1
        subst hp2
        simp only [List.cons_append, List.cons.injEq] at hs
        obtain ⟨hb, hs⟩ := hs
        simp only [hb, ne_eq, not_true_eq_false, if_false]
        have hi' : Incomp bs (p ++ (!y) :: b') := ⟨p, y, a', b', hp1, rfl⟩
        by_cases hj8 : 8 ≤ j + 1
        · rw [if_pos hj8]
          have hj7 : j = 7 := by omega
          subst hj7
          have he : List.drop (7 + 1) (byteBits x) = [] := List.drop_of_length_le (by rw [byteBits_length]; omega)
          rw [he] at hs
          obtain ⟨k1, k2⟩ := stream_advance hne x t h2
          exact ih (advance cu 1) 0 (step + 1) (p ++ (!y) :: b') after k1 (by omega) (by rw [k2]; simpa using hs) hi'
        · rw [if_neg hj8]
          exact ih (some cu) (j + 1) step (p ++ (!y) :: b') after hc (by omega) (by
            rw [stream_cons cu x t h2 (j + 1) (by omega)]; simpa using hs) hi'

theorem findCode_spec (pre : List (Nat × Nat × Nat)) (e : Nat × Nat × Nat) (post : List (Nat × Nat × Nat))
    (c : Option Cursor) (j : Nat) (after : List Bool) (hc : OKc c) (hj : j < 8)
    (hs : stream c j = codeBits e.2.1 e.2.2 ++ after)
    (hpre : ∀ x ∈ pre, Incomp (codeBits x.2.1 x.2.2) (codeBits e.2.1 e.2.2)) :
    ∃ c' j' s', findCode (pre ++ e :: post) c j = some (e.1, c', j', s') ∧ OKc c' ∧ j' < 8 ∧ stream c' j' = after ∧
      8 * s' + j' = j + (codeBits e.2.1 e.2.2).length := by
  induction pre with
  | nil =>
    obtain ⟨sym, code, len⟩ := e
    obtain ⟨c', j', s', e1, e2, e3, e4, e5, e6⟩ := matchBits_ok _ c j 0 after hc hj hs
    refine ⟨c', j', s', ?_, e2, e3, e4, by omega⟩
    simp only [List.nil_append, findCode]
    rw [e1]
  | cons x pre ih =>
    obtain ⟨sym, code, len⟩ := x
    simp only [List.cons_append, findCode]
    have := matchBits_fail _ c j 0 _ after hc hj hs (hpre (sym, code, len) (by simp))
    simp only at this
    rw [this]
    exact ih (fun x hx => hpre x (by simp [hx]))

/-! ## the table -/

/-- The C table with the code of symbol 13 repaired. -/
def repaired : List (Nat × Nat × Nat) := huffmanCodes.map fun e => if e.1 = 13 then (13, 0x3ffffffd, 30) else e

theorem rfcCodes_eq : rfcCodes = repaired := by decide +kernel

def repairedCode (s : Nat) : List Bool :=
  match repaired.find? fun e => e.1 == s with
  | some (_, c, l) => bitsMSB l c
  | none => []

theorem rfcCode_eq (s : Nat) : rfcCode s = repairedCode s := by unfold rfcCode repairedCode; rw [rfcCodes_eq]; rfl

/-- Neither code is a prefix of the other, on numbers. -/
def numIncomp (x y : Nat × Nat × Nat) : Bool :=
  let m := min x.2.2 y.2.2
  x.2.1 / 2 ^ (x.2.2 - m) != y.2.1 / 2 ^ (y.2.2 - m) && decide (x.2.1 < 2 ^ x.2.2) && decide (y.2.1 < 2 ^ y.2.2)

theorem codeBits_length (c l : Nat) : (codeBits c l).length = l := by simp [codeBits]

theorem codeBits_take (c l m : Nat) (h : m ≤ l) : (codeBits c l).take m = codeBits (c / 2 ^ (l - m)) m := by
  apply List.ext_getElem
  · simp [codeBits]; omega
  · intro k h1 h2
    simp [codeBits] at h1
    simp only [codeBits, List.getElem_take, List.getElem_map, List.getElem_range, Nat.testBit_div_two_pow]
    congr 1; omega

theorem codeBits_inj (a b m : Nat) (ha : a < 2 ^ m) (hb : b < 2 ^ m) (h : codeBits a m = codeBits b m) : a = b := by
  apply Nat.eq_of_testBit_eq
  intro i
  by_cases hi : i < m
  · have h1 : (codeBits a m)[m - i - 1]'(by simp [codeBits]; omega) = (codeBits b m)[m - i - 1]'(by simp [codeBits]; omega) := by
      simp only [h]
    simp only [codeBits, List.getElem_map, List.getElem_range] at h1
    have e : m - (m - i - 1) - 1 = i := by omega
    rw [e] at h1; exact h1
  · have hp : 2 ^ m ≤ 2 ^ i := Nat.pow_le_pow_right (by omega) (by omega)
    rw [Nat.testBit_lt_two_pow (by omega), Nat.testBit_lt_two_pow (by omega)]

theorem incomp_of_take (m : Nat) : ∀ a b : List Bool, m ≤ a.length → m ≤ b.length → a.take m ≠ b.take m → Incomp a b := by
  induction m with
  | zero => intro a b _ _ h; simp at h
  | succ m ih =>
    intro a b ha hb h
    cases a with
    | nil => simp at ha
    | cons x a =>
      cases b with
      | nil => simp at hb
      | cons y b =>
        simp at ha hb h
        by_cases hxy : x = y
        · subst hxy
          obtain ⟨p, z, a', b', h1, h2⟩ := ih a b ha hb (h rfl)
          exact ⟨x :: p, z, a', b', by rw [h1]; rfl, by rw [h2]; rfl⟩
        · refine ⟨[], x, a, b, rfl, ?_⟩
          cases x <;> cases y <;> simp_all

theorem numIncomp_sound (x y : Nat × Nat × Nat) (h : numIncomp x y = true) :
    Incomp (codeBits x.2.1 x.2.2) (codeBits y.2.1 y.2.2) := by
  simp only [numIncomp, Bool.and_eq_true, bne_iff_ne, decide_eq_true_eq] at h
  obtain ⟨⟨h1, h2⟩, h3⟩ := h
  have hdiv : ∀ c l m : Nat, m ≤ l → c < 2 ^ l → c / 2 ^ (l - m) < 2 ^ m := by
    intro c l m hm hc
    apply Nat.div_lt_of_lt_mul
    rw [← Nat.pow_add]
    have : l - m + m = l := by omega
    rw [this]; exact hc
  apply incomp_of_take (min x.2.2 y.2.2)
  · rw [codeBits_length]; omega
  · rw [codeBits_length]; omega
  · rw [codeBits_take _ _ _ (by omega), codeBits_take _ _ _ (by omega)]
    intro he
    exact h1 (codeBits_inj _ _ _ (hdiv _ _ _ (by omega) h2) (hdiv _ _ _ (by omega) h3) he)

/-- Every entry, except that of symbol 13, is incomparable with all earlier ones. -/
def pairsOK : List (Nat × Nat × Nat) → Bool
  | [] => true
  | x :: xs => xs.all (fun y => y.1 == 13 || numIncomp x y) && pairsOK xs

theorem pairsOK_sound (pre : List (Nat × Nat × Nat)) (e : Nat × Nat × Nat) (post : List (Nat × Nat × Nat))
    (h : pairsOK (pre ++ e :: post) = true) (he : e.1 ≠ 13) : ∀ x ∈ pre, numIncomp x e = true := by
  induction pre with
  | nil => simp
  | cons y pre ih =>
    simp only [List.cons_append, pairsOK, Bool.and_eq_true, List.all_eq_true] at h
    intro x hx
    rcases List.mem_cons.1 hx with rfl | hx
    · have := h.1 e (by simp)
      simpa [he] using this
    · exact ih h.2 x hx

theorem table_pairs : pairsOK huffmanCodes = true := by decide +kernel

/-- Every symbol but 13 is in the table with its RFC code, which has a zero bit. -/
def symOK (s : Nat) (code : List Bool) : Bool :=
  huffmanCodes.any fun e => e.1 == s && codeBits e.2.1 e.2.2 == code && code.contains false

theorem table_ok : (List.range 256).all (fun s => s == 13 || symOK s (repairedCode s)) = true := by decide +kernel

theorem table_find (s : Nat) (h : s < 256) (h13 : s ≠ 13) :
    ∃ pre e post, huffmanCodes = pre ++ e :: post ∧ e.1 = s ∧ codeBits e.2.1 e.2.2 = rfcCode s ∧
      false ∈ rfcCode s ∧ ∀ x ∈ pre, Incomp (codeBits x.2.1 x.2.2) (codeBits e.2.1 e.2.2) := by
  have := List.all_eq_true.1 table_ok s (by simp [h])
  simp [h13] at this
  rw [← rfcCode_eq] at this
  simp only [symOK, List.any_eq_true, Bool.and_eq_true, beq_iff_eq, List.contains_iff_mem] at this
  obtain ⟨e, he, ⟨h1, h2⟩, h3⟩ := this
  obtain ⟨pre, post, hs⟩ := List.append_of_mem he
  refine ⟨pre, e, post, hs, h1, h2, h3, ?_⟩
  intro x hx
  have hp := table_pairs
  rw [hs] at hp
  exact numIncomp_sound x e (pairsOK_sound pre e post hp (by rw [h1]; exact h13) x hx)

/-! ## the padding test -/

theorem lastPadding_iff (j x : Nat) (hj : j < 8) : lastPadding j x = true ↔ ∀ b ∈ (byteBits x).drop j, b = true := by
  have hmem : (∀ b ∈ (byteBits x).drop j, b = true) ↔ ∀ i, i < 8 - j → x.testBit i = true := by
    constructor
    · intro h i hi
      apply h
      rw [List.mem_drop_iff_getElem]
      refine ⟨7 - j - i, by simp [byteBits]; omega, ?_⟩
      simp only [byteBits, List.getElem_map, List.getElem_range]
      congr 1; omega
    · intro h b hb
      rw [List.mem_drop_iff_getElem] at hb
      obtain ⟨k, hk, rfl⟩ := hb
      simp [byteBits] at hk
      simp only [byteBits, List.getElem_map, List.getElem_range]
      exact h _ (by omega)
  rw [hmem]
  unfold lastPadding
  simp only [beq_iff_eq]
  constructor
  · intro h i hi
    have := congrArg (fun n => n.testBit i) h
    simp only [Nat.testBit_mod_two_pow, Nat.testBit_two_pow_sub_one] at this
    simpa [hi] using this
  · intro h
    apply Nat.eq_of_testBit_eq
    intro i
    simp only [Nat.testBit_mod_two_pow, Nat.testBit_two_pow_sub_one]
    by_cases hi : i < 8 - j
    · simp [hi, h i hi]
    · simp [hi]

/-! ## the decoder -/

theorem huffLoop_spec (ss : Bytes) (hss : ∀ s ∈ ss, s < 256 ∧ s ≠ 13) :
    ∀ (fuel len : Nat) (c : Option Cursor) (j p : Nat) (after : List Bool) (out : Bytes),
    ss.length < fuel → OKc c → j < 8 → p < 8 → len < 2 ^ 32 →
    stream c j = ss.flatMap rfcCode ++ (List.replicate p true ++ after) →
    8 * len = j + (ss.flatMap rfcCode).length + p →
    huffLoop fuel len c j out = some (out ++ ss) := by
  induction ss with
  | nil =>
    intro fuel len c j p after out hfu hc hj hp hlen hs hl
    cases fuel with
    | zero => omega
    | succ fuel =>
      unfold huffLoop
      by_cases h0 : len = 0
      · rw [if_pos h0]; simp
      · rw [if_neg h0]
        simp at hl hs
        have h1 : len = 1 := by omega
        have hp8 : p = 8 - j := by omega
        cases c with
        | none =>
          simp [stream] at hs
          have := hs.1; omega
        | some cu =>
          obtain ⟨x, t, u, e1, e2⟩ := head_flat (hc cu rfl)
          rw [stream_cons cu x t e2 j hj] at hs
          simp only [e1]
          have hd : (byteBits x).drop j = List.replicate p true := by
            have := congrArg (List.take (8 - j)) hs
            rw [List.take_append_of_le_length (by simp [byteBits_length]), List.take_of_length_le (by simp [byteBits_length]),
              List.take_append_of_le_length (by simp; omega), List.take_of_length_le (by simp; omega)] at this
            exact this
          have : lastPadding j x = true := (lastPadding_iff j x hj).2 (by rw [hd]; intro b hb; exact (List.mem_replicate.1 hb).2)
          simp [h1, this]
  | cons s ss ih =>
    intro fuel len c j p after out hfu hc hj hp hlen hs hl
    cases fuel with
    | zero => simp at hfu
    | succ fuel =>
      obtain ⟨hs256, hs13⟩ := hss s (by simp)
      obtain ⟨pre, e, post, t1, t2, t3, t4, t5⟩ := table_find s hs256 hs13
      have hclen : 0 < (rfcCode s).length := List.length_pos_iff.2 (fun h => by rw [h] at t4; simp at t4)
      simp only [List.flatMap_cons, List.length_append] at hl
      rw [List.flatMap_cons, List.append_assoc] at hs
      unfold huffLoop
      rw [if_neg (by omega)]
      cases c with
      | none =>
        simp [stream] at hs
        rw [hs.1] at hclen; simp at hclen
      | some cu =>
        obtain ⟨x, t, u, e1, e2⟩ := head_flat (hc cu rfl)
        simp only [e1]
        have hnp : ¬ (len = 1 ∧ lastPadding j x = true) := by
          rintro ⟨h1, h2⟩
          have hall := (lastPadding_iff j x hj).1 h2
          have hs' := hs
          rw [stream_cons cu x t e2 j hj] at hs'
          have hpre : rfcCode s <+: (byteBits x).drop j := by
            have hcl : (rfcCode s).length ≤ ((byteBits x).drop j).length := by
              simp [byteBits_length]; omega
            have a : rfcCode s <+: (byteBits x).drop j ++ bitsOf t := by rw [hs']; exact List.prefix_append _ _
            have b : (byteBits x).drop j <+: (byteBits x).drop j ++ bitsOf t := List.prefix_append _ _
            exact List.prefix_of_prefix_length_le a b hcl
          have := hall false (hpre.subset t4)
          simp at this
        have hcond : (decide (len = 1) && lastPadding j x) = false := by
          rw [Bool.eq_false_iff]; intro h; simp at h; exact hnp h
        rw [hcond]
        simp only [Bool.false_eq_true, if_false]
        obtain ⟨c', j', s', f1, f2, f3, f4, f5⟩ := findCode_spec pre e post (some cu) j _ hc hj (by rw [t3]; exact hs) t5
        rw [t1, f1]
        simp only
        rw [t3] at f5
        rw [t2, Nat.mod_eq_of_lt hs256]
        have hsl : s' ≤ len := by omega
        have hm : (len + 2 ^ 32 - s') % 2 ^ 32 = len - s' := by omega
        rw [hm]
        rw [ih (fun y hy => hss y (by simp [hy])) fuel (len - s') c' j' p after (out ++ [s]) (by simp at hfu; omega) f2 f3 hp
          (by omega) f4 (by omega)]
        simp

/-! ## packing -/

theorem rfcCode_len_pos (s : Nat) (h : s < 256) (h13 : s ≠ 13) : 0 < (rfcCode s).length := by
  obtain ⟨pre, e, post, t1, t2, t3, t4, t5⟩ := table_find s h h13
  exact List.length_pos_iff.2 (fun h => by rw [h] at t4; simp at t4)

theorem byteBits_fold (l : List Bool) (h : l.length = 8) :
    byteBits (l.foldl (fun a b => 2 * a + b.toNat) 0) = l := by
  match l, h with
  | [a, b, c, d, e, f, g, i], _ =>
    revert a b c d e f g i
    decide +kernel

theorem packBits_spec (fuel : Nat) : ∀ bits : List Bool, bits.length ≤ fuel →
    ∃ p, p < 8 ∧ bitsOf (packBits fuel bits) = bits ++ List.replicate p true := by
  induction fuel with
  | zero =>
    intro bits h
    have : bits = [] := List.eq_nil_of_length_eq_zero (by omega)
    subst this
    exact ⟨0, by omega, rfl⟩
  | succ fuel ih =>
    intro bits h
    unfold packBits
    by_cases hb : bits = []
    · rw [if_pos hb, hb]; exact ⟨0, by omega, rfl⟩
    · rw [if_neg hb]
      have hbl := List.length_pos_iff.2 hb
      simp only [bitsOf, List.flatMap_cons]
      rw [byteBits_fold _ (by simp; omega)]
      by_cases h8 : bits.length < 8
      · have hd : bits.drop 8 = [] := List.drop_of_length_le (by omega)
        rw [hd]
        refine ⟨8 - bits.length, by omega, ?_⟩
        have hp : packBits fuel [] = [] := by cases fuel <;> simp [packBits]
        rw [hp, List.take_append]
        rw [List.take_of_length_le (by omega), List.take_replicate, Nat.min_eq_left (by omega)]
        simp
      · obtain ⟨p, h1, h2⟩ := ih (bits.drop 8) (by simp; omega)
        refine ⟨p, h1, ?_⟩
        simp only [bitsOf] at h2
        rw [h2, List.take_append_of_le_length (by omega), ← List.append_assoc, List.take_append_drop]

theorem huffDecode_spec (s : Bytes) (hs : ∀ b ∈ s, b < 256 ∧ b ≠ 13) (hcap : s.length < 20000)
    (hl : (rfcHuffman s).length < 2 ^ 32)
    (c : Cursor) (hc : NE c) (rest : Bytes) (hf : c.flat = rfcHuffman s ++ rest) :
    huffDecode (some c) (rfcHuffman s).length = some s := by
  obtain ⟨p, hp, hb⟩ := packBits_spec (s.flatMap rfcCode).length (s.flatMap rfcCode) (Nat.le_refl _)
  have hlen : 8 * (rfcHuffman s).length = (s.flatMap rfcCode).length + p := by
    have := congrArg List.length hb
    rw [bitsOf_length] at this
    simp only [List.length_append, List.length_replicate] at this
    exact this
  have hge : s.length ≤ (s.flatMap rfcCode).length := by
    clear hb hlen hf hl hcap
    induction s with
    | nil => simp
    | cons b s ih =>
      have := ih (fun x hx => hs x (by simp [hx]))
      have := rfcCode_len_pos b (hs b (by simp)).1 (hs b (by simp)).2
      simp at *; omega
  unfold huffDecode
  have hloop := huffLoop_spec s hs (8 * (some c |>.map fun cu => cu.flat.length).getD 0 + 2) (rfcHuffman s).length (some c) 0 p
    (bitsOf rest) [] (by
      have : (rfcHuffman s).length ≤ c.flat.length := by rw [hf]; simp
      simp only [Option.map_some, Option.getD_some]
      omega) (fun cu h => by cases h; exact hc) (by omega) hp hl (by
      simp only [stream, List.drop_zero, hf]
      have : bitsOf (rfcHuffman s ++ rest) = bitsOf (rfcHuffman s) ++ bitsOf rest := by simp [bitsOf]
      rw [this, ← List.append_assoc]
      congr 1) (by omega)
  rw [hloop]
  simp only [List.nil_append]
  rw [if_neg (by unfold huffCapacity; omega)]

theorem huffDecode_nil (c : Option Cursor) : huffDecode c 0 = some [] := by
  simp [huffDecode, huffLoop, huffCapacity]

end Fly.Hpack
