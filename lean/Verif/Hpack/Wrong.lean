import Verif.Hpack.Lemmas

/-! # Lemmas for the blocks and strings that are read wrongly -/

namespace Fly.Hpack
open Fly.Buffer

/-! ## Huffman coding -/

theorem huffLoop_prefix (ss : Bytes) (hss : ∀ s ∈ ss, s < 256 ∧ s ≠ 13) :
    ∀ (fuel len : Nat) (c : Option Cursor) (j q : Nat) (after : List Bool) (out : Bytes),
    OKc c → j < 8 → len < 2 ^ 32 → stream c j = ss.flatMap rfcCode ++ after →
    8 * len = j + (ss.flatMap rfcCode).length + q →
    huffLoop fuel len c j out = none ∨
    ∃ fuel' len' c' j', huffLoop fuel len c j out = huffLoop fuel' len' c' j' (out ++ ss) ∧ OKc c' ∧ j' < 8 ∧ len' < 2 ^ 32 ∧
      stream c' j' = after ∧ 8 * len' = j' + q := by
  induction ss with
  | nil =>
    intro fuel len c j q after out hc hj hlen hs hl
    exact .inr ⟨fuel, len, c, j, by simp, hc, hj, hlen, by simpa using hs, by simpa using hl⟩
  | cons s ss ih =>
    intro fuel len c j q after out hc hj hlen hs hl
    cases fuel with
    | zero => left; rfl
    | succ fuel =>
      obtain ⟨hs256, hs13⟩ := hss s (by simp)
      obtain ⟨pre, e, post, t1, t2, t3, t4, t5⟩ := table_find s hs256 hs13
      have hclen : 0 < (rfcCode s).length := List.length_pos_iff.2 (fun h => by rw [h] at t4; simp at t4)
      simp only [List.flatMap_cons, List.length_append] at hl
      rw [List.flatMap_cons, List.append_assoc] at hs
      cases c with
      | none =>
        simp [stream] at hs
        rw [hs.1] at hclen; simp at hclen
      | some cu =>
        obtain ⟨x, t, u, e1, e2⟩ := head_flat (hc cu rfl)
        have hnp : ¬ (len = 1 ∧ lastPadding j x = true) := by
          rintro ⟨h1, h2⟩
          have hall := (lastPadding_iff j x hj).1 h2
          have hs' := hs
          rw [stream_cons cu x t e2 j hj] at hs'
          have hpre : rfcCode s <+: (byteBits x).drop j := by
            have hcl : (rfcCode s).length ≤ ((byteBits x).drop j).length := by
              simp [byteBits_length]; omega
            have a : rfcCode s <+: (byteBits x).drop j ++ bitsOf t := by rw [hs']; exact List.prefix_append _ _
            have b : (byteBits x).drop j <+: (byteBits x).drop j ++ bitsOf t := List.prefix_append _ _
            exact List.prefix_of_prefix_length_le a b hcl
          have := hall false (hpre.subset t4)
          simp at this
        have hcond : (decide (len = 1) && lastPadding j x) = false := by
          rw [Bool.eq_false_iff]; intro h; simp at h; exact hnp h
        obtain ⟨c', j', s', f1, f2, f3, f4, f5⟩ := findCode_spec pre e post (some cu) j _ hc hj (by rw [t3]; exact hs) t5
        rw [t3] at f5
        have hm : (len + 2 ^ 32 - s') % 2 ^ 32 = len - s' := by omega
        have key : huffLoop (fuel + 1) len (some cu) j out = huffLoop fuel (len - s') c' j' (out ++ [s]) := by
          rw [huffLoop]
          rw [if_neg (by omega)]
          simp only [e1]
          rw [hcond, t1, f1]
          simp only [Bool.false_eq_true, if_false]
          rw [t2, Nat.mod_eq_of_lt hs256, hm]
        rw [key]
        have := ih (fun y hy => hss y (by simp [hy])) fuel (len - s') c' j' q after (out ++ [s]) f2 f3
          (by omega) f4 (by omega)
        simpa using this

theorem huffLoop_mono (fuel : Nat) : ∀ len c j out r, huffLoop fuel len c j out = some r → out <+: r := by
  induction fuel with
  | zero => intro len c j out r h; simp [huffLoop] at h
  | succ fuel ih =>
    intro len c j out r h
    unfold huffLoop at h
    split at h
    · cases h; exact List.prefix_refl _
    · split at h
      · simp at h
      · split at h
        · simp at h
        · split at h
          · cases h; exact List.prefix_refl _
          · split at h
            · simp at h
            · exact (List.prefix_append _ _).trans (ih _ _ _ _ _ h)

/-- The RFC's code of byte 13. -/
def crCode : Nat × Nat × Nat := (13, 0x3ffffffd, 30)

theorem cr_incomp : huffmanCodes.all (fun e => numIncomp e crCode) = true := by decide +kernel

theorem rfcCode_cr : rfcCode 13 = codeBits 0x3ffffffd 30 := by decide +kernel

theorem findCode_incomp (es : List (Nat × Nat × Nat)) (s after : List Bool) (c : Option Cursor) (j : Nat) (hc : OKc c)
    (hj : j < 8) (hs : stream c j = s ++ after) (h : ∀ e ∈ es, Incomp (codeBits e.2.1 e.2.2) s) : findCode es c j = none := by
  induction es with
  | nil => rfl
  | cons e es ih =>
    obtain ⟨sym, code, len⟩ := e
    unfold findCode
    rw [matchBits_fail _ c j 0 s after hc hj hs (h (sym, code, len) (by simp))]
    exact ih fun x hx => h x (by simp [hx])

theorem huffDecode_cr (s t : Bytes) (hs : ∀ b ∈ s, b < 256 ∧ b ≠ 13) (hl : (rfcHuffman (s ++ 13 :: t)).length < 2 ^ 32)
    (c : Cursor) (hc : NE c) (rest : Bytes) (hf : c.flat = rfcHuffman (s ++ 13 :: t) ++ rest) :
    huffDecode (some c) (rfcHuffman (s ++ 13 :: t)).length = none := by
  have hloop : ∀ fuel, huffLoop fuel (rfcHuffman (s ++ 13 :: t)).length (some c) 0 [] = none := by
    intro fuel
    obtain ⟨p, hp, hbits⟩ := packBits_spec ((s ++ 13 :: t).flatMap rfcCode).length ((s ++ 13 :: t).flatMap rfcCode) (Nat.le_refl _)
    have hb : bitsOf (rfcHuffman (s ++ 13 :: t)) = (s ++ 13 :: t).flatMap rfcCode ++ List.replicate p true := hbits
    rw [List.flatMap_append, List.flatMap_cons, List.append_assoc, List.append_assoc] at hb
    have hlen := bitsOf_length (rfcHuffman (s ++ 13 :: t))
    have hst : stream (some c) 0 = s.flatMap rfcCode ++ (rfcCode 13 ++ (t.flatMap rfcCode ++ List.replicate p true ++ bitsOf rest)) := by
      simp only [stream, hf, List.drop_zero]
      unfold bitsOf at hb ⊢
      rw [List.flatMap_append, hb]; simp
    rw [hb] at hlen
    simp only [List.length_append] at hlen
    have h13 : (rfcCode 13).length = 30 := by rw [rfcCode_cr, codeBits_length]
    rcases huffLoop_prefix s hs fuel (rfcHuffman (s ++ 13 :: t)).length (some c) 0
      ((rfcCode 13).length + ((t.flatMap rfcCode).length + (List.replicate p true).length)) _ []
      (fun cu h => by cases h; exact hc) (by omega) hl hst (by omega) with h | ⟨fuel', len', c', j', h1, h2, h3, h4, h5, h6⟩
    · exact h
    · rw [h1]
      cases fuel' with
      | zero => rfl
      | succ fuel' =>
        unfold huffLoop
        rw [if_neg (by omega)]
        cases c' with
        | none => rfl
        | some cu =>
          obtain ⟨x, tl, u, e1, e2⟩ := head_flat (h2 cu rfl)
          have hl1 : ¬ len' = 1 := by omega
          simp only [e1, hl1, decide_false, Bool.false_and, Bool.false_eq_true, if_false]
          rw [findCode_incomp huffmanCodes (rfcCode 13) _ (some cu) j' h2 h3 h5 ?_]
          intro e he
          rw [rfcCode_cr]
          exact numIncomp_sound e crCode (List.all_eq_true.1 cr_incomp e he)
  unfold huffDecode
  rw [hloop]

theorem huffDecode_badpad (s enc : Bytes) (pad : List Bool) (hs : ∀ b ∈ s, b < 256 ∧ b ≠ 13) (hl : enc.length < 2 ^ 32)
    (hb : bitsOf enc = s.flatMap rfcCode ++ pad) (hp8 : pad.length < 8) (hpf : false ∈ pad)
    (c : Cursor) (hc : NE c) (rest : Bytes) (hf : c.flat = enc ++ rest) (out : Bytes)
    (ho : huffDecode (some c) enc.length = some out) : ∃ t, t ≠ [] ∧ out = s ++ t := by
  have hloop : ∀ fuel, huffLoop fuel enc.length (some c) 0 [] = some out → ∃ t, t ≠ [] ∧ out = s ++ t := by
    intro fuel ho
    have hlen := bitsOf_length enc
    have hst : stream (some c) 0 = s.flatMap rfcCode ++ (pad ++ bitsOf rest) := by
      simp only [stream, hf, List.drop_zero]
      unfold bitsOf at hb ⊢
      rw [List.flatMap_append, hb]; simp
    rw [hb] at hlen
    simp only [List.length_append] at hlen
    rcases huffLoop_prefix s hs fuel enc.length (some c) 0 pad.length _ []
      (fun cu h => by cases h; exact hc) (by omega) hl hst (by omega) with h | ⟨fuel', len', c', j', h1, h2, h3, h4, h5, h6⟩
    · rw [h] at ho; simp at ho
    · rw [h1] at ho
      have hpl : 0 < pad.length := List.length_pos_of_mem hpf
      have hl1 : len' = 1 := by omega
      have hpj : pad.length = 8 - j' := by omega
      cases fuel' with
      | zero => simp [huffLoop] at ho
      | succ fuel' =>
        unfold huffLoop at ho
        rw [if_neg (by omega)] at ho
        cases c' with
        | none => simp at ho
        | some cu =>
          obtain ⟨x, tl, u, e1, e2⟩ := head_flat (h2 cu rfl)
          rw [stream_cons cu x tl e2 j' h3] at h5
          have hd : (byteBits x).drop j' = pad := by
            have := congrArg (List.take (8 - j')) h5
            rw [List.take_append_of_le_length (by simp [byteBits_length]), List.take_of_length_le (by simp [byteBits_length]),
              List.take_append_of_le_length (by omega), List.take_of_length_le (by omega)] at this
            exact this
          have hnp : lastPadding j' x = false := by
            rw [Bool.eq_false_iff]
            intro h
            have := (lastPadding_iff j' x h3).1 h false (by rw [hd]; exact hpf)
            simp at this
          simp only [e1, hnp, Bool.and_false, Bool.false_eq_true, if_false] at ho
          split at ho
          · simp at ho
          · next sym c'' j'' step _ =>
            obtain ⟨t, ht⟩ := huffLoop_mono _ _ _ _ _ _ ho
            exact ⟨[sym % 256] ++ t, by simp, by rw [← ht]; simp⟩
  unfold huffDecode at ho
  split at ho
  · simp at ho
  · next o hlo =>
    split at ho
    · simp at ho
    · simp at ho; subst ho
      exact hloop _ hlo

/-! ## Header blocks -/

theorem parseHeaders_prefix (rs : List Rep) : ∀ (fuel : Nat) (st : HState) (xs : List Node) (L total : Nat) (c : Cursor)
    (rest : Bytes) (hs tab : List Entry), Repr st.dtab xs → (∀ r ∈ rs, okRep r) →
    rfcBlock st.dtab.limit (ents xs) rs = some (hs, tab) → NE c → rest ≠ [] →
    c.flat = (rs.flatMap Rep.wire) ++ rest → (c.rest = [] ∨ ∀ r ∈ rs, huffNames r) →
    total + (rs.flatMap Rep.wire).length < L → L ≤ total + fuel →
    ∃ st' xs' c' fuel', parseHeaders fuel st L total (some c) =
        parseHeaders (fuel' + 1) st' L (total + (rs.flatMap Rep.wire).length) (some c') ∧
      L ≤ total + (rs.flatMap Rep.wire).length + (fuel' + 1) ∧ NE c' ∧ c'.flat = rest ∧ (c.rest = [] → c'.rest = []) ∧
      st'.headers = st.headers ++ hs ∧ Repr st'.dtab xs' ∧ ents xs' = tab ∧ st'.dtab.limit = st.dtab.limit := by
  induction rs with
  | nil =>
    intro fuel st xs L total c rest hs tab h hok hb hc hr hf hsafe hL hfu
    simp [rfcBlock] at hb
    obtain ⟨rfl, rfl⟩ := hb
    simp only [List.flatMap_nil, List.length_nil, Nat.add_zero] at hL ⊢
    refine ⟨st, xs, c, fuel - 1, ?_, by omega, hc, by simpa using hf, fun h => h, by simp, h, rfl, rfl⟩
    congr 1; omega
  | cons r rs ih =>
    intro fuel st xs L total c rest hs tab h hok hb hc hr hf hsafe hL hfu
    simp only [rfcBlock] at hb
    cases hrep : rfcRep st.dtab.limit (ents xs) r with
    | none => rw [hrep] at hb; simp at hb
    | some p =>
      obtain ⟨e, tab1⟩ := p
      rw [hrep] at hb
      simp only at hb
      cases hblk : rfcBlock st.dtab.limit tab1 rs with
      | none => rw [hblk] at hb; simp at hb
      | some q =>
        rw [hblk] at hb
        simp at hb
        obtain ⟨rfl, rfl⟩ := hb
        have hpos := wire_pos r
        simp only [List.flatMap_cons, List.append_assoc, List.length_append] at hf hL ⊢
        obtain ⟨c', st', xs', e1, e2, e3, e4, e5, e6, e7, e8⟩ := parseRep_spec st xs h r (hok r (by simp)) e tab1 hrep c hc
          (rs.flatMap Rep.wire ++ rest) (by simp [hr]) hf (by
            rcases hsafe with hs | hs
            · exact .inl hs
            · exact .inr (hs r (by simp))) total
        cases fuel with
        | zero => omega
        | succ fuel =>
          obtain ⟨st2, xs2, c2, fuel2, f1, f2, f3, f4, f5, f6, f7, f8, f9⟩ := ih fuel st' xs' L (total + r.wire.length) c' rest q.1 q.2 e5
            (fun x hx => hok x (by simp [hx])) (by rw [e7, e6]; exact hblk) e2 hr e3 (by
              rcases hsafe with hs | hs
              · exact .inl (e8 hs)
              · exact .inr fun x hx => hs x (by simp [hx])) (by omega) (by omega)
          refine ⟨st2, xs2, c2, fuel2, ?_, by omega, f3, f4, fun h => f5 (e8 h), ?_, f7, f8, by rw [f9, e7]⟩
          · rw [parseHeaders.eq_def (fuel + 1)]
            dsimp only
            rw [if_neg (by omega)]
            simp only [e1]
            rw [f1]; congr 1; omega
          · rw [f6, e4]; simp

/-- Headers already decoded stay. -/
theorem addHeaders_mono (st st' : HState) (total total' : Nat) (c c' : Option Cursor)
    (h : parseRep st total c = some (.ok total' c' st')) : st.headers <+: st'.headers := by
  unfold parseRep at h
  split at h
  · simp at h
  · split at h
    · simp at h
    · split at h
      · split at h
        · simp at h
        · simp only [Option.some.injEq, RepOut.ok.injEq] at h
          rw [← h.2.2]; exact List.prefix_append _ _
      · split at h
        · simp at h
        · split at h
          · unfold repIndexName at h
            split at h
            · simp at h
            · split at h
              · simp at h
              · split at h
                · simp at h
                · next st1 hst =>
                  simp only [Option.some.injEq, RepOut.ok.injEq] at h
                  rw [← h.2.2]
                  unfold addByIndexName at hst
                  simp only at hst
                  split at hst
                  · simp at hst
                  · simp only [Option.map_eq_some_iff] at hst
                    obtain ⟨t, _, rfl⟩ := hst
                    exact List.prefix_append _ _
          · unfold repName at h
            split at h
            · simp at h
            · split at h
              · simp at h
              · split at h
                · simp at h
                · next st1 hst =>
                  simp only [Option.some.injEq, RepOut.ok.injEq] at h
                  rw [← h.2.2]
                  unfold addByName at hst
                  split at hst
                  · simp at hst
                  · split at hst
                    · simp at hst
                    · simp only [Option.map_eq_some_iff] at hst
                      obtain ⟨t, _, rfl⟩ := hst
                      exact List.prefix_append _ _

theorem parseHeaders_mono (fuel : Nat) : ∀ st L total c st', parseHeaders fuel st L total c = some (.ok st') →
    st.headers <+: st'.headers := by
  induction fuel with
  | zero =>
    intro st L total c st' h
    unfold parseHeaders at h
    split at h
    · simp at h; rw [h]; exact List.prefix_refl _
    · simp at h
  | succ fuel ih =>
    intro st L total c st' h
    unfold parseHeaders at h
    split at h
    · simp at h; rw [h]; exact List.prefix_refl _
    · simp only at h
      split at h
      · simp at h
      · simp at h
      · next hp => exact (addHeaders_mono _ _ _ _ _ _ hp).trans (ih _ _ _ _ _ h)

/-- An indexed field: what the tables hold under its number. -/
theorem parseRep_indexed (st : HState) (i : Nat) (hi : i < 2 ^ 31) (c : Cursor) (hc : NE c) (rest : Bytes) (hrest : rest ≠ [])
    (hf : c.flat = rfcInt 7 128 i ++ rest) (total : Nat) :
    ∃ c', parseRep st total (some c) = some (.ok (total + (rfcInt 7 128 i).length) (some c') (addByIndex st (dec32 i))) ∧
      NE c' ∧ c'.flat = rest ∧ (c.rest = [] → c'.rest = []) := by
  obtain ⟨x, t, u, g1, g2⟩ := head_flat hc
  obtain ⟨c', e1, e2, e3⟩ := decodeInt_spec 7 128 i (by omega) (by omega) (by decide) hi c hc rest hrest hf
  obtain ⟨t', ht'⟩ := rfcInt_head 7 128 i
  have hx : x = 128 + min i (2 ^ 7 - 1) := by rw [hf, ht'] at g2; simp at g2; exact g2.1.symm
  have hxb : 128 ≤ x % 256 := by rw [hx]; omega
  refine ⟨c', ?_, e2, e3, fun hr => decodeInt_rest 7 c c' _ _ e1 hr⟩
  unfold parseRep
  simp only [g1, e1]
  rw [if_pos hxb]

/-- A literal whose name is given by number, decoded by the branch 3998-4027. -/
theorem parseRep_litidx (st : HState) (xs : List Node) (h : Repr st.dtab xs) (ty : IndexType) (i : Nat) (v : Str) (hi : i < 2 ^ 31)
    (h0 : i ≠ 0 ∨ ty = .noIndex) (hv : okStr v)
    (c : Cursor) (hc : NE c) (rest : Bytes) (hrest : rest ≠ []) (hf : c.flat = rfcInt (prefixOf ty) (pattern ty) i ++ v.wire ++ rest)
    (total : Nat) :
    ∃ c' t' xs', parseRep st total (some c) = some (.ok (total + (rfcInt (prefixOf ty) (pattern ty) i ++ v.wire).length) (some c')
        ⟨t', st.headers ++ [((tableEntry st.dtab (dec32 i)).1, v.bytes)]⟩) ∧
      NE c' ∧ c'.flat = rest ∧ Repr t' xs' ∧ t'.limit = st.dtab.limit ∧
      ents xs' = (if ty = .update then rfcInsert st.dtab.limit (ents xs) ((tableEntry st.dtab (dec32 i)).1, v.bytes) else ents xs) ∧
      (c.rest = [] → c'.rest = []) := by
  obtain ⟨x, t, u, g1, g2⟩ := head_flat hc
  have hpat : pattern ty % 2 ^ prefixOf ty = 0 := by cases ty <;> decide
  have hpre : 0 < prefixOf ty ∧ prefixOf ty ≤ 7 := by cases ty <;> decide
  have hlp : litPrefix ty = prefixOf ty := by cases ty <;> rfl
  simp only [List.append_assoc] at hf
  obtain ⟨c1, e1, e2, e3⟩ := decodeInt_spec (prefixOf ty) (pattern ty) i hpre.1 hpre.2 hpat hi c hc (v.wire ++ rest)
    (by simp [hrest]) hf
  obtain ⟨c2, u2, f1, f2, f3, f4⟩ := stringHead_spec v hv c1 e2 rest hrest e3
  have hval := value_spec v hv c2 f2 rest hrest f3
  obtain ⟨c3, k1, k2, k3⟩ := adv_spec c2 f2 (body v) rest hrest f3
  obtain ⟨t', xs', m1, m2, m3, m4⟩ := maybeAdd_spec st.dtab xs h ty (tableEntry st.dtab (dec32 i)).1 v.bytes
  obtain ⟨tt, ht'⟩ := rfcInt_head (prefixOf ty) (pattern ty) i
  have hx : x = pattern ty + min i (2 ^ prefixOf ty - 1) := by rw [hf, ht'] at g2; simp at g2; exact g2.1.symm
  have hfacts : ¬ 128 ≤ x % 256 ∧ literalType x = some ty ∧ x % 64 ≠ 0 := by
    rw [hx]
    by_cases hi0 : i = 0
    · subst hi0
      rcases h0 with h0 | h0
      · exact absurd rfl h0
      · subst h0; exact ⟨by decide, by decide, by decide⟩
    · exact lit_facts ty _ (by cases ty <;> simp [prefixOf] <;> omega)
  obtain ⟨q1, q2, q3⟩ := hfacts
  refine ⟨c3, t', xs', ?_, k2, k3, m2, m3, m4, ?_⟩
  · unfold parseRep
    simp only [g1]
    rw [if_neg q1, q2]
    simp only [ne_eq, q3, not_false_eq_true, if_true]
    unfold repIndexName
    rw [hlp, e1]
    simp only [f1]
    unfold addByIndexName
    simp only [hval, m1, Option.map_some, k1]
    have hlen : total + (rfcInt (prefixOf ty) (pattern ty) i).length + u2 + (body v).length =
        total + (rfcInt (prefixOf ty) (pattern ty) i ++ v.wire).length := by
      rw [List.length_append]; omega
    rw [hlen]
  · intro hr0
    have r1 := decodeInt_rest _ _ _ _ _ e1 hr0
    have r2 := stringHead_rest _ _ _ _ _ f1 r1
    exact advance_rest c2 c3 _ k1 r2

/-- A dynamic table size update. -/
theorem parseRep_size (st : HState) (n : Nat) (c : Cursor) (hc : NE c) (rest : Bytes) (hf : c.flat = rfcInt 5 32 n ++ rest)
    (total : Nat) : parseRep st total (some c) = some .error := by
  obtain ⟨x, t, u, g1, g2⟩ := head_flat hc
  obtain ⟨t', ht'⟩ := rfcInt_head 5 32 n
  have hx : x = 32 + min n (2 ^ 5 - 1) := by rw [hf, ht'] at g2; simp at g2; exact g2.1.symm
  unfold parseRep
  simp only [g1]
  have hlt : literalType x = none := by
    unfold literalType
    rw [if_neg (by omega), if_neg (by omega), if_neg (by omega)]
  rw [if_neg (by omega), hlt]

theorem tableEntry_none (t : DTab) (xs : List Node) (h : Repr t xs) (hx : xs.length < 2 ^ 31) (i : Nat) (hi : i < 2 ^ 31)
    (he : rfcLookup (ents xs) i = none) : tableEntry t (dec32 i) = ([], []) := by
  unfold rfcLookup at he
  split at he
  · next h0 =>
    subst h0
    have hd : dec32 0 = 2 ^ 32 - 1 := by decide
    rw [hd]
    unfold tableEntry
    rw [if_neg (by decide)]
    have e1 : 2 ^ 32 - 1 = staticLen + (2 ^ 32 - 1 - 61) := by decide
    rw [e1, lookup_repr t xs h, List.getElem?_eq_none_iff.2 (by simp only [ents, List.length_map]; omega)]
    rfl
  · next h0 =>
    have hd : dec32 i = i - 1 := by unfold dec32; omega
    rw [hd]
    have hge : 61 ≤ i - 1 := by
      rw [List.getElem?_eq_none_iff, List.length_append, rfcStatic_length] at he
      omega
    rw [List.getElem?_append_right (by rw [rfcStatic_length]; omega), rfcStatic_length] at he
    unfold tableEntry
    rw [if_neg (by unfold staticLen; omega)]
    have hl := lookup_repr t xs h (i - 1 - 61)
    have e1 : staticLen + (i - 1 - 61) = i - 1 := by unfold staticLen; omega
    rw [e1, he] at hl
    rw [hl]
    rfl

end Fly.Hpack
