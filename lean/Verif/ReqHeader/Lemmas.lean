import Verif.ReqHeader.Spec
set_option linter.all false

namespace Fly.ReqHeader
open Req (tchar vchar)

theorem lineError_skip (x more : Bytes) (h10 : 10 ∉ x) (h0 : 0 ∉ x) : lineError (x ++ 10 :: more) = .bad more := by
  induction x with
  | nil => simp [lineError]
  | cons c x ih =>
    simp only [List.mem_cons, not_or] at h10 h0
    simp only [List.cons_append, lineError]
    rw [if_neg (by simp; omega), if_neg (by simp; omega)]
    exact ih h10.2 h0.2

theorem ows_iff (c : Nat) : ows c = true ↔ Blank c := by simp [ows, Blank]
theorem fieldByte_iff (c : Nat) : fieldByte c = true ↔ ValueByte c := by simp [fieldByte, ValueByte, vchar]; omega
theorem tchar_iff (c : Nat) : tchar c = true ↔ 33 ≤ c ∧ c ≤ 126 ∧ c ≠ 59 := by
  simp [tchar, Req.numeral, Req.alpha, vchar]; omega

/-! ### What a state finds -/

theorem stCR_sound (n v x more : Bytes) (h10 : 10 ∉ x) (h0 : 0 ∉ x) :
    stCR n v (x ++ 10 :: more) = .bad more ∨ (x = [] ∧ stCR n v (x ++ 10 :: more) = .ok n v more) := by
  cases x with
  | nil => right; exact ⟨rfl, by simp [stCR]⟩
  | cons c x =>
    left
    have := lineError_skip (c :: x) more h10 h0
    simp only [List.mem_cons, not_or] at h10 h0
    simp only [List.cons_append, stCR]
    rw [if_neg (by simp; omega), if_neg (by simp; omega)]
    exact this

theorem stValue_sound (n more : Bytes) : ∀ (x v : Bytes), 10 ∉ x → 0 ∉ x →
    stValue n v (x ++ 10 :: more) = .bad more ∨ ∃ w cr, x = w ++ cr ∧ (∀ c ∈ w, ValueByte c) ∧ (cr = [13] ∨ cr = []) ∧
      stValue n v (x ++ 10 :: more) = .ok n (v ++ w) more := by
  intro x
  induction x with
  | nil => intro v _ _; right; exact ⟨[], [], rfl, by simp, by simp, by simp [stValue]⟩
  | cons c x ih =>
    intro v h10 h0
    have hle := lineError_skip (c :: x) more h10 h0
    simp only [List.mem_cons, not_or] at h10 h0
    simp only [List.cons_append] at hle ⊢
    rw [stValue]
    by_cases hc : c = 13
    · subst hc
      rw [if_pos (by decide)]
      rcases stCR_sound n v x more h10.2 h0.2 with h | ⟨hx, h⟩
      · exact Or.inl h
      · right; exact ⟨[], [13], by rw [hx]; rfl, by simp, by simp, by rw [h]; simp⟩
    · rw [if_neg (by simpa using hc), if_neg (by simp; omega), if_neg (by simp; omega)]
      by_cases hb : fieldByte c = true
      · rw [if_pos hb]
        rcases ih (v ++ [c]) h10.2 h0.2 with h | ⟨w, cr, e1, e2, e3, e4⟩
        · exact Or.inl h
        · right
          refine ⟨c :: w, cr, by rw [e1]; rfl, ?_, e3, by rw [e4]; simp⟩
          intro y hy
          rcases List.mem_cons.1 hy with rfl | hy
          · exact (fieldByte_iff y).1 hb
          · exact e2 y hy
      · rw [if_neg hb]; exact Or.inl hle

theorem stOws_sound (n more : Bytes) : ∀ (x : Bytes), 10 ∉ x → 0 ∉ x →
    stOws n (x ++ 10 :: more) = .bad more ∨ ∃ bl w cr, x = bl ++ w ++ cr ∧ (∀ c ∈ bl, Blank c) ∧ (∀ c ∈ w, ValueByte c) ∧
      (∀ c, w.head? = some c → ¬ Blank c) ∧ (cr = [13] ∨ cr = [] ∧ w ≠ []) ∧
      stOws n (x ++ 10 :: more) = .ok n w more := by
  intro x
  induction x with
  | nil =>
    intro _ _; left
    simp [stOws, ows, fieldByte, vchar, lineError]
  | cons c x ih =>
    intro h10 h0
    have hle := lineError_skip (c :: x) more h10 h0
    have h10' := h10
    have h0' := h0
    simp only [List.mem_cons, not_or] at h10 h0
    simp only [List.cons_append] at hle ⊢
    rw [stOws]
    by_cases ho : ows c = true
    · rw [if_pos ho]
      rcases ih h10.2 h0.2 with h | ⟨bl, w, cr, e1, e2, e3, e4, e5, e6⟩
      · exact Or.inl h
      · right
        refine ⟨c :: bl, w, cr, by rw [e1]; rfl, ?_, e3, e4, e5, e6⟩
        intro y hy
        rcases List.mem_cons.1 hy with rfl | hy
        · exact (ows_iff y).1 ho
        · exact e2 y hy
    · rw [if_neg ho]
      by_cases hc : c = 13
      · subst hc
        rw [if_pos (by decide)]
        rcases stCR_sound n [] x more h10.2 h0.2 with h | ⟨hx, h⟩
        · exact Or.inl h
        · right; exact ⟨[], [], [13], by rw [hx]; rfl, by simp, by simp, by simp, by simp, h⟩
      · rw [if_neg (by simpa using hc), if_neg (by simp; omega)]
        by_cases hb : fieldByte c = true
        · rw [if_pos hb]
          rcases stValue_sound n more (c :: x) [] h10' h0' with h | ⟨w, cr, e1, e2, e3, e4⟩
          · exact Or.inl h
          · right
            have hw : w ≠ [] := by
              intro e
              subst e
              rcases e3 with rfl | rfl
              · simp at e1; exact hc e1.1
              · simp at e1
            refine ⟨[], w, cr, by rw [e1]; rfl, by simp, e2, ?_, ?_, e4⟩
            · intro y hy
              cases w with
              | nil => simp at hw
              | cons a w =>
                simp at e1 hy
                rw [← hy, ← e1.1]
                exact fun hbl => ho ((ows_iff c).2 hbl)
            · rcases e3 with h | h
              · exact Or.inl h
              · exact Or.inr ⟨h, hw⟩
        · rw [if_neg hb]; exact Or.inl hle

theorem stColon_sound (n x more : Bytes) (h10 : 10 ∉ x) (h0 : 0 ∉ x) :
    stColon n (x ++ 10 :: more) = .bad more ∨ ∃ bl w cr, x = bl ++ w ++ cr ∧ bl ≠ [] ∧ (∀ c ∈ bl, Blank c) ∧
      (∀ c ∈ w, ValueByte c) ∧ (∀ c, w.head? = some c → ¬ Blank c) ∧ (cr = [13] ∨ cr = [] ∧ w ≠ []) ∧
      stColon n (x ++ 10 :: more) = .ok n w more := by
  cases x with
  | nil => left; simp [stColon, ows, lineError]
  | cons c x =>
    have hle := lineError_skip (c :: x) more h10 h0
    have hs := stOws_sound n more (c :: x) h10 h0
    simp only [List.cons_append] at hle hs ⊢
    rw [stColon]
    by_cases ho : ows c = true
    · rw [if_pos ho]
      rcases hs with h | ⟨bl, w, cr, e1, e2, e3, e4, e5, e6⟩
      · exact Or.inl h
      · right
        refine ⟨bl, w, cr, e1, ?_, e2, e3, e4, e5, e6⟩
        intro e
        subst e
        have hbl := (ows_iff c).1 ho
        cases w with
        | nil =>
          rcases e5 with h | h
          · subst h; simp at e1; unfold Blank at hbl; omega
          · simp at h
        | cons a w => simp at e1; exact e4 a rfl (by rw [← e1.1]; exact hbl)
    · rw [if_neg ho]; exact Or.inl hle

theorem stName_sound (more : Bytes) : ∀ (x n : Bytes), 10 ∉ x → 0 ∉ x →
    stName n (x ++ 10 :: more) = .bad more ∨ ∃ m bl w cr, x = m ++ [58] ++ bl ++ w ++ cr ∧ (∀ c ∈ m, NameByte c) ∧ bl ≠ [] ∧
      (∀ c ∈ bl, Blank c) ∧ (∀ c ∈ w, ValueByte c) ∧ (∀ c, w.head? = some c → ¬ Blank c) ∧ (cr = [13] ∨ cr = [] ∧ w ≠ []) ∧
      stName n (x ++ 10 :: more) = .ok (n ++ m) w more := by
  intro x
  induction x with
  | nil => intro n _ _; left; simp [stName, tchar, Req.numeral, Req.alpha, vchar, lineError]
  | cons c x ih =>
    intro n h10 h0
    have hle := lineError_skip (c :: x) more h10 h0
    simp only [List.mem_cons, not_or] at h10 h0
    simp only [List.cons_append] at hle ⊢
    rw [stName]
    by_cases hc : c = 58
    · subst hc
      rw [if_pos (by decide)]
      rcases stColon_sound n x more h10.2 h0.2 with h | ⟨bl, w, cr, e1, e2, e3, e4, e5, e6, e7⟩
      · exact Or.inl h
      · right
        exact ⟨[], bl, w, cr, by rw [e1]; simp, by simp, e2, e3, e4, e5, e6, by rw [e7]; simp⟩
    · rw [if_neg (by simpa using hc), if_neg (by simp; omega)]
      by_cases ht : tchar c = true
      · rw [if_pos ht]
        rcases ih (n ++ [c]) h10.2 h0.2 with h | ⟨m, bl, w, cr, e1, e2, e3, e4, e5, e6, e7, e8⟩
        · exact Or.inl h
        · right
          refine ⟨c :: m, bl, w, cr, by rw [e1]; rfl, ?_, e3, e4, e5, e6, e7, by rw [e8]; simp⟩
          intro y hy
          rcases List.mem_cons.1 hy with rfl | hy
          · have := (tchar_iff y).1 ht
            exact ⟨this.1, this.2.1, this.2.2, hc⟩
          · exact e2 y hy
      · rw [if_neg ht]; exact Or.inl hle

theorem parseLine_sound (x more : Bytes) (h10 : 10 ∉ x) (h0 : 0 ∉ x) (he : ¬ EndLine x) :
    parseLine (x ++ 10 :: more) = .bad more ∨ ∃ n v, FieldLine x n v ∧ parseLine (x ++ 10 :: more) = .ok n v more := by
  cases x with
  | nil => exact absurd (Or.inl rfl) he
  | cons c x =>
    have hle := lineError_skip (c :: x) more h10 h0
    have hs := stName_sound more (c :: x) [] h10 h0
    simp only [List.mem_cons, not_or] at h10 h0
    have h13 : c ≠ 13 := by intro e; subst e; exact he (Or.inr rfl)
    simp only [List.cons_append] at hle hs ⊢
    rw [parseLine]
    by_cases ht : tchar c = true
    · rw [if_pos ht]
      rcases hs with h | ⟨m, bl, w, cr, e1, e2, e3, e4, e5, e6, e7, e8⟩
      · exact Or.inl h
      · right
        exact ⟨m, w, ⟨bl, cr, e1, e2, e3, e4, e5, e6, e7⟩, by rw [e8]; simp⟩
    · rw [if_neg ht, if_neg (by simp; omega), if_neg (by simp; omega)]
      exact Or.inl hle

/-! ### What must be found -/

theorem stValue_complete (n more cr : Bytes) (hcr : cr = [13] ∨ cr = []) : ∀ (w v : Bytes), (∀ c ∈ w, ValueByte c) →
    stValue n v (w ++ (cr ++ 10 :: more)) = .ok n (v ++ w) more := by
  intro w
  induction w with
  | nil =>
    intro v _
    rcases hcr with rfl | rfl
    · simp [stValue, stCR]
    · simp [stValue]
  | cons c w ih =>
    intro v hw
    have hc := hw c (by simp)
    have : c ≠ 13 ∧ c ≠ 10 ∧ c ≠ 0 := by unfold ValueByte at hc; omega
    rw [List.cons_append, stValue, if_neg (by simpa using this.1), if_neg (by simpa using this.2.1),
      if_neg (by simpa using this.2.2), if_pos ((fieldByte_iff c).2 hc), ih (v ++ [c]) (fun y hy => hw y (by simp [hy]))]
    simp

theorem stOws_complete (n more w cr : Bytes) (hw : ∀ c ∈ w, ValueByte c) (hb : ∀ c, w.head? = some c → ¬ Blank c)
    (hcr : cr = [13] ∨ cr = [] ∧ w ≠ []) : ∀ (bl : Bytes), (∀ c ∈ bl, Blank c) →
    stOws n (bl ++ (w ++ (cr ++ 10 :: more))) = .ok n w more := by
  intro bl
  induction bl with
  | nil =>
    intro _
    cases w with
    | nil =>
      rcases hcr with rfl | ⟨_, h⟩
      · simp [stOws, ows, stCR]
      · simp at h
    | cons c w =>
      have hc := hw c (by simp)
      have hno : ¬ ows c = true := fun h => hb c rfl ((ows_iff c).1 h)
      have : c ≠ 13 ∧ c ≠ 0 := by unfold ValueByte at hc; omega
      rw [List.nil_append, List.cons_append, stOws, if_neg hno, if_neg (by simpa using this.1), if_neg (by simpa using this.2),
        if_pos ((fieldByte_iff c).2 hc)]
      have := stValue_complete n more cr (by rcases hcr with h | ⟨h, _⟩ <;> simp [h]) (c :: w) [] hw
      simpa using this
  | cons c bl ih =>
    intro h
    rw [List.cons_append, stOws, if_pos ((ows_iff c).2 (h c (by simp)))]
    exact ih fun y hy => h y (by simp [hy])

theorem stName_complete (more bl w cr : Bytes) (hbl : bl ≠ []) (hb : ∀ c ∈ bl, Blank c) (hw : ∀ c ∈ w, ValueByte c)
    (hh : ∀ c, w.head? = some c → ¬ Blank c) (hcr : cr = [13] ∨ cr = [] ∧ w ≠ []) : ∀ (m n : Bytes), (∀ c ∈ m, NameByte c) →
    stName n (m ++ 58 :: (bl ++ (w ++ (cr ++ 10 :: more)))) = .ok (n ++ m) w more := by
  intro m
  induction m with
  | nil =>
    intro n _
    have := stOws_complete n more w cr hw hh hcr bl hb
    cases bl with
    | nil => simp at hbl
    | cons c bl =>
      rw [List.nil_append, stName, if_pos (by decide), List.cons_append, stColon, if_pos ((ows_iff c).2 (hb c (by simp)))]
      rw [List.append_nil]; exact this
  | cons c m ih =>
    intro n hm
    have hc := hm c (by simp)
    have hc' := hc
    unfold NameByte at hc
    rw [List.cons_append, stName, if_neg (by simp; omega), if_neg (by simp; omega),
      if_pos ((tchar_iff c).2 ⟨hc.1, hc.2.1, hc.2.2.1⟩), ih (n ++ [c]) (fun y hy => hm y (by simp [hy]))]
    simp

theorem parseLine_complete (x n v more : Bytes) (h : FieldLine x n v) : parseLine (x ++ 10 :: more) = .ok n v more := by
  obtain ⟨bl, cr, rfl, hn, hbl, hb, hv, hh, hcr⟩ := h
  have h1 := stName_complete more bl v cr hbl hb hv hh hcr n [] hn
  have e : n ++ b!":" ++ bl ++ v ++ cr ++ 10 :: more = n ++ 58 :: (bl ++ (v ++ (cr ++ 10 :: more))) := by simp
  rw [e]
  rw [List.nil_append] at h1
  cases n with
  | nil =>
    rw [List.nil_append] at h1 ⊢
    rw [parseLine, if_pos (by decide)]
    exact h1
  | cons c n =>
    have hc := hn c (by simp)
    unfold NameByte at hc
    rw [List.cons_append] at h1 ⊢
    rw [parseLine, if_pos ((tchar_iff c).2 ⟨hc.1, hc.2.1, hc.2.2.1⟩)]
    exact h1

theorem parseLine_end (x p : Bytes) (h : EndLine x) : parseLine (x ++ 10 :: p) = .endHdr (x ++ 10 :: p) := by
  rcases h with rfl | h
  · rfl
  · cases x with
    | nil => simp at h
    | cons c x => simp at h; subst h; rfl

theorem addRequest_cells (fs : List (Bytes × Bytes)) (h : Header.HList) (n v : Bytes) :
    (⟨(Header.addRequest h n v).items ++ (cells fs).items, (Header.addRequest h n v).count + fs.length⟩ : Header.HList) =
      ⟨h.items ++ (cells ((n, v) :: fs)).items, h.count + ((n, v) :: fs).length⟩ := by
  simp [Header.addRequest, cells]; omega

theorem parseHeader_lines (e rest : Bytes) (he : EndLine e) (h10 : 10 ∉ e) : ∀ (xs : List Bytes) (fs : List (Bytes × Bytes)),
    Fields xs fs → (∀ x ∈ xs, 10 ∉ x ∧ 0 ∉ x ∧ ¬ EndLine x) → ∀ (f : Nat) (h : Header.HList), xs.length < f →
    parseHeader f h (lines xs ++ (e ++ 10 :: rest)) =
      .ok ⟨h.items ++ (cells fs).items, h.count + fs.length⟩ ((e ++ 10 :: rest).drop 2) := by
  intro xs fs hF
  induction hF with
  | nil =>
    intro _ f h hf
    cases f with
    | zero => simp at hf
    | succ f =>
      rw [parseHeader]
      have : lines [] ++ (e ++ 10 :: rest) = e ++ 10 :: rest := rfl
      rw [this, parseLine_end e rest he]
      simp [cells]
  | field x n v xs fs hl hF ih =>
    intro hx f h hf
    cases f with
    | zero => simp at hf
    | succ f =>
      have e1 : lines (x :: xs) ++ (e ++ 10 :: rest) = x ++ 10 :: (lines xs ++ (e ++ 10 :: rest)) := by simp [lines]
      rw [e1, parseHeader, parseLine_complete x n v _ hl]
      show parseHeader f _ _ = _
      rw [ih (fun y hy => hx y (by simp [hy])) f _ (by simp at hf; omega), addRequest_cells]
  | skip x xs fs hl hF ih =>
    intro hx f h hf
    cases f with
    | zero => simp at hf
    | succ f =>
      have e1 : lines (x :: xs) ++ (e ++ 10 :: rest) = x ++ 10 :: (lines xs ++ (e ++ 10 :: rest)) := by simp [lines]
      obtain ⟨a, b, c⟩ := hx x (by simp)
      have hb : parseLine (x ++ 10 :: (lines xs ++ (e ++ 10 :: rest))) = .bad (lines xs ++ (e ++ 10 :: rest)) := by
        rcases parseLine_sound x _ a b c with h | ⟨n, v, h, _⟩
        · exact h
        · exact absurd h (hl n v)
      rw [e1, parseHeader, hb]
      show parseHeader f _ _ = _
      exact ih (fun y hy => hx y (by simp [hy])) f _ (by simp at hf; omega)

end Fly.ReqHeader
