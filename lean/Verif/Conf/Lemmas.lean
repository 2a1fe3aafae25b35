import Verif.Conf.Model
import Verif.Conf.Spec

set_option linter.all false

namespace Fly.Conf

/-! ## Characters -/

theorem blank_iff (c : Nat) : isBlank c = true ↔ BlankChar c := by
  simp [isBlank, BlankChar]

theorem name_iff (c : Nat) : nameC c = true ↔ NameChar c := by
  simp [nameC, isAlpha, NameChar, or_assoc]

theorem value_iff (c : Nat) : valueC c = true ↔ ValueChar c := by
  simp [valueC, isAlpha, isDigit, ValueChar, or_assoc]

theorem name_not_blank {c : Nat} (h : nameC c = true) : isBlank c = false ∧ c ≠ 61 ∧ c ≠ 35 ∧ c ≠ 13 ∧ c ≠ 10 := by
  have h' := (name_iff c).1 h
  unfold NameChar at h'
  have hb : isBlank c = false := by
    cases hb : isBlank c with
    | false => rfl
    | true => have := (blank_iff c).1 hb; unfold BlankChar at this; omega
  refine ⟨hb, ?_⟩
  omega

theorem value_not_blank {c : Nat} (h : valueC c = true) : isBlank c = false ∧ isEol c = false := by
  have h' := (value_iff c).1 h
  unfold ValueChar at h'
  constructor
  · cases hb : isBlank c with
    | false => rfl
    | true => have := (blank_iff c).1 hb; unfold BlankChar at this; omega
  · cases hb : isEol c with
    | false => rfl
    | true => simp [isEol] at hb; omega

theorem blank_not_value {c : Nat} (h : isBlank c = true) : valueC c = false := by
  cases hv : valueC c with
  | false => rfl
  | true => have := (value_not_blank hv).1; simp [h] at this

theorem eol_not_value {c : Nat} (h : isEol c = true) : valueC c = false := by
  cases hv : valueC c with
  | false => rfl
  | true => have := (value_not_blank hv).2; simp [h] at this

/-! ## The scanner on well-formed pieces -/

theorem sValue_run (last : Bool) (n : Bytes) : ∀ (m : Bytes), (∀ c ∈ m, valueC c = true) → ∀ v s,
    sValue last n v (m ++ s) = sValue last n (v ++ m) s := by
  intro m
  induction m with
  | nil => intro _ v s; simp
  | cons c m ih =>
    intro h v s
    have hc := h c (by simp)
    rw [List.cons_append, sValue, if_pos hc, ih (fun x hx => h x (by simp [hx]))]
    simp

theorem sValue_end (last : Bool) (n v : Bytes) (c : Nat) (s : Bytes) (h : isBlank c = true ∨ isEol c = true) :
    sValue last n v (c :: s) = .pair n v := by
  rcases h with h | h
  · simp [sValue, blank_not_value h, h]
  · simp [sValue, eol_not_value h, h]

theorem sEqual_run (last : Bool) (n : Bytes) : ∀ (w : Bytes), (∀ c ∈ w, isBlank c = true) → ∀ s,
    sEqual last n (w ++ s) = sEqual last n s := by
  intro w
  induction w with
  | nil => intro _ s; simp
  | cons c w ih =>
    intro h s
    rw [List.cons_append, sEqual, if_pos (h c (by simp)), ih (fun x hx => h x (by simp [hx]))]

theorem sNameEnd_run (last : Bool) (n : Bytes) : ∀ (w : Bytes), (∀ c ∈ w, isBlank c = true) → ∀ s,
    sNameEnd last n (w ++ s) = sNameEnd last n s := by
  intro w
  induction w with
  | nil => intro _ s; simp
  | cons c w ih =>
    intro h s
    rw [List.cons_append, sNameEnd, if_pos (h c (by simp)), ih (fun x hx => h x (by simp [hx]))]

theorem sName_run (last : Bool) : ∀ (m : Bytes), (∀ c ∈ m, nameC c = true) → ∀ n s,
    sName last n (m ++ s) = sName last (n ++ m) s := by
  intro m
  induction m with
  | nil => intro _ v s; simp
  | cons c m ih =>
    intro h n s
    have hc := h c (by simp)
    have hb := name_not_blank hc
    rw [List.cons_append, sName]
    simp only [hb.1, hc, if_true, Bool.false_eq_true, if_false, beq_iff_eq, hb.2.1]
    rw [ih (fun x hx => h x (by simp [hx]))]
    simp

/-- Blanks and carriage returns before the first character. -/
theorem sInit_run (last : Bool) : ∀ (w : Bytes), (∀ c ∈ w, isBlank c = true ∨ c = 13) → ∀ s,
    sInit last (w ++ s) = sInit last s := by
  intro w
  induction w with
  | nil => intro _ s; simp
  | cons c w ih =>
    intro h s
    rw [List.cons_append, sInit]
    have := ih (fun x hx => h x (by simp [hx])) s
    rcases h c (by simp) with hc | hc
    · rw [if_pos hc]; exact this
    · subst hc
      simpa [isBlank, nameC, isAlpha] using this

/-- The shape `w1 name w2 = w3 value r`. -/
theorem sInit_item (last : Bool) (w1 n w2 w3 v : Bytes) (c : Nat) (r : Bytes)
    (h1 : ∀ c ∈ w1, isBlank c = true ∨ c = 13) (hn0 : n ≠ []) (hn : ∀ c ∈ n, nameC c = true)
    (h2 : ∀ c ∈ w2, isBlank c = true) (h3 : ∀ c ∈ w3, isBlank c = true)
    (hv0 : v ≠ []) (hv : ∀ c ∈ v, valueC c = true) (hc : isBlank c = true ∨ isEol c = true) :
    sInit last (w1 ++ n ++ w2 ++ 61 :: (w3 ++ v ++ c :: r)) = .pair n v := by
  have e : w1 ++ n ++ w2 ++ 61 :: (w3 ++ v ++ c :: r) = w1 ++ (n ++ (w2 ++ 61 :: (w3 ++ (v ++ c :: r)))) := by simp
  rw [e, sInit_run last w1 h1]
  have hE : sEqual last n (w3 ++ (v ++ c :: r)) = .pair n v := by
    rw [sEqual_run last n w3 h3]
    cases v with
    | nil => exact absurd rfl hv0
    | cons a v' =>
      have ha := hv a (by simp)
      rw [List.cons_append, sEqual]
      rw [if_neg (by simp [(value_not_blank ha).1]), if_pos ha, ← List.cons_append, sValue_run last n _ hv]
      exact sValue_end last n _ c r hc
  have hN : sName last n (w2 ++ 61 :: (w3 ++ (v ++ c :: r))) = .pair n v := by
    cases w2 with
    | nil => simpa [sName, isBlank] using hE
    | cons b w2' =>
      rw [List.cons_append, sName, if_pos (h2 b (by simp)), ← List.cons_append, sNameEnd_run last n _ h2]
      simpa [sNameEnd, isBlank] using hE
  cases n with
  | nil => exact absurd rfl hn0
  | cons a n' =>
    have ha := hn a (by simp)
    rw [List.cons_append, sInit, if_neg (by simp [(name_not_blank ha).1]), if_pos ha, ← List.cons_append,
      sName_run last _ hn]
    exact hN

/-! ## What the scanner's answers mean -/

theorem sValue_inv (last : Bool) (n : Bytes) : ∀ (s v : Bytes) (n' v' : Bytes), sValue last n v s = .pair n' v' →
    n' = n ∧ ∃ m c r, s = m ++ c :: r ∧ (∀ x ∈ m, valueC x = true) ∧ (isBlank c = true ∨ isEol c = true) ∧ v' = v ++ m := by
  intro s
  induction s with
  | nil => intro v n' v' h; simp [sValue, atEnd] at h; split at h <;> cases h
  | cons c s ih =>
    intro v n' v' h
    rw [sValue] at h
    by_cases hc : valueC c = true
    · rw [if_pos hc] at h
      obtain ⟨e1, m, d, r, e2, hm, hd, e3⟩ := ih _ _ _ h
      refine ⟨e1, c :: m, d, r, by simp [e2], ?_, hd, by simp [e3]⟩
      intro x hx
      rcases List.mem_cons.1 hx with hx | hx
      · rw [hx]; exact hc
      · exact hm x hx
    · rw [if_neg hc] at h
      by_cases hb : isBlank c = true
      · rw [if_pos hb] at h
        injection h with e1 e2
        exact ⟨e1.symm, [], c, s, rfl, by simp, Or.inl hb, by simp [e2]⟩
      · rw [if_neg hb] at h
        by_cases he : isEol c = true
        · rw [if_pos he] at h
          injection h with e1 e2
          exact ⟨e1.symm, [], c, s, rfl, by simp, Or.inr he, by simp [e2]⟩
        · rw [if_neg he] at h; cases h

theorem sEqual_inv (last : Bool) (n : Bytes) : ∀ (s : Bytes) (n' v' : Bytes), sEqual last n s = .pair n' v' →
    n' = n ∧ ∃ w c r, s = w ++ v' ++ c :: r ∧ (∀ x ∈ w, isBlank x = true) ∧ v' ≠ [] ∧ (∀ x ∈ v', valueC x = true) ∧
      (isBlank c = true ∨ isEol c = true) := by
  intro s
  induction s with
  | nil => intro n' v' h; simp [sEqual, atEnd] at h; split at h <;> cases h
  | cons c s ih =>
    intro n' v' h
    rw [sEqual] at h
    by_cases hb : isBlank c = true
    · rw [if_pos hb] at h
      obtain ⟨e1, w, d, r, e2, hw, hv⟩ := ih _ _ h
      refine ⟨e1, c :: w, d, r, by simp [e2], ?_, hv⟩
      intro x hx
      rcases List.mem_cons.1 hx with hx | hx
      · rw [hx]; exact hb
      · exact hw x hx
    · rw [if_neg hb] at h
      by_cases hc : valueC c = true
      · rw [if_pos hc] at h
        obtain ⟨e1, m, d, r, e2, hm, hd, e3⟩ := sValue_inv last n _ _ _ _ h
        simp only [List.nil_append] at e3
        subst e3
        refine ⟨e1, [], d, r, by simpa using e2, by simp, ?_, hm, hd⟩
        intro e
        subst e
        simp only [List.nil_append, List.cons.injEq] at e2
        have := e2.1; subst this
        rcases hd with hd | hd
        · exact hb hd
        · have := eol_not_value hd; simp [hc] at this
      · rw [if_neg hc] at h; cases h

theorem sNameEnd_inv (last : Bool) (n : Bytes) : ∀ (s : Bytes) (n' v' : Bytes), sNameEnd last n s = .pair n' v' →
    ∃ w t, s = w ++ 61 :: t ∧ (∀ x ∈ w, isBlank x = true) ∧ sEqual last n t = .pair n' v' := by
  intro s
  induction s with
  | nil => intro n' v' h; simp [sNameEnd, atEnd] at h; split at h <;> cases h
  | cons c s ih =>
    intro n' v' h
    rw [sNameEnd] at h
    by_cases hb : isBlank c = true
    · rw [if_pos hb] at h
      obtain ⟨w, t, e2, hw, hv⟩ := ih _ _ h
      refine ⟨c :: w, t, by simp [e2], ?_, hv⟩
      intro x hx
      rcases List.mem_cons.1 hx with hx | hx
      · rw [hx]; exact hb
      · exact hw x hx
    · rw [if_neg hb] at h
      by_cases hc : (c == 61) = true
      · rw [if_pos hc] at h
        have := beq_iff_eq.1 hc; subst this
        exact ⟨[], s, rfl, by simp, h⟩
      · rw [if_neg hc] at h; cases h

theorem sName_inv (last : Bool) : ∀ (s n n' v' : Bytes), sName last n s = .pair n' v' →
    ∃ m w t, s = m ++ w ++ 61 :: t ∧ (∀ x ∈ m, nameC x = true) ∧ (∀ x ∈ w, isBlank x = true) ∧
      sEqual last (n ++ m) t = .pair n' v' := by
  intro s
  induction s with
  | nil => intro n n' v' h; simp [sName, atEnd] at h; split at h <;> cases h
  | cons c s ih =>
    intro n n' v' h
    rw [sName] at h
    by_cases hb : isBlank c = true
    · rw [if_pos hb] at h
      obtain ⟨w, t, e2, hw, hv⟩ := sNameEnd_inv last n _ _ _ h
      exact ⟨[], w, t, by simpa using e2, by simp, hw, by simpa using hv⟩
    · rw [if_neg hb] at h
      by_cases hc : (c == 61) = true
      · rw [if_pos hc] at h
        have := beq_iff_eq.1 hc; subst this
        exact ⟨[], [], s, rfl, by simp, by simp, by simpa using h⟩
      · rw [if_neg hc] at h
        by_cases hn : nameC c = true
        · rw [if_pos hn] at h
          obtain ⟨m, w, t, e2, hm, hw, hv⟩ := ih _ _ _ h
          refine ⟨c :: m, w, t, by simp [e2], ?_, hw, by simpa using hv⟩
          intro x hx
          rcases List.mem_cons.1 hx with hx | hx
          · rw [hx]; exact hn
          · exact hm x hx
        · rw [if_neg hn] at h; cases h

theorem sInit_inv (last : Bool) : ∀ (s n v : Bytes), sInit last s = .pair n v →
    ∃ w1 w2 w3 c r, s = w1 ++ n ++ w2 ++ 61 :: (w3 ++ v ++ c :: r) ∧
      (∀ x ∈ w1, isBlank x = true ∨ x = 13) ∧ n ≠ [] ∧ (∀ x ∈ n, nameC x = true) ∧ (∀ x ∈ w2, isBlank x = true) ∧
      (∀ x ∈ w3, isBlank x = true) ∧ v ≠ [] ∧ (∀ x ∈ v, valueC x = true) ∧ (isBlank c = true ∨ isEol c = true) := by
  intro s
  induction s with
  | nil => intro n v h; simp [sInit, atEnd] at h; split at h <;> cases h
  | cons a s ih =>
    intro n v h
    rw [sInit] at h
    have step : (isBlank a = true ∨ a = 13) → sInit last s = .pair n v →
        ∃ w1 w2 w3 c r, a :: s = w1 ++ n ++ w2 ++ 61 :: (w3 ++ v ++ c :: r) ∧
          (∀ x ∈ w1, isBlank x = true ∨ x = 13) ∧ n ≠ [] ∧ (∀ x ∈ n, nameC x = true) ∧ (∀ x ∈ w2, isBlank x = true) ∧
          (∀ x ∈ w3, isBlank x = true) ∧ v ≠ [] ∧ (∀ x ∈ v, valueC x = true) ∧ (isBlank c = true ∨ isEol c = true) := by
      intro ha hs
      obtain ⟨w1, w2, w3, c, r, e, h1, hrest⟩ := ih n v hs
      refine ⟨a :: w1, w2, w3, c, r, by simp [e], ?_, hrest⟩
      intro x hx
      rcases List.mem_cons.1 hx with hx | hx
      · rw [hx]; exact ha
      · exact h1 x hx
    by_cases hb : isBlank a = true
    · rw [if_pos hb] at h; exact step (Or.inl hb) h
    · rw [if_neg hb] at h
      by_cases hn : nameC a = true
      · rw [if_pos hn] at h
        obtain ⟨m, w2, t, e2, hm, hw, hv⟩ := sName_inv last _ _ _ _ h
        obtain ⟨e1, w3, c, r, e3, h3, hv0, hvv, hc⟩ := sEqual_inv last _ _ _ _ hv
        simp only [List.nil_append] at e1
        subst e1
        refine ⟨[], w2, w3, c, r, by rw [e2, e3]; simp, by simp, ?_, hm, hw, h3, hv0, hvv, hc⟩
        intro e
        subst e
        cases w2 with
        | nil => simp at e2; have := e2.1; subst this; simp [nameC, isAlpha] at hn
        | cons b w2 => simp at e2; have := e2.1; subst this; exact hb (hw _ (by simp))
      · rw [if_neg hn] at h
        split at h
        · cases h
        · split at h
          · rename_i h13
            exact step (Or.inr (by simpa using h13)) h
          · split at h <;> cases h

theorem sInit_skip (last : Bool) : ∀ (s : Bytes), sInit last s = .skip ↔
    ∃ w c r, s = w ++ c :: r ∧ (∀ x ∈ w, isBlank x = true ∨ x = 13) ∧ (c = 35 ∨ c = 10) := by
  intro s
  constructor
  · induction s with
    | nil => intro h; simp [sInit, atEnd] at h; split at h <;> cases h
    | cons a s ih =>
      intro h
      have step : (isBlank a = true ∨ a = 13) → sInit last s = .skip →
          ∃ w c r, a :: s = w ++ c :: r ∧ (∀ x ∈ w, isBlank x = true ∨ x = 13) ∧ (c = 35 ∨ c = 10) := by
        intro ha hs
        obtain ⟨w, c, r, e, hw, hc⟩ := ih hs
        refine ⟨a :: w, c, r, by simp [e], ?_, hc⟩
        intro x hx
        rcases List.mem_cons.1 hx with hx | hx
        · rw [hx]; exact ha
        · exact hw x hx
      rw [sInit] at h
      by_cases hb : isBlank a = true
      · rw [if_pos hb] at h; exact step (Or.inl hb) h
      · rw [if_neg hb] at h
        by_cases hn : nameC a = true
        · rw [if_pos hn] at h
          exfalso
          have key : ∀ (t n : Bytes), sName last n t ≠ .skip := by
            have kV : ∀ (t n v : Bytes), sValue last n v t ≠ .skip := by
              intro t
              induction t with
              | nil => intro n v h; simp [sValue, atEnd] at h; split at h <;> cases h
              | cons c t ih =>
                intro n v h
                rw [sValue] at h
                split at h
                · exact ih _ _ h
                · split at h
                  · cases h
                  · split at h <;> cases h
            have kE : ∀ (t n : Bytes), sEqual last n t ≠ .skip := by
              intro t
              induction t with
              | nil => intro n h; simp [sEqual, atEnd] at h; split at h <;> cases h
              | cons c t ih =>
                intro n h
                rw [sEqual] at h
                split at h
                · exact ih _ h
                · split at h
                  · exact kV _ _ _ h
                  · cases h
            have kN : ∀ (t n : Bytes), sNameEnd last n t ≠ .skip := by
              intro t
              induction t with
              | nil => intro n h; simp [sNameEnd, atEnd] at h; split at h <;> cases h
              | cons c t ih =>
                intro n h
                rw [sNameEnd] at h
                split at h
                · exact ih _ h
                · split at h
                  · exact kE _ _ h
                  · cases h
            intro t
            induction t with
            | nil => intro n h; simp [sName, atEnd] at h; split at h <;> cases h
            | cons c t ih =>
              intro n h
              rw [sName] at h
              split at h
              · exact kN _ _ h
              · split at h
                · exact kE _ _ h
                · split at h
                  · exact ih _ h
                  · cases h
          exact key _ _ h
        · rw [if_neg hn] at h
          split at h
          · rename_i h35
            exact ⟨[], a, s, rfl, by simp, Or.inl (by simpa using h35)⟩
          · split at h
            · rename_i h13
              exact step (Or.inr (by simpa using h13)) h
            · split at h
              · rename_i h10
                exact ⟨[], a, s, rfl, by simp, Or.inr (by simpa using h10)⟩
              · cases h
  · rintro ⟨w, c, r, e, hw, hc⟩
    rw [e, sInit_run last w hw]
    rcases hc with rfl | rfl <;> simp [sInit, isBlank, nameC, isAlpha]

/-- Without a full buffer the loop is never left at the last byte. -/
theorem sInit_notfull : ∀ (s : Bytes), sInit false s ≠ .full := by
  have kV : ∀ (t n v : Bytes), sValue false n v t ≠ .full := by
    intro t
    induction t with
    | nil => intro n v h; simp [sValue, atEnd] at h
    | cons c t ih =>
      intro n v h
      rw [sValue] at h
      split at h
      · exact ih _ _ h
      · split at h
        · cases h
        · split at h <;> cases h
  have kE : ∀ (t n : Bytes), sEqual false n t ≠ .full := by
    intro t
    induction t with
    | nil => intro n h; simp [sEqual, atEnd] at h
    | cons c t ih =>
      intro n h
      rw [sEqual] at h
      split at h
      · exact ih _ h
      · split at h
        · exact kV _ _ _ h
        · cases h
  have kN : ∀ (t n : Bytes), sNameEnd false n t ≠ .full := by
    intro t
    induction t with
    | nil => intro n h; simp [sNameEnd, atEnd] at h
    | cons c t ih =>
      intro n h
      rw [sNameEnd] at h
      split at h
      · exact ih _ h
      · split at h
        · exact kE _ _ h
        · cases h
  have key : ∀ (t n : Bytes), sName false n t ≠ .full := by
    intro t
    induction t with
    | nil => intro n h; simp [sName, atEnd] at h
    | cons c t ih =>
      intro n h
      rw [sName] at h
      split at h
      · exact kN _ _ h
      · split at h
        · exact kE _ _ h
        · split at h
          · exact ih _ h
          · cases h
  intro s
  induction s with
  | nil => intro h; simp [sInit, atEnd] at h
  | cons c s ih =>
    intro h
    rw [sInit] at h
    split at h
    · exact ih h
    · split at h
      · exact key _ _ h
      · split at h
        · cases h
        · split at h
          · exact ih h
          · split at h <;> cases h

/-! ## The file loop -/

theorem fgets_line : ∀ (body : Bytes) (room : Nat) (rest : Bytes), 10 ∉ body → body.length < room →
    fgets room (body ++ 10 :: rest) = (body ++ [10], rest) := by
  intro body
  induction body with
  | nil =>
    intro room rest _ h
    obtain ⟨r, rfl⟩ : ∃ r, room = r + 1 := ⟨room - 1, by simp at h; omega⟩
    simp [fgets]
  | cons c body ih =>
    intro room rest hn h
    obtain ⟨r, rfl⟩ : ∃ r, room = r + 1 := ⟨room - 1, by simp at h; omega⟩
    have hc : c ≠ 10 := by intro e; apply hn; simp [e]
    rw [List.cons_append, fgets]
    simp only [beq_iff_eq, hc, if_false]
    rw [ih r rest (by intro e; apply hn; simp [e]) (by simp at h; omega)]
    simp

/-- A chunk cut at the end of the buffer. -/
theorem fgets_full : ∀ (body : Bytes) (rest : Bytes), 10 ∉ body →
    fgets body.length (body ++ rest) = (body, rest) := by
  intro body
  induction body with
  | nil => intro rest _; simp [fgets]
  | cons c body ih =>
    intro rest hn
    have hc : c ≠ 10 := by intro e; apply hn; simp [e]
    rw [List.cons_append, List.length_cons, fgets]
    simp only [beq_iff_eq, hc, if_false]
    rw [ih rest (by intro e; apply hn; simp [e])]

/-- The last chunk, without a line feed. -/
theorem fgets_last : ∀ (body : Bytes) (room : Nat), 10 ∉ body → body.length ≤ room →
    fgets room body = (body, []) := by
  intro body
  induction body with
  | nil => intro room _ _; cases room <;> simp [fgets]
  | cons c body ih =>
    intro room hn h
    obtain ⟨r, rfl⟩ : ∃ r, room = r + 1 := ⟨room - 1, by simp at h; omega⟩
    have hc : c ≠ 10 := by intro e; apply hn; simp [e]
    rw [fgets]
    simp only [beq_iff_eq, hc, if_false]
    rw [ih r (by intro e; apply hn; simp [e]) (by simp at h; omega)]

theorem fgets_len : ∀ (room : Nat) (s : Bytes), (fgets room s).1 ++ (fgets room s).2 = s := by
  intro room
  induction room with
  | zero => intro s; simp [fgets]
  | succ r ih =>
    intro s
    cases s with
    | nil => simp [fgets]
    | cons c s =>
      rw [fgets]
      split
      · simp
      · simp [ih s]

theorem fgets_lt (c : Nat) (s : Bytes) : (fgets 1023 (c :: s)).2.length ≤ s.length := by
  rw [show (1023 : Nat) = 1022 + 1 from rfl, fgets]
  split
  · simp
  · have := congrArg List.length (fgets_len 1022 s)
    simp only [List.length_append] at this
    simp only
    omega

theorem loop_fuel : ∀ (k : Nat) (e : Env) (s : Bytes), s.length < k → loop k e s = loop (s.length + 1) e s := by
  intro k
  induction k using Nat.strongRecOn with
  | ind k ih =>
    intro e s h
    cases k with
    | zero => omega
    | succ k =>
      cases s with
      | nil => simp [loop]
      | cons c s =>
        have hl := fgets_lt c s
        simp only [List.length_cons] at h ⊢
        rw [loop, loop]
        simp only [List.isEmpty_cons, Bool.false_eq_true, if_false]
        cases hline : line e (fgets 1023 (c :: s)).1 with
        | stop r e' => rfl
        | next e' =>
          simp only
          rw [ih k (by omega) e' _ (by omega)]
          by_cases he : s.length + 1 = k
          · rw [he, ih k (by omega) e' _ (by omega)]
          · rw [ih (s.length + 1) (by omega) e' _ (by omega)]

/-- The parser on a file, from an environment. -/
def run (e : Env) (s : Bytes) : Ret × Env := loop (s.length + 1) e s

theorem run_nil (e : Env) : run e [] = (.success, e) := by simp [run, loop]

theorem run_chunk (e : Env) (s ch rest : Bytes) (h0 : s ≠ []) (h : fgets 1023 s = (ch, rest)) :
    run e s = (match line e ch with | .stop r e' => (r, e') | .next e' => run e' rest) := by
  cases s with
  | nil => exact absurd rfl h0
  | cons c s =>
    have hl := fgets_lt c s
    rw [h] at hl
    simp only at hl
    rw [run, loop]
    simp only [List.isEmpty_cons, Bool.false_eq_true, if_false, h]
    cases line e ch with
    | stop r e' => rfl
    | next e' =>
      simp only
      exact loop_fuel _ e' rest (by simp; omega)

theorem run_line (e : Env) (body rest : Bytes) (hn : 10 ∉ body) (hl : body.length < 1023) :
    run e (body ++ 10 :: rest) =
      (match line e (body ++ [10]) with | .stop r e' => (r, e') | .next e' => run e' rest) :=
  run_chunk e _ _ _ (by simp) (fgets_line body 1023 rest hn hl)

/-! ## Lines -/

theorem any_eol (body : Bytes) (r : Bytes) : (body ++ 10 :: r).any isEol = true := by
  simp [isEol]

/-- A chunk that ends with a line feed, without the length checks that never fire. -/
theorem line_lf (e : Env) (body : Bytes) :
    line e (body ++ [10]) =
      (match sInit ((body ++ [10]).length == 1023) (body ++ [10]) with
       | .skip => .next e
       | .pair n v => (match search configs n with | some c => setValue e c v | none => .stop .error e)
       | _ => .stop .error e) := by
  unfold line
  rw [any_eol]
  cases h : sInit ((body ++ [10]).length == 1023) (body ++ [10]) with
  | skip => rfl
  | bad => rfl
  | full => rfl
  | pair n v =>
    obtain ⟨w1, w2, w3, c, r, _, _, hn, _, _, _, hv, _⟩ := sInit_inv _ _ _ _ h
    have h1 : ¬ n.length = 0 := by simpa using hn
    have h2 : ¬ v.length = 0 := by simpa using hv
    simp only [h1, h2, if_true, if_false]
    cases search configs n <;> rfl

/-! ## The table -/

def kindOf : Flag → Kind
  | .integer => .number
  | .string => .text
  | .bool => .truth

theorem table : configs.map (fun c => (c.name, c.env, c.dflt, kindOf c.flag)) = documented := by decide +kernel

theorem names_nodup : (configs.map (·.name)).Nodup := by decide +kernel
theorem envs_nodup : (configs.map (·.env)).Nodup := by decide +kernel

theorem documented_mem {n env : Bytes} {d : Option Bytes} {k : Kind} (h : (n, env, d, k) ∈ documented) :
    ∃ c ∈ configs, c.name = n ∧ c.env = env ∧ c.dflt = d ∧ kindOf c.flag = k := by
  rw [← table] at h
  obtain ⟨c, hc, e⟩ := List.mem_map.1 h
  simp only [Prod.mk.injEq] at e
  exact ⟨c, hc, e.1, e.2.1, e.2.2.1, e.2.2.2⟩

theorem mem_documented {c : Item} (h : c ∈ configs) : (c.name, c.env, c.dflt, kindOf c.flag) ∈ documented := by
  rw [← table]; exact List.mem_map.2 ⟨c, h, rfl⟩

theorem search_some : ∀ (cs : List Item) (c : Item), c ∈ cs → (cs.map (·.name)).Nodup → search cs c.name = some c := by
  intro cs
  induction cs with
  | nil => intro c h; cases h
  | cons d cs ih =>
    intro c h hnd
    simp only [List.map_cons, List.nodup_cons] at hnd
    rw [search]
    rcases List.mem_cons.1 h with rfl | h
    · simp
    · have : c.name ≠ d.name := by
        intro e; apply hnd.1; rw [← e]; exact List.mem_map.2 ⟨c, h, rfl⟩
      rw [if_neg (by intro ⟨_, e⟩; exact this e)]
      exact ih c h hnd.2

theorem search_mem : ∀ (cs : List Item) (n : Bytes) (c : Item), search cs n = some c → c ∈ cs ∧ c.name = n := by
  intro cs
  induction cs with
  | nil => intro n c h; simp [search] at h
  | cons d cs ih =>
    intro n c h
    rw [search] at h
    split at h
    · rename_i hc
      injection h with h
      subst h
      exact ⟨by simp, hc.2.symm⟩
    · have := ih n c h
      exact ⟨by simp [this.1], this.2⟩

theorem search_unknown (n : Bytes) (h : Unknown n) : search configs n = none := by
  cases hs : search configs n with
  | none => rfl
  | some c =>
    have := search_mem _ _ _ hs
    have hm := mem_documented this.1
    rw [this.2] at hm
    exact absurd hm (h _ _ _)

theorem put_same (e : Env) (k : Bytes) (v : Option Bytes) : e.put k v k = v := by simp [Env.put]
theorem put_other (e : Env) (k x : Bytes) (v : Option Bytes) (h : x ≠ k) : e.put k v x = e x := by simp [Env.put, h]

theorem setDefaults_other : ∀ (cs : List Item) (e : Env) (x : Bytes), (∀ c ∈ cs, c.env ≠ x) → setDefaults cs e x = e x := by
  intro cs
  induction cs with
  | nil => intro e x _; rfl
  | cons d cs ih =>
    intro e x h
    rw [setDefaults, ih _ _ (fun c hc => h c (by simp [hc]))]
    exact put_other _ _ _ _ (fun e => h d (by simp) e.symm)

theorem setDefaults_mem : ∀ (cs : List Item) (e : Env) (c : Item), c ∈ cs → (cs.map (·.env)).Nodup →
    setDefaults cs e c.env = c.dflt := by
  intro cs
  induction cs with
  | nil => intro e c h; cases h
  | cons d cs ih =>
    intro e c h hnd
    simp only [List.map_cons, List.nodup_cons] at hnd
    rw [setDefaults]
    rcases List.mem_cons.1 h with rfl | h
    · rw [setDefaults_other]
      · exact put_same _ _ _
      · intro x hx e
        apply hnd.1; rw [← e]; exact List.mem_map.2 ⟨x, hx, rfl⟩
    · exact ih _ c h hnd.2

theorem env_inj {c d : Item} (hc : c ∈ configs) (hd : d ∈ configs) (h : c.env = d.env) : c = d := by
  have key : ∀ (cs : List Item), (cs.map (·.env)).Nodup → c ∈ cs → d ∈ cs → c = d := by
    intro cs
    induction cs with
    | nil => intro _ h; cases h
    | cons a cs ih =>
      intro hnd h1 h2
      simp only [List.map_cons, List.nodup_cons] at hnd
      rcases List.mem_cons.1 h1 with r1 | h1
      · rcases List.mem_cons.1 h2 with r2 | h2
        · rw [r1, r2]
        · exfalso; apply hnd.1; rw [← r1, h]; exact List.mem_map.2 ⟨d, h2, rfl⟩
      · rcases List.mem_cons.1 h2 with r2 | h2
        · exfalso; apply hnd.1; rw [← r2, ← h]; exact List.mem_map.2 ⟨c, h1, rfl⟩
        · exact ih hnd.2 h1 h2
  exact key configs envs_nodup hc hd

/-! ## Values -/

theorem digitsVal_foldl : ∀ (v : Bytes) (a : Nat), (∀ c ∈ v, 48 ≤ c ∧ c ≤ 57) →
    digitsVal a v = v.foldl (fun a c => 10 * a + (c - 48)) a := by
  intro v
  induction v with
  | nil => intro a _; rfl
  | cons c v ih =>
    intro a h
    have hc := h c (by simp)
    rw [digitsVal, if_pos (by simp [isDigit, hc]), ih _ (fun x hx => h x (by simp [hx]))]
    simp [Nat.mul_comm]

theorem atoll_digits (v : Bytes) (h : ∀ c ∈ v, 48 ≤ c ∧ c ≤ 57) : atoll v = (decimal v : Int) := by
  cases v with
  | nil => rfl
  | cons c v =>
    have hc := h c (by simp)
    have h1 : isSpace c = false := by
      simp [isSpace]; omega
    rw [atoll, List.dropWhile_cons_of_neg (by simp [h1])]
    have hne : c ≠ 45 ∧ c ≠ 43 := by omega
    split
    · rename_i e; simp at e; omega
    · rename_i e; simp at e; omega
    · rw [digitsVal_foldl _ _ h]; rfl

theorem foldl_ge : ∀ (v : Bytes) (a : Nat), a ≤ v.foldl (fun a c => 10 * a + (c - 48)) a := by
  intro v
  induction v with
  | nil => intro a; simp
  | cons c v ih => intro a; rw [List.foldl_cons]; have := ih (10 * a + (c - 48)); omega

theorem atoi_digits (v : Bytes) (h : ∀ c ∈ v, 48 ≤ c ∧ c ≤ 57) (hl : decimal v < 2147483648) :
    atoi v = (decimal v : Int) := by
  rw [atoi, atoll_digits v h]
  have h1 : clamp64 (decimal v : Int) = decimal v := by
    unfold clamp64
    rw [if_neg (by omega), if_neg (by omega)]
  rw [h1, wrap32]
  omega

theorem accepts_good (f : Flag) (v : Bytes) (h : GoodValue (kindOf f) v) : accepts f v = true := by
  cases f with
  | string => rfl
  | bool =>
    simp only [kindOf, GoodValue] at h
    rcases h with rfl | rfl | rfl | rfl <;> decide
  | integer =>
    simp only [kindOf, GoodValue] at h
    obtain ⟨h0, hd, hl⟩ := h
    simp only [accepts, atoi_digits v hd hl]
    cases v with
    | nil => exact absurd rfl h0
    | cons c v =>
      by_cases hc : c = 48
      · simp [hc]
      · have hc' := hd c (by simp)
        have : 0 < decimal (c :: v) := by
          unfold decimal
          rw [List.foldl_cons]
          have := foldl_ge v (10 * 0 + (c - 48))
          omega
        have hne : ¬ (decimal (c :: v) : Int) = 0 := by omega
        refine (by simp only [beq_iff_eq, hne, Bool.not_eq_true', Bool.and_eq_false_iff]; left; simpa using hne)

/-- `setenv` by a good line. -/
theorem good_line (e : Env) (l : Line) (hw : l.WF) (hg : l.Good) :
    ∃ body, l.bytes = body ++ [10] ∧ 10 ∉ body ∧ body.length < 1023 ∧ ∃ e', line e (body ++ [10]) = .next e' ∧
      (match l with
       | .item _ name _ _ value _ _ => ∃ c ∈ configs, c.name = name ∧ e' = e.put c.env (some value)
       | _ => e' = e) := by
  cases l with
  | blank w eol =>
    obtain ⟨h1, hl⟩ := hw
    have hw10 : 10 ∉ w := fun hm => by have := h1 10 hm; unfold BlankChar at this; omega
    have hskip : ∀ (x : Bytes), (∀ c ∈ x, isBlank c = true ∨ c = 13) → line e (x ++ [10]) = .next e := by
      intro x hx
      rw [line_lf, (sInit_skip _ _).2 ⟨x, 10, [], rfl, hx, Or.inr rfl⟩]
    cases eol with
    | lf =>
      refine ⟨w, rfl, hw10, by simp [Line.bytes, Eol.bytes] at hl; omega, e, ?_, rfl⟩
      exact hskip w (fun c hc => Or.inl ((blank_iff c).2 (h1 c hc)))
    | crlf =>
      refine ⟨w ++ [13], by simp [Line.bytes, Eol.bytes], by simp [hw10], by simp [Line.bytes, Eol.bytes] at hl; simp; omega, e, ?_, rfl⟩
      apply hskip
      intro c hc
      rcases List.mem_append.1 hc with hc | hc
      · exact Or.inl ((blank_iff c).2 (h1 c hc))
      · right; simpa using hc
  | comment w text =>
    obtain ⟨h1, ht, hl⟩ := hw
    have hw10 : 10 ∉ w := fun hm => by have := h1 10 hm; unfold BlankChar at this; omega
    refine ⟨w ++ 35 :: text, by simp [Line.bytes], by simp [hw10, ht], ?_, e, ?_, rfl⟩
    · simp [Line.bytes] at hl; simp; omega
    · rw [line_lf, (sInit_skip _ _).2 ⟨w, 35, text ++ [10], by simp, fun c hc => Or.inl ((blank_iff c).2 (h1 c hc)), Or.inl rfl⟩]
  | item w1 name w2 w3 value w4 eol =>
    obtain ⟨h1, h2, h3, h4, hn0, hn, hv0, hv, hl⟩ := hw
    obtain ⟨env, d, k, hdoc, hgood⟩ := hg
    obtain ⟨c, hc, ec, ee, ed, ek⟩ := documented_mem hdoc
    have nb : ∀ {w : Bytes}, (∀ c ∈ w, BlankChar c) → 10 ∉ w := fun hw hm => by
      have := hw 10 hm; unfold BlankChar at this; omega
    have nn : 10 ∉ name := fun hm => by have := hn 10 hm; unfold NameChar at this; omega
    have nv : 10 ∉ value := fun hm => by have := hv 10 hm; unfold ValueChar at this; omega
    have key : ∀ (t : Bytes) (b : Nat) (r : Bytes), t ++ [10] = b :: r → (isBlank b = true ∨ isEol b = true) →
        line e ((w1 ++ name ++ w2 ++ 61 :: (w3 ++ value ++ t)) ++ [10]) = .next (e.put c.env (some value)) := by
      intro t b r et hb
      have es : (w1 ++ name ++ w2 ++ 61 :: (w3 ++ value ++ t)) ++ [10] =
          w1 ++ name ++ w2 ++ 61 :: (w3 ++ value ++ b :: r) := by rw [← et]; simp
      rw [line_lf, es, sInit_item _ w1 name w2 w3 value b r (fun c hc => Or.inl ((blank_iff c).2 (h1 c hc))) hn0
        (fun c hc => (name_iff c).2 (hn c hc)) (fun c hc => (blank_iff c).2 (h2 c hc))
        (fun c hc => (blank_iff c).2 (h3 c hc)) hv0 (fun c hc => (value_iff c).2 (hv c hc)) hb]
      simp only
      rw [← ec, search_some _ _ hc names_nodup]
      simp only
      rw [setValue, if_pos (accepts_good _ _ (ek ▸ hgood))]
    have hb : ∀ (t : Bytes), (∀ c ∈ t, BlankChar c ∨ c = 13) → ∃ b r, t ++ [10] = b :: r ∧ (isBlank b = true ∨ isEol b = true) := by
      intro t ht
      cases t with
      | nil => exact ⟨10, [], rfl, Or.inr rfl⟩
      | cons b t =>
        refine ⟨b, t ++ [10], rfl, ?_⟩
        rcases ht b (by simp) with h | h
        · exact Or.inl ((blank_iff b).2 h)
        · right; rw [h]; rfl
    cases eol with
    | lf =>
      obtain ⟨b, r, et, hbb⟩ := hb w4 (fun c hc => Or.inl (h4 c hc))
      refine ⟨w1 ++ name ++ w2 ++ 61 :: (w3 ++ value ++ w4), by simp [Line.bytes, Eol.bytes],
        by simp [nb h1, nb h2, nb h3, nb h4, nn, nv], by simp [Line.bytes, Eol.bytes] at hl; simp; omega, _, key w4 b r et hbb, c, hc, ec, rfl⟩
    | crlf =>
      obtain ⟨b, r, et, hbb⟩ := hb (w4 ++ [13]) (by
        intro c hc
        rcases List.mem_append.1 hc with hc | hc
        · exact Or.inl (h4 c hc)
        · right; simpa using hc)
      refine ⟨w1 ++ name ++ w2 ++ 61 :: (w3 ++ value ++ (w4 ++ [13])), by simp [Line.bytes, Eol.bytes],
        by simp [nb h1, nb h2, nb h3, nb h4, nn, nv], by simp [Line.bytes, Eol.bytes] at hl; simp; omega, _, key (w4 ++ [13]) b r et hbb, c, hc, ec, rfl⟩

theorem lastValue_cons (n : Bytes) (l : Line) (ls : List Line) :
    lastValue n (l :: ls) =
      (match lastValue n ls with
       | some v => some v
       | none => (match l with | .item _ name _ _ value _ _ => if name = n then some value else none | _ => none)) := by
  cases l <;> rfl

/-- What a list of good lines does to the environment. -/
def Applied (e e' : Env) (ls : List Line) : Prop :=
  (∀ c ∈ configs, e' c.env = (match lastValue c.name ls with | some v => some v | none => e c.env)) ∧
  (∀ x, (∀ c ∈ configs, c.env ≠ x) → e' x = e x)

theorem run_good : ∀ (ls : List Line) (e : Env) (rest : Bytes), (∀ l ∈ ls, l.WF) → (∀ l ∈ ls, l.Good) →
    ∃ e', Applied e e' ls ∧ run e (fileBytes ls ++ rest) = run e' rest := by
  intro ls
  induction ls with
  | nil => intro e rest _ _; exact ⟨e, ⟨fun c hc => rfl, fun x hx => rfl⟩, rfl⟩
  | cons l ls ih =>
    intro e rest hw hg
    obtain ⟨body, eb, h10, hl, e1, hline, heff⟩ := good_line e l (hw l (by simp)) (hg l (by simp))
    obtain ⟨e2, happ, hrun⟩ := ih e1 rest (fun x hx => hw x (by simp [hx])) (fun x hx => hg x (by simp [hx]))
    have es : fileBytes (l :: ls) ++ rest = body ++ 10 :: (fileBytes ls ++ rest) := by
      rw [fileBytes, List.flatMap_cons, eb]; simp [fileBytes]
    refine ⟨e2, ⟨?_, ?_⟩, ?_⟩
    · intro c hc
      rw [happ.1 c hc, lastValue_cons]
      cases hlv : lastValue c.name ls with
      | some v => rfl
      | none =>
        cases l with
        | blank w eol => show e1 c.env = e c.env; simp only at heff; rw [heff]
        | comment w t => show e1 c.env = e c.env; simp only at heff; rw [heff]
        | item w1 name w2 w3 value w4 eol =>
          show e1 c.env = (match (if name = c.name then some value else none) with | some v => some v | none => e c.env)
          simp only at heff
          obtain ⟨d, hd, ed, ee⟩ := heff
          by_cases hcd : c = d
          · subst hcd
            rw [if_pos ed.symm, ee, put_same]
          · have hne : c.env ≠ d.env := fun h => hcd (env_inj hc hd h)
            have hnn : ¬ name = c.name := by
              intro h
              have s1 := search_some _ _ hc names_nodup
              have s2 := search_some _ _ hd names_nodup
              rw [ed, h, s1] at s2
              exact hcd (Option.some.inj s2)
            rw [if_neg hnn, ee, put_other _ _ _ _ hne]
    · intro x hx
      rw [happ.2 x hx]
      cases l with
      | blank w eol => simp only at heff; rw [heff]
      | comment w t => simp only at heff; rw [heff]
      | item w1 name w2 w3 value w4 eol =>
        simp only at heff
        obtain ⟨d, hd, ed, ee⟩ := heff
        rw [ee, put_other _ _ _ _ (fun h => hx d hd h.symm)]
    · rw [es, run_line e body _ h10 hl, hline]
      exact hrun

theorem parse_run (e : Env) (s : Bytes) : parse e (some s) = run (setDefaults configs e) s := rfl

/-- Every continuation starts from the environment the good lines leave. -/
theorem run_good_env : ∀ (ls : List Line) (e e' : Env) (t : Bytes), (∀ l ∈ ls, l.WF) → (∀ l ∈ ls, l.Good) →
    run e (fileBytes ls ++ []) = run e' [] → run e (fileBytes ls ++ t) = run e' t := by
  intro ls
  induction ls with
  | nil =>
    intro e e' t _ _ h
    simp only [fileBytes, List.flatMap_nil, List.nil_append, run_nil, Prod.mk.injEq, true_and] at h
    rw [h]; rfl
  | cons l ls ih =>
    intro e e' t hw hg h
    obtain ⟨body, eb, h10, hl, e1, hline, _⟩ := good_line e l (hw l (by simp)) (hg l (by simp))
    have es : ∀ t, fileBytes (l :: ls) ++ t = body ++ 10 :: (fileBytes ls ++ t) := by
      intro t
      rw [fileBytes, List.flatMap_cons, eb]; simp [fileBytes]
    rw [es, run_line e body _ h10 hl, hline] at h
    rw [es, run_line e body _ h10 hl, hline]
    exact ih e1 e' t (fun x hx => hw x (by simp [hx])) (fun x hx => hg x (by simp [hx])) h

theorem nameC_table : configs.all (fun c => !c.name.isEmpty && c.name.all nameC) = true := by decide +kernel

theorem documented_names (n env : Bytes) (d : Option Bytes) (k : Kind) (h : (n, env, d, k) ∈ documented) :
    n ≠ [] ∧ ∀ x ∈ n, NameChar x := by
  obtain ⟨c, hc, e1, _⟩ := documented_mem h
  have := List.all_eq_true.1 nameC_table c hc
  rw [e1] at this
  simp only [Bool.and_eq_true, List.all_eq_true] at this
  refine ⟨?_, fun x hx => (name_iff x).1 (this.2 x hx)⟩
  intro e
  rw [e] at this
  simp at this

theorem digitsVal_stop : ∀ (v : Bytes) (a x : Nat) (tail : Bytes), (∀ c ∈ v, 48 ≤ c ∧ c ≤ 57) → ¬ (48 ≤ x ∧ x ≤ 57) →
    digitsVal a (v ++ x :: tail) = digitsVal a v := by
  intro v
  induction v with
  | nil =>
    intro a x tail _ hx
    have : isDigit x = false := by
      cases h : isDigit x with
      | false => rfl
      | true => simp [isDigit] at h; exact absurd h hx
    simp [digitsVal, this]
  | cons c v ih =>
    intro a x tail h hx
    rw [List.cons_append, digitsVal, digitsVal]
    split
    · exact ih _ _ _ (fun y hy => h y (by simp [hy])) hx
    · rfl

theorem atoll_front (v : Bytes) (x : Nat) (tail : Bytes) (h0 : v ≠ []) (h : ∀ c ∈ v, 48 ≤ c ∧ c ≤ 57)
    (hx : ¬ (48 ≤ x ∧ x ≤ 57)) : atoll (v ++ x :: tail) = (decimal v : Int) := by
  cases v with
  | nil => exact absurd rfl h0
  | cons c v =>
    have hc := h c (by simp)
    have h1 : isSpace c = false := by
      simp [isSpace]; omega
    rw [atoll, List.cons_append, List.dropWhile_cons_of_neg (by simp [h1])]
    split
    · rename_i e; simp at e; omega
    · rename_i e; simp at e; omega
    · rw [← List.cons_append, digitsVal_stop _ _ _ _ h hx, digitsVal_foldl _ _ h]; rfl

end Fly.Conf
