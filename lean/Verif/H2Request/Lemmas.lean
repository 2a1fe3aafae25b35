import Verif.H2Request.Model
import Verif.H2Request.Spec
import Verif.Request.Lemmas

set_option linter.all false

namespace Fly.H2R

open Header (HField)
open Req

/-! ## The target parser stays inside its string -/

theorem t2Query_nc (uri q : Bytes) : ∀ (f : Nat) (len : Int) (p : Bytes), Z p → p.length ≤ f → t2Query uri q f len p ≠ .crash := by
  intro f
  induction f with
  | zero => intro _ p h hf; exact absurd (List.eq_nil_of_length_eq_zero (by omega)) (Z_ne h)
  | succ f ih =>
    intro len p h hf
    cases p with
    | nil => exact absurd rfl (Z_ne h)
    | cons c r =>
      simp only [List.length_cons] at hf
      rw [t2Query_cons]
      split
      · rename_i hq; exact absurd hq (query_no_crash h)
      · rename_i hq
        split
        · simp
        · exact ih _ _ (Z_cons h (ne0_of_query ((query_one_iff _ _).1 hq))) (by omega)
      · rename_i hq
        split
        · simp
        · obtain ⟨rfl, a, b, r2, hr, ha, hb⟩ := (query_three_iff _ _).1 hq
          obtain ⟨z1, z2⟩ := Z_three h hr ha hb
          have : r.drop 2 = r2 := by rw [hr]; rfl
          rw [this]
          exact ih _ _ z1 (by omega)
      · split <;> simp

theorem t2Question_nc (full uri : Bytes) (len : Int) (p : Bytes) (h : Z p) : t2Question full uri len p ≠ .crash := by
  cases p with
  | nil => exact absurd rfl (Z_ne h)
  | cons c r =>
    rw [t2Question_cons]
    split
    · rename_i hq; exact absurd hq (query_no_crash h)
    · rename_i hq
      split
      · simp
      · exact t2Query_nc _ _ _ _ _ (Z_cons h (ne0_of_query ((query_one_iff _ _).1 hq))) (by omega)
    · rename_i hq
      split
      · simp
      · obtain ⟨rfl, a, b, r2, hr, ha, hb⟩ := (query_three_iff _ _).1 hq
        obtain ⟨z1, z2⟩ := Z_three h hr ha hb
        have : r.drop 2 = r2 := by rw [hr]; rfl
        rw [this]
        exact t2Query_nc _ _ _ _ _ z1 (by omega)
    · simp

theorem t2Origin_nc (full t : Bytes) : ∀ (f : Nat) (len : Int) (p : Bytes), Z p → p.length ≤ f → t2Origin full t f len p ≠ .crash := by
  intro f
  induction f with
  | zero => intro _ p h hf; exact absurd (List.eq_nil_of_length_eq_zero (by omega)) (Z_ne h)
  | succ f ih =>
    intro len p h hf
    cases p with
    | nil => exact absurd rfl (Z_ne h)
    | cons c r =>
      simp only [List.length_cons] at hf
      rw [t2Origin]
      split
      · rename_i hc
        split
        · simp
        · exact ih _ _ (Z_cons h (by simp at hc; omega)) (by omega)
      · split
        · rename_i hq; exact absurd hq (pchar_no_crash h)
        · rename_i hq
          split
          · simp
          · exact ih _ _ (Z_cons h (ne0_of_pchar ((pchar_one_iff _ _).1 hq))) (by omega)
        · rename_i hq
          split
          · simp
          · obtain ⟨rfl, a, b, r2, hr, ha, hb⟩ := (pchar_three_iff _ _).1 hq
            obtain ⟨z1, z2⟩ := Z_three h hr ha hb
            have : r.drop 2 = r2 := by rw [hr]; rfl
            rw [this]
            exact ih _ _ z1 (by omega)
        · split
          · simp
          · split
            · rename_i hc
              split
              · simp
              · exact t2Question_nc _ _ _ _ (Z_cons h (by simp at hc; omega))
            · simp

theorem t2Init_nc (o : Bool) (full t : Bytes) : ∀ (p : Bytes) (len : Int), Z p → t2Init o full t len p ≠ .crash := by
  intro p
  induction p with
  | nil => intro _ h; exact absurd rfl (Z_ne h)
  | cons c r ih =>
    intro len h
    rw [t2Init]
    split
    · rename_i hc
      split
      · simp
      · exact ih _ (Z_cons h (by simp at hc; omega))
    · split
      · simp
      · split
        · exact t2Origin_nc _ _ _ _ _ h (by simp)
        · simp

theorem target2_nc (m : Method) (p : Bytes) : target2 m p ≠ .crash :=
  t2Init_nc _ _ _ _ _ (by simp [Z])

/-! ## The request line -/

theorem matchMethodName_self (m : Method) : matchMethodName (methodName m) = some m := by cases m <;> decide

/-- A cell that is regular or one of the four pseudo fields with its value. -/
def Good (m : Method) (t : Bytes) (f : HField) : Prop :=
  isPseudo f = false ∨ (f.name = some b!":method" ∧ f.value = some (methodName m)) ∨
  (f.name = some b!":scheme" ∧ (f.value = some b!"http" ∨ f.value = some b!"https")) ∨
  f.name = some b!":authority" ∨ (f.name = some b!":path" ∧ f.value = some t)

theorem good_step (m : Method) (t : Bytes) (f : HField) (l : Line) (h : Good m t f) :
    fieldStep l f = .next ⟨if f.name = some b!":method" then some m else l.method,
      if f.name = some b!":scheme" then some b!"http" else l.scheme,
      if f.name = some b!":path" then some t else l.uri⟩ := by
  obtain ⟨n, v⟩ := f
  rcases h with h | ⟨h1, h2⟩ | ⟨h1, h2⟩ | h1 | ⟨h1, h2⟩
  · have h1 : n ≠ some b!":method" := by rintro rfl; revert h; simp [isPseudo]
    have h2 : n ≠ some b!":scheme" := by rintro rfl; revert h; simp [isPseudo]
    have h3 : n ≠ some b!":path" := by rintro rfl; revert h; simp [isPseudo]
    simp only [if_neg h1, if_neg h2, if_neg h3]
    rw [fieldStep, h]
    rfl
  · simp only at h1 h2; subst h1 h2
    have : fieldStep l ⟨some b!":method", some (methodName m)⟩ =
      (match (some (methodName m)).bind matchMethodName with | none => .bad | some m => .next { l with method := some m }) := rfl
    rw [this]
    simp [matchMethodName_self]
  · simp only at h1 h2; subst h1
    rcases h2 with rfl | rfl <;> rfl
  · simp only at h1; subst h1; rfl
  · simp only at h1 h2; subst h1 h2; rfl

theorem ite_or' {α : Type} (a b : Prop) [Decidable a] [Decidable b] (x y : α) :
    (if b then x else if a then x else y) = if a ∨ b then x else y := by
  by_cases ha : a <;> by_cases hb : b <;> simp [ha, hb]

theorem good_loop (m : Method) (t : Bytes) : ∀ (fs : List HField) (l : Line), (∀ f ∈ fs, Good m t f) →
    lineLoop l fs = .next ⟨if fs.any (fun f => f.name = some b!":method") then some m else l.method,
      if fs.any (fun f => f.name = some b!":scheme") then some b!"http" else l.scheme,
      if fs.any (fun f => f.name = some b!":path") then some t else l.uri⟩ := by
  intro fs
  induction fs with
  | nil => intro l _; rfl
  | cons f fs ih =>
    intro l h
    rw [lineLoop, good_step m t f l (h f (by simp))]
    simp only
    rw [ih _ fun g hg => h g (by simp [hg])]
    simp only [List.any_cons, Bool.or_eq_true, decide_eq_true_eq]
    simp only [ite_or']

theorem requestLine_good (m : Method) (t : Bytes) (ssl : Bool) (fs : List HField) (h : ∀ f ∈ fs, Good m t f)
    (h1 : ∃ f ∈ fs, f.name = some b!":method") (h2 : ∃ f ∈ fs, f.name = some b!":scheme")
    (h3 : ∃ f ∈ fs, f.name = some b!":path") : requestLine ssl fs = .ok m b!"http" t := by
  rw [requestLine, good_loop m t fs _ h]
  have e1 : fs.any (fun f => f.name = some b!":method") = true := by simpa using h1
  have e2 : fs.any (fun f => f.name = some b!":scheme") = true := by simpa using h2
  have e3 : fs.any (fun f => f.name = some b!":path") = true := by simpa using h3
  rw [e1, e2, e3]
  rfl

theorem cell_name {f : HField} {n : Bytes} (hn : n ≠ []) (h : f.name.getD [] = n) : f.name = some n := by
  cases e : f.name with
  | none => rw [e] at h; exact absurd h.symm hn
  | some x => rw [e] at h; simpa using h

theorem cell_value {f : HField} {n : Bytes} (hn : n ≠ []) (h : f.value.getD [] = n) : f.value = some n := by
  cases e : f.value with
  | none => rw [e] at h; exact absurd h.symm hn
  | some x => rw [e] at h; simpa using h

/-- The four pseudo fields as sent. -/
def GoodField (m : Method) (t : Bytes) (x : Field) : Prop :=
  Regular x ∨ x = (b!":method", methodName m) ∨ x = (b!":scheme", b!"http") ∨ x = (b!":scheme", b!"https") ∨
  x.1 = b!":authority" ∨ x = (b!":path", t)

theorem good_of_field {m : Method} {t : Bytes} (ht : t ≠ []) {f : HField} (h : GoodField m t (f.name.getD [], f.value.getD [])) :
    Good m t f := by
  have hm : methodName m ≠ [] := by cases m <;> decide
  rcases h with h | h | h | h | h | h
  · left; simp only [Regular] at h; simp [isPseudo, h]
  · right; left; exact ⟨cell_name (by decide) (congrArg Prod.fst h), cell_value hm (congrArg Prod.snd h)⟩
  · right; right; left
    exact ⟨cell_name (by decide) (congrArg Prod.fst h), Or.inl (cell_value (by decide) (congrArg Prod.snd h))⟩
  · right; right; left
    exact ⟨cell_name (by decide) (congrArg Prod.fst h), Or.inr (cell_value (by decide) (congrArg Prod.snd h))⟩
  · right; right; right; left; exact cell_name (by decide) h
  · right; right; right; right
    exact ⟨cell_name (by decide) (congrArg Prod.fst h), cell_value ht (congrArg Prod.snd h)⟩

theorem requestLine_fields (m : Method) (t : Bytes) (ht : t ≠ []) (ssl : Bool) (cells : List HField) (fs : List Field)
    (hh : Holds cells fs) (h : ∀ x ∈ fs, GoodField m t x) (h1 : ∃ v, (b!":method", v) ∈ fs)
    (h2 : ∃ v, (b!":scheme", v) ∈ fs) (h3 : ∃ v, (b!":path", v) ∈ fs) :
    requestLine ssl cells = .ok m b!"http" t := by
  subst hh
  have ex : ∀ n : Bytes, n ≠ [] → (∃ v, (n, v) ∈ cells.map (fun f => (f.name.getD [], f.value.getD []))) →
      ∃ f ∈ cells, f.name = some n := by
    intro n hn ⟨v, hv⟩
    obtain ⟨f, hf, e⟩ := List.mem_map.1 hv
    exact ⟨f, hf, cell_name hn (congrArg Prod.fst e)⟩
  refine requestLine_good m t ssl cells ?_ (ex _ (by decide) h1) (ex _ (by decide) h2) (ex _ (by decide) h3)
  intro f hf
  exact good_of_field ht (h _ (List.mem_map.2 ⟨f, hf, rfl⟩))

theorem pseudo_mem {ps : List Field} {m : Method} {https : Bool} {t : Bytes}
    (h : PseudoFields ps m (if https then b!"https" else b!"http") t) :
    (∀ x ∈ ps, GoodField m t x) ∧ (∃ v, (b!":method", v) ∈ ps) ∧ (∃ v, (b!":scheme", v) ∈ ps) ∧ (b!":path", t) ∈ ps := by
  rcases h with h | ⟨a, h⟩
  · refine ⟨?_, ⟨_, h.mem_iff.2 (List.Mem.head _)⟩, ⟨_, h.mem_iff.2 (List.Mem.tail _ (List.Mem.head _))⟩, h.mem_iff.2 (by simp)⟩
    intro x hx
    have := h.mem_iff.1 hx
    simp only [List.mem_cons, List.not_mem_nil, or_false] at this
    rcases this with rfl | rfl | rfl
    · exact Or.inr (Or.inl rfl)
    · cases https
      · exact Or.inr (Or.inr (Or.inl rfl))
      · exact Or.inr (Or.inr (Or.inr (Or.inl rfl)))
    · exact Or.inr (Or.inr (Or.inr (Or.inr (Or.inr rfl))))
  · refine ⟨?_, ⟨_, h.mem_iff.2 (List.Mem.head _)⟩, ⟨_, h.mem_iff.2 (List.Mem.tail _ (List.Mem.head _))⟩, h.mem_iff.2 (by simp)⟩
    intro x hx
    have := h.mem_iff.1 hx
    simp only [List.mem_cons, List.not_mem_nil, or_false] at this
    rcases this with rfl | rfl | rfl | rfl
    · exact Or.inr (Or.inl rfl)
    · cases https
      · exact Or.inr (Or.inr (Or.inl rfl))
      · exact Or.inr (Or.inr (Or.inr (Or.inl rfl)))
    · exact Or.inr (Or.inr (Or.inr (Or.inr (Or.inr rfl))))
    · exact Or.inr (Or.inr (Or.inr (Or.inr (Or.inl rfl))))

/-- A run of the loop that does not stop can be followed by another. -/
theorem loop_append (a b : List HField) : ∀ l, lineLoop l (a ++ b) =
    (match lineLoop l a with | .next l => lineLoop l b | .bad => .bad | .undef => .undef) := by
  induction a with
  | nil => intro l; rfl
  | cons f a ih =>
    intro l
    simp only [List.cons_append, lineLoop]
    cases fieldStep l f with
    | next l => exact ih l
    | bad => rfl
    | undef => rfl

theorem takeWhile_all (p : Nat → Bool) : ∀ l : Bytes, (∀ c ∈ l, p c = true) → l.takeWhile p = l := by
  intro l
  induction l with
  | nil => intro _; rfl
  | cons c l ih =>
    intro h
    rw [List.takeWhile_cons, if_pos (h c (by simp)), ih fun x hx => h x (by simp [hx])]

theorem contentEncoding_plain : ∀ cells : List HField,
    (∀ f ∈ cells, Named (f.name.getD [], f.value.getD []) ∧ NoContent (f.name.getD [], f.value.getD [])) →
    contentEncoding b!"content-encoding" cells = some none := by
  intro cells
  induction cells with
  | nil => intro _; rfl
  | cons f cells ih =>
    intro h
    have hf := h f (by simp)
    rw [contentEncoding]
    cases e : f.name with
    | none => rw [e] at hf; exact absurd rfl hf.1.1
    | some n =>
      rw [e] at hf
      simp only
      have hn : Header.cstr n = n := by
        rw [Header.cstr]
        apply takeWhile_all
        intro c hc
        have := hf.1.2
        simp only [Option.getD_some] at this
        simp only [bne_iff_ne, ne_eq]
        rintro rfl
        exact this hc
      rw [hn, if_neg]
      · exact ih fun g hg => h g (by simp [hg])
      · simpa using hf.2.2.2

theorem isMultipart_plain : ∀ cells : List HField,
    (∀ f ∈ cells, NoContent (f.name.getD [], f.value.getD [])) → Multipart.isMultipart cells = some false := by
  intro cells
  induction cells with
  | nil => intro _; rfl
  | cons f cells ih =>
    intro h
    have hf := h f (by simp)
    rw [Multipart.isMultipart, if_neg]
    · exact ih fun g hg => h g (by simp [hg])
    · rw [Multipart.isContentType]
      intro hc
      simp only [Bool.and_eq_true, Bool.or_eq_true, beq_iff_eq] at hc
      rcases hc.1 with e | e <;> rw [e] at hf
      · exact hf.2.1 rfl
      · exact hf.1 rfl

theorem body_plain (cells : List HField) (fs : List Field) (hh : Holds cells fs) (h : ∀ x ∈ fs, Named x ∧ NoContent x) (b : Option Bytes) :
    bodyStep cells b = .ok (b.map .bytes) := by
  have hc : ∀ f ∈ cells, Named (f.name.getD [], f.value.getD []) ∧ NoContent (f.name.getD [], f.value.getD []) := by
    intro f hf
    exact h _ (by rw [← hh]; exact List.mem_map.2 ⟨f, hf, rfl⟩)
  rw [bodyStep]
  split
  · rfl
  · rw [contentEncoding_plain cells hc]
    simp only
    have hm := isMultipart_plain cells fun f hf => (hc f hf).2
    cases b with
    | none => simp only [multipart, hm]; rfl
    | some b => simp only [multipart, Multipart.bodySeen, hm]; rfl

end Fly.H2R
