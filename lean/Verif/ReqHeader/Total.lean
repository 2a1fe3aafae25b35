import Verif.ReqHeader.Model

set_option linter.all false

/-! # Header parsing never leaves the received bytes -/

namespace Fly.ReqHeader

/-- Bytes ended by NUL. -/
def Term (p : Bytes) : Prop := p.getLast? = some 0

theorem term_tail {c : Nat} {r : Bytes} (h : Term (c :: r)) (hc : c ≠ 0) : Term r := by
  cases r with
  | nil => simp [Term] at h; omega
  | cons d r => simpa [Term, List.getLast?_cons_cons] using h

theorem term_ne {p : Bytes} (h : Term p) : p ≠ [] := by rintro rfl; simp [Term] at h

/-- A result that stays within `p`. -/
def Fine (p : Bytes) : LR → Prop
  | .ok _ _ r => r <:+ p ∧ r.length < p.length ∧ Term r
  | .bad r => r <:+ p ∧ r.length < p.length ∧ Term r
  | .endHdr r => r <:+ p
  | .crash => False
  | _ => True

theorem fine_cons {c : Nat} {p : Bytes} {o : LR} (h : Fine p o) : Fine (c :: p) o := by
  have k : ∀ r, r <:+ p → r <:+ c :: p := fun r hr => hr.trans (List.suffix_cons c p)
  cases o with
  | ok n v r => exact ⟨k _ h.1, by have := h.2.1; simp; omega, h.2.2⟩
  | bad r => exact ⟨k _ h.1, by have := h.2.1; simp; omega, h.2.2⟩
  | endHdr r => exact k _ h
  | crash => exact h
  | _ => trivial

theorem fine_ok {c : Nat} {r n v : Bytes} (h : Term (c :: r)) (hc : c ≠ 0) : Fine (c :: r) (.ok n v r) :=
  ⟨List.suffix_cons c r, by simp, term_tail h hc⟩

theorem lineError_fine : ∀ p, Term p → Fine p (lineError p) := by
  intro p
  induction p with
  | nil => intro h; exact absurd rfl (term_ne h)
  | cons c r ih =>
    intro h
    rw [lineError]
    split
    · rename_i hc; simp at hc; exact ⟨List.suffix_cons c r, by simp, term_tail h (by omega)⟩
    · split
      · trivial
      · rename_i hc; exact fine_cons (ih (term_tail h (by simpa using hc)))

theorem stCR_fine (n v p : Bytes) (h : Term p) : Fine p (stCR n v p) := by
  cases p with
  | nil => exact absurd rfl (term_ne h)
  | cons c r =>
    rw [stCR]
    split
    · rename_i hc; simp at hc; exact fine_ok h (by omega)
    · split
      · trivial
      · exact lineError_fine _ h

theorem stValue_fine (n : Bytes) : ∀ p v, Term p → Fine p (stValue n v p) := by
  intro p
  induction p with
  | nil => intro v h; exact absurd rfl (term_ne h)
  | cons c r ih =>
    intro v h
    rw [stValue]
    split
    · rename_i hc; simp at hc; exact fine_cons (stCR_fine _ _ _ (term_tail h (by omega)))
    · split
      · rename_i hc; simp at hc; exact fine_ok h (by omega)
      · split
        · trivial
        · rename_i hc
          split
          · exact fine_cons (ih _ (term_tail h (by simpa using hc)))
          · exact lineError_fine _ h

theorem stOws_fine (n : Bytes) : ∀ p, Term p → Fine p (stOws n p) := by
  intro p
  induction p with
  | nil => intro h; exact absurd rfl (term_ne h)
  | cons c r ih =>
    intro h
    rw [stOws]
    split
    · rename_i hc; simp [ows] at hc; exact fine_cons (ih (term_tail h (by omega)))
    · split
      · rename_i hc; simp at hc; exact fine_cons (stCR_fine _ _ _ (term_tail h (by omega)))
      · split
        · trivial
        · split
          · exact stValue_fine _ _ _ h
          · exact lineError_fine _ h

theorem stColon_fine (n p : Bytes) (h : Term p) : Fine p (stColon n p) := by
  cases p with
  | nil => exact absurd rfl (term_ne h)
  | cons c r =>
    rw [stColon]
    split
    · exact stOws_fine _ _ h
    · exact lineError_fine _ h

theorem stName_fine : ∀ p n, Term p → Fine p (stName n p) := by
  intro p
  induction p with
  | nil => intro n h; exact absurd rfl (term_ne h)
  | cons c r ih =>
    intro n h
    rw [stName]
    split
    · rename_i hc; simp at hc; exact fine_cons (stColon_fine _ _ (term_tail h (by omega)))
    · split
      · trivial
      · rename_i hc
        split
        · exact fine_cons (ih _ (term_tail h (by simpa using hc)))
        · exact lineError_fine _ h

theorem parseLine_fine (p : Bytes) (h : Term p) : Fine p (parseLine p) := by
  cases p with
  | nil => exact absurd rfl (term_ne h)
  | cons c r =>
    rw [parseLine]
    split
    · exact stName_fine _ _ h
    · split
      · exact List.suffix_refl _
      · split
        · trivial
        · exact lineError_fine _ h

/-- The header phase never leaves the bytes it was given. -/
def HFine (p : Bytes) : HR → Prop
  | .ok _ r => r <:+ p
  | .middle r => r <:+ p
  | .bad => True
  | .crash => False

theorem parseHeader_fine : ∀ (f : Nat) (h : Header.HList) (p : Bytes), Term p → p.length ≤ f → HFine p (parseHeader f h p) := by
  intro f
  induction f with
  | zero => intro h p hp hl; exact absurd (List.eq_nil_of_length_eq_zero (by omega)) (term_ne hp)
  | succ f ih =>
    intro h p hp hl
    have hf := parseLine_fine p hp
    rw [parseHeader]
    cases hr : parseLine p with
    | crash => rw [hr] at hf; exact hf
    | fatal => trivial
    | middle => exact List.suffix_refl _
    | endHdr r => rw [hr] at hf; exact (List.drop_suffix 2 r).trans hf
    | bad r =>
      rw [hr] at hf
      have := ih h r hf.2.2 (by have := hf.2.1; omega)
      simp only
      generalize parseHeader f h r = o at this
      cases o with
      | ok _ _ => exact List.IsSuffix.trans this hf.1
      | middle _ => exact List.IsSuffix.trans this hf.1
      | bad => trivial
      | crash => exact this
    | ok n v r =>
      rw [hr] at hf
      have := ih (Header.addRequest h n v) r hf.2.2 (by have := hf.2.1; omega)
      simp only
      generalize parseHeader f (Header.addRequest h n v) r = o at this
      cases o with
      | ok _ _ => exact List.IsSuffix.trans this hf.1
      | middle _ => exact List.IsSuffix.trans this hf.1
      | bad => trivial
      | crash => exact this

theorem headerOperation_fine (d : Bytes) : HFine (d ++ [0]) (headerOperation d) :=
  parseHeader_fine _ _ _ (by simp [Term]) (by simp)

end Fly.ReqHeader
