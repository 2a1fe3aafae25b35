import Verif.Mime.Lemmas
set_option linter.all false

namespace Fly.Mime
open Fly.Encode (pct thousandths number frac)

/-- Type and subtype were measured and fit. -/
def Meas (p : PS) : Prop :=
  copy p.type p.typeLen ≠ none ∧ ∃ u, copy p.subtype p.subtypeLen = some u ∧ u.length ≤ 30

/-- What holds when `a` was read and `s` follows. -/
def Inv (p : PS) (a s : Bytes) : Prop :=
  match p.st with
  | .init => True
  | .after => True
  | .type => p.qv = none ∧ ∃ w, p.type = some (w ++ s)
  | .slash => p.qv = none ∧ copy p.type p.typeLen ≠ none
  | .subtype => p.qv = none ∧ copy p.type p.typeLen ≠ none ∧ ∃ w b, p.subtype = some (w ++ s) ∧ a = b ++ w ∧ ∀ c ∈ w, Visible c
  | .ows1 => p.qv = none ∧ Meas p
  | .semi => p.qv = none ∧ Meas p
  | .ows2 => p.qv = none ∧ Meas p
  | .maybeq => p.qv = none ∧ Meas p ∧ ∃ w, p.pl = some (w ++ s)
  | .pl => p.qv = none ∧ Meas p ∧ ∃ w, p.pl = some (w ++ s)
  | .peq => p.qv = none ∧ Meas p ∧ copy p.pl (min p.plLen 30) ≠ none
  | .pr => p.qv = none ∧ Meas p ∧ copy p.pl (min p.plLen 30) ≠ none ∧ ∃ w, p.pr = some (w ++ s)
  | .weq => Meas p ∧ p.dec = 0 ∧ ∃ b, a = b ++ b!"="
  | .oneInt => True
  | .onePoint => True
  | .zeroInt => Meas p ∧ p.dec = 0 ∧ p.qv = some (48 :: s) ∧ ∃ b, a = b ++ b!"=0"
  | .zeroPoint => Meas p ∧ p.dec = 0 ∧ p.qv = some (48 :: 46 :: s) ∧ ∃ b, a = b ++ b!"=0."
  | .zeroDec => Meas p ∧ ∃ b ds, a = b ++ b!"=0." ++ ds ∧ p.qv = some (48 :: 46 :: (ds ++ s)) ∧ (∀ c ∈ ds, digit c = true) ∧
      ds.length = p.dec ∧ p.dec ≤ 3
  | .eows1 => ∃ b x, a = b ++ b!"=0." ++ x ∧ 44 ∉ x
  | _ => False

/-- Decimals are counted from 0 as long as no weight was read. -/
def Dec (p : PS) : Prop := p.qv = none → p.dec = 0

def Good (x : Stp) (a s : Bytes) : Prop :=
  match x with
  | .perror => True
  | .crash => False
  | .overflow => False
  | .done _ => True
  | .go p => Inv p a s ∧ Dec p

theorem init_good (p : PS) (a : Bytes) (c : Nat) (r : Bytes) : Good (stInit p c (c :: r)) (a ++ [c]) r := by
  unfold stInit
  split
  · unfold stType
    split
    · have : diff (some (c :: r)) (c :: r) = some 0 := by simp [diff]
      simp only [this]
      exact ⟨⟨rfl, by simp [copy]⟩, fun _ => rfl⟩
    · exact ⟨⟨rfl, [c], rfl⟩, fun _ => rfl⟩
  · trivial

theorem after_good (p : PS) (a : Bytes) (c : Nat) (r : Bytes) (hd : Dec p) : Good (stAfter p c (c :: r)) (a ++ [c]) r := by
  unfold stAfter
  split
  · trivial
  · split
    · exact ⟨trivial, hd⟩
    · split
      · exact ⟨trivial, hd⟩
      · exact init_good p a c r

theorem add_good (p : PS) (a : Bytes) (c : Nat) (r : Bytes) (hm : Meas p) (hq : quality p.qv ≠ none) (hd : Dec p) :
    Good (stAdd p c (c :: r)) (a ++ [c]) r := by
  obtain ⟨h1, u, h2, h3⟩ := hm
  unfold stAdd
  cases hqq : quality p.qv with
  | none => exact absurd hqq hq
  | some q =>
    cases ht : copy p.type p.typeLen with
    | none => exact absurd ht h1
    | some t =>
      simp only [h2, if_neg (show ¬ 30 < u.length by omega)]
      split
      · trivial
      · exact after_good _ a c r hd

theorem ows2_good (p : PS) (a : Bytes) (c : Nat) (r : Bytes) (hq : p.qv = none) (hm : Meas p) (hd : Dec p) :
    Good (stOws2 p c (c :: r)) (a ++ [c]) r := by
  unfold stOws2
  split
  · exact ⟨⟨hq, hm⟩, hd⟩
  · split
    · exact ⟨⟨hq, hm, [c], rfl⟩, hd⟩
    · split
      · split
        · exact ⟨⟨hq, hm, by simp [copy]⟩, hd⟩
        · exact ⟨⟨hq, hm, [c], rfl⟩, hd⟩
      · trivial

theorem ows1_good (p : PS) (a : Bytes) (c : Nat) (r : Bytes) (hq : p.qv = none) (hm : Meas p) (hd : Dec p) :
    Good (stOws1 p c (c :: r)) (a ++ [c]) r := by
  unfold stOws1
  split
  · exact ⟨⟨hq, hm⟩, hd⟩
  · split
    · exact ows2_good p a c r hq hm hd
    · trivial

theorem copy_ne (w s : Bytes) (n : Nat) (h : n ≤ w.length) : copy (some (w ++ s)) n ≠ none := by
  unfold copy
  split
  · simp
  · simp only
    rw [if_pos (by simp; omega)]
    simp

theorem pl_good (p : PS) (a : Bytes) (c : Nat) (r : Bytes) (hq : p.qv = none) (hm : Meas p) (hd : Dec p)
    (hp : ∃ w, p.pl = some (w ++ c :: r)) : Good (stPl p c (c :: r)) (a ++ [c]) r := by
  obtain ⟨w, hw⟩ := hp
  unfold stPl
  split
  · have : diff p.pl (c :: r) = some w.length := by rw [hw]; exact diff_pre _ _
    simp only [this]
    refine ⟨⟨hq, hm, ?_⟩, hd⟩
    show copy p.pl _ ≠ none
    rw [hw]
    exact copy_ne _ _ _ (by simp only; omega)
  · split
    · exact ⟨⟨hq, hm, w ++ [c], by simp [hw]⟩, hd⟩
    · trivial

theorem pr_good (p : PS) (a : Bytes) (c : Nat) (r : Bytes) (hq : p.qv = none) (hm : Meas p) (hd : Dec p)
    (hpl : copy p.pl (min p.plLen 30) ≠ none)
    (hp : ∃ w, p.pr = some (w ++ c :: r)) : Good (stPr p c (c :: r)) (a ++ [c]) r := by
  obtain ⟨w, hw⟩ := hp
  unfold stPr
  split
  · exact ⟨⟨hq, hm, hpl, w ++ [c], by simp [hw]⟩, hd⟩
  · have : diff p.pr (c :: r) = some w.length := by rw [hw]; exact diff_pre _ _
    simp only [this]
    unfold stPend
    simp only
    cases h1 : copy p.pl (min p.plLen 30) with
    | none => exact absurd h1 hpl
    | some l =>
      have h2 : copy p.pr (min w.length 30) = some (w.take 30) := by rw [hw]; exact copy_min _ _
      simp only [h2]
      split
      · refine add_good _ a c r hm ?_ hd
        simp only [hq]
        simp [quality]
      · split
        · exact ows1_good _ a c r hq hm hd
        · split
          · exact ⟨⟨hq, hm⟩, hd⟩
          · trivial

theorem quality_digits (ds t : Bytes) (hds : ∀ c ∈ ds, digit c = true) (hl : ds.length ≤ 3)
    (ht : ∀ c r, t = c :: r → c ≠ 46 ∧ digit c = false) : quality (some (48 :: 46 :: (ds ++ t))) ≠ none := by
  have htw : ((48 :: 46 :: ds) ++ t).takeWhile (fun c => c == 46 || number c) = 48 :: 46 :: ds := by
    apply takeWhile_num t ht
    intro c hc
    simp at hc
    rcases hc with rfl | rfl | hc
    · right; rfl
    · left; rfl
    · right; exact hds c hc
  unfold quality
  rw [List.cons_append, List.cons_append] at htw
  simp only [htw]
  rw [if_neg (by simp), if_pos (by simp; omega)]
  simp

theorem eows1_good (v : Bytes) (hx : NoExt v) (p : PS) (a b x : Bytes) (c : Nat) (r : Bytes) (hv : v = a ++ c :: r)
    (ha : a = b ++ b!"=0." ++ x) (h44 : 44 ∉ x) (hd : Dec p) : Good (stEows1 p c) (a ++ [c]) r := by
  unfold stEows1
  split
  · rename_i hs
    refine ⟨⟨b, x ++ [c], by rw [ha]; simp, ?_⟩, hd⟩
    intro h
    rcases List.mem_append.1 h with h | h
    · exact h44 h
    · simp at h; subst h; revert hs; decide
  · split
    · rename_i h59
      simp at h59
      subst h59
      exact absurd (hx b x r (by rw [hv, ha]; simp)) h44
    · trivial

theorem step_good (v : Bytes) (hn : NoLongName v) (hq34 : 34 ∉ v) (hx : NoExt v) (p : PS) (a : Bytes) (c : Nat) (r : Bytes)
    (hv : v = a ++ c :: r) (h : Inv p a (c :: r)) (hd : Dec p) : Good (step p c (c :: r)) (a ++ [c]) r := by
  have hc34 : c ≠ 34 := by
    intro e; subst e; apply hq34; rw [hv]; simp
  unfold Inv at h
  cases hst : p.st <;> rw [hst] at h <;> simp only [step, hst] <;> (try simp only at h)
  case init => exact init_good p a c r
  case type =>
    obtain ⟨hq, w, hw⟩ := h
    have hd1 := hd hq
    unfold stType
    have : diff p.type (c :: r) = some w.length := by rw [hw]; exact diff_pre _ _
    simp only [this]
    split
    · refine ⟨⟨hq, ?_⟩, hd⟩
      show copy p.type w.length ≠ none
      rw [hw]; exact copy_ne _ _ _ (by omega)
    · split
      · exact ⟨⟨hq, w ++ [c], by simp [hw]⟩, hd⟩
      · trivial
  case slash =>
    obtain ⟨hq, ht⟩ := h
    split
    · split
      · exact add_good _ a c r ⟨ht, [], by simp [copy], by simp⟩ (by simp only [hq]; simp [quality]) hd
      · rename_i h1 h2
        refine ⟨⟨hq, ht, [c], a, rfl, rfl, ?_⟩, hd⟩
        intro x hx; simp at hx; subst hx
        simp [token] at h1
        simp at h2
        simp [Visible]
        omega
    · trivial
  case subtype =>
    obtain ⟨hq, ht, w, b, hw, ha, hvis⟩ := h
    have hdf : diff p.subtype (c :: r) = some w.length := by rw [hw]; exact diff_pre _ _
    have hlen : w.length ≤ 30 := by
      by_cases hl : w.length ≤ 30
      · exact hl
      · obtain ⟨x, hx1, hx2⟩ := hn b (w.take 31) (w.drop 31 ++ c :: r)
          (by rw [hv, ha, List.append_assoc b (w.take 31), ← List.append_assoc (w.take 31), List.take_append_drop]
              simp) (by simp; omega)
        exact absurd (hvis x (List.mem_of_mem_take hx1)) hx2
    have hm : Meas { p with subtypeLen := w.length } := ⟨ht, w, by
      show copy p.subtype w.length = some w
      rw [hw]; exact copy_pre _ _, hlen⟩
    have hqq : quality p.qv ≠ none := by rw [hq]; simp [quality]
    simp only [measured, hdf]
    split
    · exact add_good _ a c r hm hqq hd
    · split
      · exact add_good _ a c r hm hqq hd
      · split
        · rename_i h1 h2 h3
          refine ⟨?_, hd⟩
          unfold Inv
          rw [hst]
          refine ⟨hq, ht, w ++ [c], b, by simp [hw], by simp [ha], ?_⟩
          intro x hx
          rcases List.mem_append.1 hx with hx | hx
          · exact hvis x hx
          · simp at hx; subst hx
            simp [token] at h3
            simp at h1
            simp [Visible]
            omega
        · split
          · exact ows1_good _ a c r hq hm hd
          · split
            · exact ⟨⟨hq, hm⟩, hd⟩
            · trivial
  case ows1 => exact ows1_good p a c r h.1 h.2 hd
  case semi => exact ows2_good p a c r h.1 h.2 hd
  case ows2 => exact ows2_good p a c r h.1 h.2 hd
  case maybeq =>
    split
    · rename_i he
      simp at he
      subst he
      exact ⟨⟨h.2.1, hd h.1, a, rfl⟩, hd⟩
    · exact pl_good p a c r h.1 h.2.1 hd h.2.2
  case pl => exact pl_good p a c r h.1 h.2.1 hd h.2.2
  case peq =>
    simp only [beq_iff_eq, hc34, if_false]
    split
    · exact ⟨⟨h.1, h.2.1, h.2.2, [c], rfl⟩, hd⟩
    · trivial
  case pr => exact pr_good p a c r h.1 h.2.1 hd h.2.2.1 h.2.2.2
  case weq =>
    obtain ⟨hm, hdec, b, ha⟩ := h
    split
    · exact ⟨trivial, by simp [Dec]⟩
    · split
      · rename_i he
        simp at he
        subst he
        exact ⟨⟨hm, hdec, rfl, b, by simp [ha]⟩, by simp [Dec]⟩
      · trivial
  case oneInt =>
    split
    · exact ⟨trivial, hd⟩
    · trivial
  case onePoint => trivial
  case zeroInt =>
    obtain ⟨hm, hdec, hqv, b, ha⟩ := h
    split
    · rename_i he
      simp at he
      subst he
      exact ⟨⟨hm, hdec, hqv, b, by simp [ha]⟩, hd⟩
    · trivial
  case zeroPoint =>
    obtain ⟨hm, hdec, hqv, b, ha⟩ := h
    split
    · rename_i he
      refine ⟨⟨hm, b, [c], by simp [ha], hqv, by simpa using he, ?_, ?_⟩, by simp [Dec, hqv]⟩
      · simp [hdec]
      · show p.dec + 1 ≤ 3; omega
    · trivial
  case zeroDec =>
    obtain ⟨hm, b, ds, ha, hqv, hds, hl1, hl2⟩ := h
    by_cases hdc : digit c = true
    · rw [if_pos hdc]
      split
      · refine ⟨?_, by simp [Dec, hqv]⟩
        unfold Inv
        simp only [hst]
        refine ⟨hm, b, ds ++ [c], by simp [ha], by simp [hqv], ?_, by simp [hl1], by omega⟩
        intro x hx
        rcases List.mem_append.1 hx with hx | hx
        · exact hds x hx
        · simp at hx; subst hx; exact hdc
      · trivial
    · rw [if_neg hdc]
      have hqd : c ≠ 46 → quality p.qv ≠ none := by
        intro h46
        rw [hqv]
        apply quality_digits ds (c :: r) hds (by omega)
        intro x y e
        simp at e
        rw [← e.1]
        exact ⟨h46, by simpa using hdc⟩
      have h44 : 44 ∉ ds := fun h => by have := hds 44 h; revert this; decide
      split
      · exact eows1_good v hx p a b ds c r hv ha h44 hd
      · split
        · rename_i h59
          simp at h59
          subst h59
          exact absurd (hx b ds r (by rw [hv, ha]; simp)) h44
        · split
          · rename_i he; simp at he; subst he
            exact add_good p a 44 r hm (hqd (by decide)) hd
          · split
            · rename_i he; simp at he; subst he
              exact add_good p a 0 r hm (hqd (by decide)) hd
            · trivial
  case eows1 =>
    obtain ⟨b, x, ha, h44⟩ := h
    exact eows1_good v hx p a b x c r hv ha h44 hd
  case after => exact after_good p a c r hd

theorem parse_good (v : Bytes) (hn : NoLongName v) (hq34 : 34 ∉ v) (hx : NoExt v) : ∀ (s : Bytes) (p : PS) (a : Bytes), v = a ++ s →
    Inv p a s → Dec p → parse p s ≠ .crash ∧ parse p s ≠ .overflow
  | [], p, a, _, _, _ => by simp [parse]
  | c :: r, p, a, hv, h, hd => by
    have hg := step_good v hn hq34 hx p a c r hv h hd
    rw [parse_run]
    cases hs : step p c (c :: r) with
    | perror => simp [run]
    | crash => rw [hs] at hg; exact hg.elim
    | overflow => rw [hs] at hg; exact hg.elim
    | done l => simp [run]
    | go p' =>
      rw [hs] at hg
      exact parse_good v hn hq34 hx r p' (a ++ [c]) (by rw [hv]; simp) hg.1 hg.2

/-! ## the end of the value -/

theorem stAfter_nul (p : PS) (s : Bytes) : stAfter p 0 s = .done p.acc := rfl

theorem stAdd_nul (p : PS) (s : Bytes) (p' : PS) : stAdd p 0 s ≠ .go p' := by
  unfold stAdd
  repeat' split
  all_goals simp [stAfter]

theorem step_nul (p : PS) (s : Bytes) (p' : PS) : step p 0 s ≠ .go p' := by
  have t0 : token 0 = false := rfl
  have s0 : space 0 = false := rfl
  have d0 : digit 0 = false := rfl
  have q0 : quotedString 0 s.tail = false := by simp [quotedString, qdtext, space]
  cases hst : p.st <;>
    simp only [step, hst, stInit, stType, stOws1, stOws2, stPl, stPr, stPend, stEows1, stEend, stEl, stEr, stPq, stEq, stAfter, measured, t0, s0, d0, q0]
  all_goals
    repeat' split
    all_goals first
      | exact stAdd_nul _ _ _
      | (intro h; cases h; done)
      | (exfalso; rename_i h; revert h; decide)
      | (exfalso; rename_i h _; revert h; decide)
      | (exfalso; rename_i h _ _ _ _; revert h; decide)
      | simp at *

theorem parse_inside : ∀ (v : Bytes) (p : PS) (t : Bytes), parse p (v ++ 0 :: t) ≠ .outside
  | [], p, t => by
    rw [List.nil_append, parse_run]
    cases hs : step p 0 (0 :: t) with
    | go p' => exact absurd hs (step_nul p _ p')
    | _ => simp [run]
  | c :: v, p, t => by
    rw [List.cons_append, parse_run]
    cases hs : step p c (c :: (v ++ 0 :: t)) with
    | go p' => exact parse_inside v p' t
    | _ => simp [run]

/-! ## appending the terminating 0 -/

theorem noLong_nul (v : Bytes) (h : NoLongName v) : NoLongName (v ++ [0]) := by
  intro a w b e hl
  by_cases hb : b = []
  · subst hb
    simp only [List.append_nil] at e
    refine ⟨0, ?_, by simp [Visible]⟩
    have : (a ++ w).getLast? = some 0 := by rw [← e]; simp
    rw [List.getLast?_append] at this
    cases hg : w.getLast? with
    | none => rw [List.getLast?_eq_none_iff.1 hg] at hl; simp at hl
    | some x =>
      rw [hg] at this
      simp at this
      subst this
      exact List.mem_of_getLast? hg
  · have : v = a ++ w ++ b.dropLast := by
      have h := congrArg List.dropLast e
      rw [List.dropLast_concat, List.dropLast_append_of_ne_nil hb] at h
      exact h
    exact h a w _ this hl

theorem noExt_nul (v : Bytes) (h : NoExt v) : NoExt (v ++ [0]) := by
  intro a b c e
  by_cases hc : c = []
  · subst hc
    rw [List.append_nil] at e
    have := (List.append_inj' e rfl).2
    simp at this
  · have : v = a ++ b!"=0." ++ b ++ b!";" ++ c.dropLast := by
      have h := congrArg List.dropLast e
      rw [List.dropLast_concat, List.dropLast_append_of_ne_nil hc] at h
      exact h
    exact h a b _ this

end Fly.Mime
