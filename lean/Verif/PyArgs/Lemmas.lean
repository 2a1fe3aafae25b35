import Verif.PyArgs.Model
import Verif.PyArgs.Spec
set_option linter.all false

namespace Fly.PyArgs
open Spec

/-! ## split -/

theorem splitOn_ne (c : Nat) (s : Str) : splitOn c s ≠ [] := by
  cases s with
  | nil => simp [splitOn]
  | cons x xs =>
    rw [splitOn]
    split
    · simp
    · split <;> simp

theorem splitOn_mem (c : Nat) (s : Str) : ∀ p ∈ splitOn c s, c ∉ p ∧ ∀ x ∈ p, x ∈ s := by
  induction s with
  | nil => simp [splitOn]
  | cons x xs ih =>
    intro p hp
    rw [splitOn] at hp
    cases hs : splitOn c xs with
    | nil => exact absurd hs (splitOn_ne c xs)
    | cons q qs =>
      rw [hs] at hp ih
      simp only at hp
      split at hp
      · rename_i hx
        rcases List.mem_cons.1 hp with rfl | hp
        · simp
        · have := ih p hp
          exact ⟨this.1, fun y hy => List.mem_cons_of_mem _ (this.2 y hy)⟩
      · rename_i hx
        rcases List.mem_cons.1 hp with rfl | hp
        · have := ih q (by simp)
          refine ⟨?_, ?_⟩
          · simp only [List.mem_cons, not_or]
            exact ⟨fun e => hx e.symm, this.1⟩
          · intro y hy
            rcases List.mem_cons.1 hy with rfl | hy
            · simp
            · exact List.mem_cons_of_mem _ (this.2 y hy)
        · have := ih p (by simp [hp])
          exact ⟨this.1, fun y hy => List.mem_cons_of_mem _ (this.2 y hy)⟩

theorem splitOn_none (c : Nat) (s : Str) (h : c ∉ s) : splitOn c s = [s] := by
  induction s with
  | nil => rfl
  | cons x xs ih =>
    have hx : x ≠ c := fun e => h (by simp [e])
    rw [splitOn, ih (fun e => h (by simp [e]))]
    simp [hx]

theorem splitOn_append (c : Nat) (a b : Str) (h : c ∉ a) :
    splitOn c (a ++ c :: b) = a :: splitOn c b := by
  induction a with
  | nil =>
    rw [List.nil_append, splitOn]
    cases hs : splitOn c b with
    | nil => exact absurd hs (splitOn_ne c b)
    | cons q qs => simp
  | cons x xs ih =>
    have hx : x ≠ c := fun e => h (by simp [e])
    rw [List.cons_append, splitOn, ih (fun e => h (by simp [e]))]
    simp [hx]

theorem splitOn_pieces {sep : Nat} {s : Str} {ps : List Str} (h : Pieces sep s ps) :
    splitOn sep s = ps := by
  induction h with
  | last h => exact splitOn_none _ _ h
  | more h _ ih => rw [splitOn_append _ _ _ h, ih]

theorem intercalate_cons2 {α : Type} (c : List α) (a b : List α) (l : List (List α)) :
    c.intercalate (a :: b :: l) = a ++ (c ++ c.intercalate (b :: l)) := by
  simp [List.intercalate, List.intersperse]

theorem intercalate_one {α : Type} (c : List α) (a : List α) : c.intercalate [a] = a := by
  simp [List.intercalate, List.intersperse]

theorem splitOn_intercalate (c : Nat) (ls : List Str) (hne : ls ≠ []) (h : ∀ l ∈ ls, c ∉ l) :
    splitOn c ([c].intercalate ls) = ls := by
  induction ls with
  | nil => exact absurd rfl hne
  | cons a l ih =>
    cases l with
    | nil =>
      rw [intercalate_one]
      exact splitOn_none c a (h a (by simp))
    | cons b l =>
      rw [intercalate_cons2]
      have := splitOn_append c a ([c].intercalate (b :: l)) (h a (by simp))
      rw [List.singleton_append, this, ih (by simp) (fun x hx => h x (by simp [hx]))]

theorem nameValue_eq (n v : Str) (hn : 61 ∉ n) (hv : 61 ∉ v) : nameValue (n ++ 61 :: v) = (n, some v) := by
  rw [nameValue, splitOn_append 61 n v hn, splitOn_none 61 v hv]

theorem nameValue_more (n a b : Str) (hn : 61 ∉ n) (ha : 61 ∉ a) :
    nameValue (n ++ 61 :: (a ++ 61 :: b)) = (n, some a) := by
  rw [nameValue, splitOn_append 61 n _ hn, splitOn_append 61 a b ha]

theorem nameValue_mem (s : Str) : (61 ∉ (nameValue s).1 ∧ ∀ x ∈ (nameValue s).1, x ∈ s) ∧
    ∀ v, (nameValue s).2 = some v → 61 ∉ v ∧ ∀ x ∈ v, x ∈ s := by
  have hm := splitOn_mem 61 s
  unfold nameValue
  cases hs : splitOn 61 s with
  | nil => exact absurd hs (splitOn_ne 61 s)
  | cons n l =>
    rw [hs] at hm
    cases l with
    | nil => exact ⟨hm n (by simp), by simp⟩
    | cons v l =>
      refine ⟨hm n (by simp), ?_⟩
      intro w hw
      simp only [Option.some.injEq] at hw
      subst hw
      exact hm v (by simp)

theorem nameValue_none (s : Str) (h : 61 ∉ s) : nameValue s = (s, none) := by
  rw [nameValue, splitOn_none 61 s h]

/-! ## strip -/

theorem strip_mem {x : Nat} {s : Str} (h : x ∈ strip s) : x ∈ s := by
  unfold strip at h
  rw [List.mem_reverse] at h
  have := (List.dropWhile_sublist _).subset h
  rw [List.mem_reverse] at this
  exact (List.dropWhile_sublist _).subset this

theorem not_space (c : Nat) (h : (33 ≤ c ∧ c ≤ 126) ∨ 0x3001 ≤ c) : isSpace c = false := by
  unfold isSpace
  simp only [Bool.or_eq_false_iff, Bool.and_eq_false_iff, decide_eq_false_iff_not, beq_eq_false_iff_ne]
  omega

theorem dropWhile_head (s : Str) (h : ∀ c, s.head? = some c → isSpace c = false) :
    s.dropWhile isSpace = s := by
  cases s with
  | nil => rfl
  | cons c s => simp [List.dropWhile, h c rfl]

theorem strip_trimmed (s : Str) (h : Trimmed s) : strip s = s := by
  unfold strip
  rw [dropWhile_head s (fun c hc => not_space c (h.1 c hc)), dropWhile_head, List.reverse_reverse]
  intro c hc
  rw [List.head?_reverse] at hc
  exact not_space c (h.2 c hc)

/-! ## UTF-8 -/

theorem enc_head (c : Nat) (h : Scalar c) (rest : List Nat) :
    utf8Head (enc c ++ rest) = (some c, (enc c).length) ∧ enc c ≠ [] := by
  obtain ⟨h1, h2⟩ := h
  unfold enc
  split
  · rename_i h0
    simp [utf8Head, h0]
  · rename_i h0
    split
    · rename_i h3
      refine ⟨?_, by simp⟩
      have k1 : ¬ (192 + c / 64 < 0x80) := by omega
      have k2 : 0xC2 ≤ 192 + c / 64 ∧ 192 + c / 64 ≤ 0xDF := by omega
      have k3 : cont (128 + c % 64) = true := by
        simp only [cont, Bool.and_eq_true, decide_eq_true_eq]; omega
      have k4 : (192 + c / 64 - 0xC0) * 64 + (128 + c % 64 - 0x80) = c := by omega
      simp only [List.cons_append, List.nil_append, utf8Head, if_neg k1, if_pos k2, k3, if_true, k4,
        List.length_cons, List.length_nil]
    · rename_i h3
      split
      · rename_i h4
        refine ⟨?_, by simp⟩
        have k1 : ¬ (224 + c / 4096 < 0x80) := by omega
        have k2 : ¬ (0xC2 ≤ 224 + c / 4096 ∧ 224 + c / 4096 ≤ 0xDF) := by omega
        have k2' : 0xE0 ≤ 224 + c / 4096 ∧ 224 + c / 4096 ≤ 0xEF := by omega
        have k3 : cont (128 + c / 64 % 64) = true := by
          simp only [cont, Bool.and_eq_true, decide_eq_true_eq]; omega
        have k5 : cont (128 + c % 64) = true := by
          simp only [cont, Bool.and_eq_true, decide_eq_true_eq]; omega
        have k6 : (cont (128 + c / 64 % 64) && (224 + c / 4096 != 0xE0 || decide (0xA0 ≤ 128 + c / 64 % 64)) &&
            (224 + c / 4096 != 0xED || decide (128 + c / 64 % 64 ≤ 0x9F))) = true := by
          simp only [k3, Bool.true_and, Bool.and_eq_true, Bool.or_eq_true, bne_iff_ne, ne_eq,
            decide_eq_true_eq]
          omega
        have k4 : (224 + c / 4096 - 0xE0) * 4096 + (128 + c / 64 % 64 - 0x80) * 64 +
            (128 + c % 64 - 0x80) = c := by omega
        simp only [List.cons_append, List.nil_append, utf8Head, if_neg k1, if_neg k2, if_pos k2', k6,
          if_true, k5, k4, List.length_cons, List.length_nil]
      · rename_i h4
        refine ⟨?_, by simp⟩
        have k1 : ¬ (240 + c / 262144 < 0x80) := by omega
        have k2 : ¬ (0xC2 ≤ 240 + c / 262144 ∧ 240 + c / 262144 ≤ 0xDF) := by omega
        have k2' : ¬ (0xE0 ≤ 240 + c / 262144 ∧ 240 + c / 262144 ≤ 0xEF) := by omega
        have k2'' : 0xF0 ≤ 240 + c / 262144 ∧ 240 + c / 262144 ≤ 0xF4 := by omega
        have k3 : cont (128 + c / 4096 % 64) = true := by
          simp only [cont, Bool.and_eq_true, decide_eq_true_eq]; omega
        have k5 : cont (128 + c / 64 % 64) = true := by
          simp only [cont, Bool.and_eq_true, decide_eq_true_eq]; omega
        have k7 : cont (128 + c % 64) = true := by
          simp only [cont, Bool.and_eq_true, decide_eq_true_eq]; omega
        have k6 : (cont (128 + c / 4096 % 64) && (240 + c / 262144 != 0xF0 || decide (0x90 ≤ 128 + c / 4096 % 64)) &&
            (240 + c / 262144 != 0xF4 || decide (128 + c / 4096 % 64 ≤ 0x8F))) = true := by
          simp only [k3, Bool.true_and, Bool.and_eq_true, Bool.or_eq_true, bne_iff_ne, ne_eq,
            decide_eq_true_eq]
          omega
        have k4 : (240 + c / 262144 - 0xF0) * 262144 + (128 + c / 4096 % 64 - 0x80) * 4096 +
            (128 + c / 64 % 64 - 0x80) * 64 + (128 + c % 64 - 0x80) = c := by omega
        simp only [List.cons_append, List.nil_append, utf8Head, if_neg k1, if_neg k2, if_neg k2',
          if_pos k2'', k6, if_true, k5, k7, k4, List.length_cons, List.length_nil]

theorem utf8_cons (c : Nat) (s : Str) : utf8 (c :: s) = enc c ++ utf8 s := rfl

theorem utf8_append (a b : Str) : utf8 (a ++ b) = utf8 a ++ utf8 b := by
  simp [utf8]

theorem decodeReplaceF_utf8 (s : Str) (h : ∀ c ∈ s, Scalar c) : ∀ n, (utf8 s).length ≤ n →
    decodeReplaceF n (utf8 s) = s := by
  induction s with
  | nil => intro n _; cases n <;> rfl
  | cons c s ih =>
    intro n hn
    have he := enc_head c (h c (by simp)) (utf8 s)
    rw [utf8_cons] at hn ⊢
    cases hb : enc c ++ utf8 s with
    | nil => simp [he.2] at hb
    | cons b r =>
      cases n with
      | zero => rw [hb] at hn; simp at hn
      | succ n =>
        rw [decodeReplaceF, ← hb, he.1]
        simp only [Option.getD_some, List.drop_left]
        rw [ih (fun x hx => h x (by simp [hx])) n]
        have : 0 < (enc c).length := List.length_pos_iff.2 he.2
        simp only [List.length_append] at hn
        omega

theorem decodeReplace_utf8 (s : Str) (h : ∀ c ∈ s, Scalar c) : decodeReplace (utf8 s) = s :=
  decodeReplaceF_utf8 s h _ (Nat.le_refl _)

theorem decodeStrictF_utf8 (s : Str) (h : ∀ c ∈ s, Scalar c) : ∀ n, (utf8 s).length ≤ n →
    decodeStrictF n (utf8 s) = some s := by
  induction s with
  | nil => intro n _; cases n <;> rfl
  | cons c s ih =>
    intro n hn
    have he := enc_head c (h c (by simp)) (utf8 s)
    rw [utf8_cons] at hn ⊢
    cases hb : enc c ++ utf8 s with
    | nil => simp [he.2] at hb
    | cons b r =>
      cases n with
      | zero => rw [hb] at hn; simp at hn
      | succ n =>
        rw [decodeStrictF, ← hb, he.1]
        simp only [List.drop_left]
        rw [ih (fun x hx => h x (by simp [hx])) n]
        · rfl
        · have : 0 < (enc c).length := List.length_pos_iff.2 he.2
          simp only [List.length_append] at hn
          omega

theorem decodeStrict_utf8 (s : Str) (h : ∀ c ∈ s, Scalar c) : decodeStrict (utf8 s) = some s :=
  decodeStrictF_utf8 s h _ (Nat.le_refl _)

theorem utf8_ascii (s : Str) (h : ∀ c ∈ s, c < 128) : utf8 s = s := by
  induction s with
  | nil => rfl
  | cons c s ih =>
    rw [utf8_cons, ih (fun x hx => h x (by simp [hx]))]
    simp [enc, h c (by simp)]

theorem scalar_ascii {c : Nat} (h : c < 128) : Scalar c := ⟨by omega, by omega⟩

theorem decodeReplace_ascii (s : Str) (h : ∀ c ∈ s, c < 128) : decodeReplace s = s := by
  have := decodeReplace_utf8 s (fun c hc => scalar_ascii (h c hc))
  rwa [utf8_ascii s h] at this

/-! ## Percent-encoding -/

theorem unpercent_lit (c : Nat) (r : Str) (h : c ≠ 37) : unpercent (c :: r) = c :: unpercent r := by
  rw [unpercent.eq_def]
  split
  · rename_i e; cases e
  · rename_i e; simp only [List.cons.injEq] at e; exact absurd e.1 h
  · rename_i e; simp only [List.cons.injEq] at e; rw [e.1, e.2]

theorem hexv_of {x c : Nat} (h : HexOf x c) : hexv c = some x := by
  unfold hexv
  rcases h with ⟨h1, rfl⟩ | ⟨h1, h2, rfl | rfl⟩
  · rw [if_pos (by omega)]; congr 1; omega
  · rw [if_neg (by omega), if_pos (by omega)]; congr 1; omega
  · rw [if_neg (by omega), if_neg (by omega), if_pos (by omega)]; congr 1; omega

theorem unpercent_pct {x y h l : Nat} (hx : HexOf x h) (hy : HexOf y l) (r : Str) :
    unpercent (37 :: h :: l :: r) = (16 * x + y) :: unpercent r := by
  rw [unpercent]
  simp only [hexv_of hx, hexv_of hy]

theorem hexOf_ascii {x c : Nat} (h : HexOf x c) : c < 128 ∧ c ≠ 37 ∧ c ≠ 38 ∧ c ≠ 61 ∧ c ≠ 43 ∧ 33 ≤ c := by
  unfold HexOf at h; omega

/-- Undoing an encoding, with anything behind it. -/
theorem unpercent_Pct {lit : Nat → Prop} (hl : ∀ b, lit b → b ≠ 37) {bs t : List Nat}
    (h : Pct lit false bs t) (rest : Str) : unpercent (t ++ rest) = bs ++ unpercent rest := by
  induction h with
  | nil => rfl
  | lit hb _ ih => rw [List.cons_append, unpercent_lit _ _ (hl _ hb), ih]; rfl
  | pct hx hy _ ih =>
    simp only [List.cons_append]
    rw [unpercent_pct hx hy, ih]
  | plus hp _ _ => cases hp

theorem Pct_chars {lit : Nat → Prop} {plus : Bool} {P : Nat → Prop} (hl : ∀ b, lit b → P b)
    (h37 : P 37) (hh : ∀ x c, HexOf x c → P c) (hp : plus = true → P 43) {bs t : List Nat}
    (h : Pct lit plus bs t) : ∀ c ∈ t, P c := by
  induction h with
  | nil => simp
  | lit hb _ ih =>
    intro c hc
    rcases List.mem_cons.1 hc with rfl | hc
    · exact hl _ hb
    · exact ih c hc
  | pct hx hy _ ih =>
    intro c hc
    simp only [List.mem_cons] at hc
    rcases hc with rfl | rfl | rfl | hc
    · exact h37
    · exact hh _ _ hx
    · exact hh _ _ hy
    · exact ih c hc
  | plus hpp _ ih =>
    intro c hc
    rcases List.mem_cons.1 hc with rfl | hc
    · exact hp hpp
    · exact ih c hc

theorem Pct_append {lit : Nat → Prop} {plus : Bool} {a b s t : List Nat} (h : Pct lit plus a s)
    (h' : Pct lit plus b t) : Pct lit plus (a ++ b) (s ++ t) := by
  induction h with
  | nil => exact h'
  | lit hb _ ih => exact .lit hb ih
  | pct hx hy _ ih => exact .pct hx hy ih
  | plus hp _ ih => exact .plus hp ih

theorem unquoteRuns_ascii (s : Str) (h : ∀ c ∈ s, c < 128) : ∀ run : Str,
    unquoteRuns run s = decodeReplace (unpercent (run.reverse ++ s)) := by
  induction s with
  | nil => intro run; simp [unquoteRuns]
  | cons c s ih =>
    intro run
    rw [unquoteRuns, if_pos (h c (by simp)), ih (fun x hx => h x (by simp [hx]))]
    simp

theorem unpercent_none (s : Str) (h : 37 ∉ s) : unpercent s = s := by
  induction s with
  | nil => rfl
  | cons c s ih =>
    have hc : c ≠ 37 := fun e => h (by simp [e])
    rw [unpercent_lit c s hc, ih (fun e => h (by simp [e]))]

/-- `unquote` on ASCII text, with or without percent signs. -/
theorem unquote_ascii (s : Str) (h : ∀ c ∈ s, c < 128) :
    unquote s = decodeReplace (unpercent s) := by
  unfold unquote
  split
  · rw [unquoteRuns_ascii s h]; rfl
  · rename_i hn
    rw [unpercent_none s hn, decodeReplace_ascii s h]

theorem unquote_Pct {lit : Nat → Prop} (hl : ∀ b, lit b → b < 128 ∧ b ≠ 37) {s t : Str}
    (hs : ∀ c ∈ s, Scalar c) (h : Pct lit false (utf8 s) t) : unquote t = s := by
  have ha : ∀ c ∈ t, c < 128 := Pct_chars (P := fun c => c < 128) (fun b hb => (hl b hb).1) (by decide)
    (fun x c hc => (hexOf_ascii hc).1) (fun hp => by decide) h
  rw [unquote_ascii t ha]
  have := unpercent_Pct (fun b hb => (hl b hb).2) h []
  simp only [List.append_nil, unpercent] at this
  rw [this, decodeReplace_utf8 s hs]

theorem unquote_no_percent (s : Str) (h : 37 ∉ s) : unquote s = s := by
  unfold unquote; rw [if_neg h]

/-- Writing spaces instead of plus signs. -/
theorem Pct_plus {bs t : List Nat} (h : Pct FormLit true bs t) :
    Pct QueryLit false bs (t.map (fun c => if c = 43 then 32 else c)) := by
  induction h with
  | nil => exact .nil
  | @lit b bs t hb _ ih =>
    have e : (if b = 43 then 32 else b) = b := by unfold FormLit at hb; rw [if_neg (by omega)]
    simp only [List.map_cons, e]
    exact .lit (by unfold FormLit at hb; unfold QueryLit; omega) ih
  | @pct x y h l bs t hx hy _ ih =>
    have e1 : (if h = 43 then 32 else h) = h := if_neg (hexOf_ascii hx).2.2.2.2.1
    have e2 : (if l = 43 then 32 else l) = l := if_neg (hexOf_ascii hy).2.2.2.2.1
    have e3 : (if (37 : Nat) = 43 then 32 else 37) = 37 := by decide
    simp only [List.map_cons, e1, e2, e3]
    exact .pct hx hy ih
  | plus hp _ ih =>
    have e : (if (43 : Nat) = 43 then 32 else 43) = 32 := by decide
    simp only [List.map_cons, e]
    exact .lit (by unfold QueryLit; omega) ih

/-! ## Names -/

theorem normC_eq (c : Nat) : normC c = nameChar c := by
  unfold normC nameChar
  by_cases h1 : 65 ≤ c ∧ c ≤ 90
  · simp only [if_pos h1]
    rw [if_neg (by omega), if_neg (by omega)]
  · simp only [if_neg h1]

theorem norm_iff (n p : Str) : norm n = p ↔ Matches n p := by
  unfold norm Matches
  have : normC = nameChar := funext normC_eq
  rw [this]

theorem getNamed_some {l : List (Str × Option Str)} {p : Str} {v : Str}
    (h : getNamed p l = some v) : First l p (some v) := by
  induction l with
  | nil => simp [getNamed] at h
  | cons x l ih =>
    obtain ⟨n, w⟩ := x
    rw [getNamed] at h
    split at h
    · rename_i hn
      subst h
      exact ⟨[], n, l, rfl, (norm_iff _ _).1 hn, by simp⟩
    · rename_i hn
      obtain ⟨a, m, b, rfl, h2, h3⟩ := ih h
      refine ⟨(n, w) :: a, m, b, rfl, h2, ?_⟩
      intro x hx
      rcases List.mem_cons.1 hx with rfl | hx
      · exact fun hm => hn ((norm_iff _ _).2 hm)
      · exact h3 x hx

theorem getNamed_none {l : List (Str × Option Str)} {p : Str}
    (h : getNamed p l = none) : Absent l p ∨ First l p none := by
  induction l with
  | nil => exact Or.inl (by simp [Absent])
  | cons x l ih =>
    obtain ⟨n, w⟩ := x
    rw [getNamed] at h
    split at h
    · rename_i hn
      subst h
      exact Or.inr ⟨[], n, l, rfl, (norm_iff _ _).1 hn, by simp⟩
    · rename_i hn
      have hn' : ¬ Matches n p := fun hm => hn ((norm_iff _ _).2 hm)
      rcases ih h with h | ⟨a, m, b, rfl, h2, h3⟩
      · left
        intro x hx
        rcases List.mem_cons.1 hx with rfl | hx
        · exact hn'
        · exact h x hx
      · right
        refine ⟨(n, w) :: a, m, b, rfl, h2, ?_⟩
        intro x hx
        rcases List.mem_cons.1 hx with rfl | hx
        · exact hn'
        · exact h3 x hx

theorem getNamed_first {l : List (Str × Option Str)} {p : Str} {v : Option Str}
    (h : First l p v) : getNamed p l = v := by
  obtain ⟨a, n, b, rfl, h2, h3⟩ := h
  induction a with
  | nil => rw [List.nil_append, getNamed, if_pos ((norm_iff _ _).2 h2)]
  | cons x a ih =>
    obtain ⟨m, w⟩ := x
    rw [List.cons_append, getNamed, if_neg (fun e => h3 (m, w) (by simp) ((norm_iff _ _).1 e))]
    exact ih (fun y hy => h3 y (by simp [hy]))

theorem getNamed_absent {l : List (Str × Option Str)} {p : Str}
    (h : Absent l p) : getNamed p l = none := by
  induction l with
  | nil => rfl
  | cons x l ih =>
    obtain ⟨m, w⟩ := x
    rw [getNamed, if_neg (fun e => h (m, w) (by simp) ((norm_iff _ _).1 e))]
    exact ih (fun y hy => h y (by simp [hy]))

end Fly.PyArgs
