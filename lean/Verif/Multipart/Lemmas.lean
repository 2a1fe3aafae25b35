import Verif.Multipart.Model
import Verif.Multipart.Spec

set_option linter.all false

namespace Fly.Multipart

open Spec

/-! ## Header lines -/

theorem isPrefix_append : ∀ (p s : Bytes), isPrefix p (p ++ s) = .ok ()
  | [], _ => rfl
  | a :: p, s => by rw [List.cons_append, isPrefix, if_pos rfl]; exact isPrefix_append p s

theorem scanName_ok : ∀ (n t : Bytes), 32 ∉ n → 9 ∉ n → 58 ∉ n → 2 ≤ t.length → scanName (n ++ 58 :: t) = some (n, 58 :: t)
  | [], t, _, _, _, _ => by simp [scanName]
  | c :: n, t, h1, h2, h3, ht => by
    have hc : ¬ (c = 32 ∨ c = 9 ∨ c = 58) := by
      rintro (rfl | rfl | rfl)
      · exact h1 (by simp)
      · exact h2 (by simp)
      · exact h3 (by simp)
    rw [List.cons_append, scanName, if_neg hc, if_neg (by simp; omega),
      scanName_ok n t (fun h => h1 (by simp [h])) (fun h => h2 (by simp [h])) (fun h => h3 (by simp [h])) ht]

theorem scanValue_ok : ∀ (v t : Bytes), 13 ∉ v → t ≠ [] → scanValue (v ++ 13 :: 10 :: t) = some (v, 10 :: t)
  | [], t, _, ht => by
    rw [List.nil_append, scanValue, if_pos ⟨rfl, rfl⟩, if_neg (by simpa using ht)]
  | c :: v, t, h, ht => by
    have hc : c ≠ 13 := fun e => h (by simp [e])
    have ih := scanValue_ok v t (fun h' => h (by simp [h'])) ht
    cases v with
    | nil =>
      simp only [List.nil_append, List.cons_append] at ih ⊢
      rw [scanValue, if_neg (by simp), if_neg (by simp), ih]
    | cons d v =>
      simp only [List.cons_append] at ih ⊢
      rw [scanValue, if_neg (fun e => hc e.1), if_neg (by simp), ih]

theorem parseLine_ok (f : Bytes × Bytes) (h : GoodField f) (t : Bytes) (ht : t ≠ []) : parseLine (line f ++ t) = .ok (f, 10 :: t) := by
  obtain ⟨n, v⟩ := f
  obtain ⟨⟨m, hm⟩, h1, h2, h3, h4, h5, h6⟩ := h
  simp only at hm h1 h2 h3 h4 h5 h6
  have e : line (n, v) ++ t = n ++ 58 :: 32 :: (v ++ 13 :: 10 :: t) := by simp [line]
  unfold parseLine
  have hp : isPrefix b!"Content-" (line (n, v) ++ t) = .ok () := by
    rw [e, hm, List.append_assoc]; exact isPrefix_append _ _
  rw [hp, e, scanName_ok n _ h1 h2 h3 (by simp; omega)]
  simp only [if_true]
  unfold afterColon
  rw [if_neg (by simp; omega)]
  have hs : skipBlank (32 :: (v ++ 13 :: 10 :: t)) = some (v ++ 13 :: 10 :: t) := by
    rw [skipBlank, if_pos (Or.inl rfl), if_neg (by simp; omega)]
    cases v with
    | nil => simp [skipBlank]
    | cons c v =>
      rw [List.cons_append, skipBlank, if_neg]
      rintro (rfl | rfl)
      · exact h5 rfl
      · exact h6 rfl
  rw [hs]
  simp only [scanValue_ok v t h4 ht]

theorem line_two (f : Bytes × Bytes) (h : GoodField f) : ∃ a b r, line f = a :: b :: r ∧ a ≠ 13 := by
  obtain ⟨n, v⟩ := f
  obtain ⟨⟨m, hm⟩, _⟩ := h
  simp only at hm
  subst hm
  exact ⟨67, 111, b!"ntent-" ++ m ++ b!": " ++ v ++ b!"\r\n", by simp [line], by simp⟩

theorem parseHeader_ok : ∀ (fs : List (Bytes × Bytes)) (n : Nat) (t : Bytes), (∀ f ∈ fs, GoodField f) → fs.length < n →
    parseHeader n (fs.flatMap line ++ 13 :: 10 :: t) = .ok (fs, t)
  | [], n + 1, t, _, _ => by
    rw [List.flatMap_nil, List.nil_append, parseHeader, if_pos ⟨rfl, rfl⟩]
  | f :: fs, n + 1, t, h, hn => by
    have hl := parseLine_ok f (h f (by simp)) (fs.flatMap line ++ 13 :: 10 :: t) (by simp)
    have e : (f :: fs).flatMap line ++ 13 :: 10 :: t = line f ++ (fs.flatMap line ++ 13 :: 10 :: t) := by simp
    have ih := parseHeader_ok fs n t (fun g hg => h g (by simp [hg])) (by simp at hn; omega)
    obtain ⟨a, b, r, ea, ha⟩ := line_two f (h f (by simp))
    rw [e]
    rw [ea, List.cons_append, List.cons_append] at hl ⊢
    rw [parseHeader, if_neg (fun x => ha x.1), hl]
    simp only [List.drop_succ_cons, List.drop_zero, ih]

theorem flatMap_line_length (fs : List (Bytes × Bytes)) : fs.length ≤ (fs.flatMap line).length := by
  induction fs with
  | nil => simp
  | cons f fs ih => simp [line] at *; omega

/-! ## The scan -/

theorem setLast_append (ps : List RawPart) (p : RawPart) (here : Bytes) :
    setLast (ps ++ [p]) here = ps ++ [{ p with len := (p.start.length : Int) - here.length - 2 }] := by
  induction ps with
  | nil => rfl
  | cons q ps ih =>
    cases ps with
    | nil => rfl
    | cons r ps => rw [List.cons_append, List.cons_append, setLast]; rw [List.cons_append] at ih; rw [ih]; rfl

theorem setLast_setLast (ps : List RawPart) (a b : Bytes) : setLast (setLast ps a) b = setLast ps b := by
  rcases List.eq_nil_or_concat ps with rfl | ⟨qs, p, rfl⟩
  · rfl
  · rw [List.concat_eq_append, setLast_append, setLast_append, setLast_append]

theorem cmp_full : ∀ (bd t : Bytes), bd ≠ [] → cmp bd (bd ++ t) = .full t
  | [], _, h => absurd rfl h
  | [x], t, _ => by simp [cmp]
  | x :: y :: bd, t, _ => by
    rw [List.cons_append, cmp, if_pos rfl, if_neg (by simp)]
    exact cmp_full (y :: bd) t (by simp)

/-- Comparing a boundary with a text it is no prefix of ends within the text, or one byte behind, where a byte `x`
follows that is not in the boundary. -/
theorem cmp_miss (x : Nat) (T : Bytes) : ∀ (bd c : Bytes), bd ≠ [] → x ∉ bd → ¬ bd <+: c →
    ∃ r, cmp bd (c ++ x :: T) = .mismatch r ∧ ((∃ c', c' <:+ c ∧ r = c' ++ x :: T) ∨ r = T)
  | [], _, h, _, _ => absurd rfl h
  | b :: bd, [], _, hx, _ => by
    refine ⟨T, ?_, Or.inr rfl⟩
    rw [List.nil_append, cmp, if_neg (fun e => hx (by simp [e]))]
  | b :: bd, y :: c, _, hx, hn => by
    rw [List.cons_append, cmp]
    by_cases e : b = y
    · subst e
      have hbd : bd ≠ [] := by
        rintro rfl
        exact hn ⟨c, rfl⟩
      rw [if_pos rfl, if_neg hbd]
      obtain ⟨r, e1, e2⟩ := cmp_miss x T bd c hbd (fun h => hx (by simp [h])) (fun ⟨t, ht⟩ => hn ⟨t, by rw [← ht]; rfl⟩)
      refine ⟨r, e1, ?_⟩
      rcases e2 with ⟨c', hc, rfl⟩ | rfl
      · exact Or.inl ⟨c', hc.trans (List.suffix_cons _ _), rfl⟩
      · exact Or.inr rfl
    · rw [if_neg e]
      exact ⟨_, rfl, Or.inl ⟨c, List.suffix_cons _ _, rfl⟩⟩

/-- From the delimiter on. -/
theorem scan_delim {bd D : Bytes} (hbd : GoodBoundary bd) {R : List RawPart → Out}
    (hD : ∀ (n : Nat) (ps : List RawPart), D.length < n → scan (n + 1) bd ps (b!"--" ++ bd ++ D) = R (setLast ps (b!"--" ++ bd ++ D)))
    (n : Nat) (ps : List RawPart) (hn : D.length < n) :
    scan (n + 2) bd ps (10 :: (b!"--" ++ bd ++ D)) = R (setLast ps (b!"--" ++ bd ++ D)) := by
  have : (b!"--" ++ bd ++ D : Bytes) = 45 :: (45 :: bd ++ D) := by simp
  rw [this] at hD ⊢
  rw [scan, if_neg (by simp), hD n ps hn]

/-- Scanning a text without the delimiter reaches the delimiter behind it. -/
theorem scan_text {bd D : Bytes} (hbd : GoodBoundary bd) {R : List RawPart → Out}
    (hD : ∀ (n : Nat) (ps : List RawPart), D.length < n → scan (n + 1) bd ps (b!"--" ++ bd ++ D) = R (setLast ps (b!"--" ++ bd ++ D))) :
    ∀ (k : Nat) (c : Bytes) (n : Nat) (ps : List RawPart), c.length ≤ k → Free bd c → D.length + c.length + 4 ≤ n →
      scan n bd ps (c ++ 13 :: 10 :: (b!"--" ++ bd ++ D)) = R (setLast ps (b!"--" ++ bd ++ D)) := by
  intro k
  induction k with
  | zero =>
    intro c n ps hc _ hn
    have : c = [] := List.eq_nil_of_length_eq_zero (by omega)
    subst this
    obtain ⟨m, rfl⟩ : ∃ m, n = m + 3 := ⟨n - 3, by simp at hn; omega⟩
    rw [List.nil_append, scan, if_neg (by simp)]
    exact scan_delim hbd hD m ps (by simp at hn; omega)
  | succ k ih =>
    intro c n ps hc hf hn
    have hsuf : ∀ c', c' <:+ c → Free bd c' := fun c' h hi => hf (hi.trans h.isInfix)
    cases c with
    | nil => exact ih [] n ps (by simp) hf hn
    | cons a c =>
      simp only [List.length_cons] at hc hn
      obtain ⟨m, rfl⟩ : ∃ m, n = m + 3 := ⟨n - 3, by omega⟩
      cases c with
      | nil =>
        rw [List.cons_append, List.nil_append, scan, if_neg (by simp)]
        exact ih [] (m + 2) ps (by simp) (hsuf [] (List.nil_suffix)) (by simp at hn ⊢; omega)
      | cons b c =>
        simp only [List.length_cons] at hc hn
        rw [List.cons_append, List.cons_append, scan]
        by_cases hab : a = 45 ∧ b = 45
        · rw [if_pos hab]
          obtain ⟨rfl, rfl⟩ := hab
          have hnp : ¬ bd <+: c := fun ⟨t, ht⟩ => hf ⟨[], t, by rw [← ht]; simp⟩
          obtain ⟨r, e1, e2⟩ := cmp_miss 13 (10 :: (b!"--" ++ bd ++ D)) bd c hbd.1 hbd.2.1 hnp
          rw [e1]
          simp only
          rcases e2 with ⟨c', hc', rfl⟩ | rfl
          · have hl := hc'.length_le
            rw [ih c' _ _ (by omega) (hsuf c' (hc'.trans ((List.suffix_cons _ _).trans (List.suffix_cons _ _)))) (by omega), setLast_setLast]
          · rw [scan_delim hbd hD m _ (by omega), setLast_setLast]
        · rw [if_neg hab]
          have := ih (b :: c) (m + 2) ps (by simp; omega) (hsuf _ (List.suffix_cons _ _)) (by simp; omega)
          rw [← this]; rfl

/-! ## A whole body -/

/-- The parts as they are recorded. -/
def raw (bd ep : Bytes) : List Part → List RawPart
  | [] => []
  | p :: ps => ⟨p.1, p.2 ++ b!"\r\n--" ++ bd ++ after bd ep ps, p.2.length⟩ :: raw bd ep ps

theorem found_part {bd ep : Bytes} {p : Part} (hp : ∀ f ∈ p.1, GoodField f) (ps : List Part) :
    found (after bd ep (p :: ps)) = .part p.1 (p.2 ++ 13 :: 10 :: (b!"--" ++ bd ++ after bd ep ps)) := by
  have e : after bd ep (p :: ps) = 13 :: 10 :: (p.1.flatMap line ++ 13 :: 10 :: (p.2 ++ 13 :: 10 :: (b!"--" ++ bd ++ after bd ep ps))) := by
    simp [after]
  rw [e]
  unfold found
  simp only
  rw [if_neg (by simp), if_neg (by simp), if_neg (by simp),
    parseHeader_ok p.1 _ _ hp (by have := flatMap_line_length p.1; simp only [List.length_append]; omega)]

theorem scan_after {bd ep : Bytes} (hbd : GoodBoundary bd) : ∀ (ps : List Part), (∀ p ∈ ps, GoodPart bd p ∧ p.2.head? ≠ some 0) →
    ∀ (n : Nat) (qs : List RawPart), (after bd ep ps).length < n →
      scan (n + 1) bd qs (b!"--" ++ bd ++ after bd ep ps) = .done (setLast qs (b!"--" ++ bd ++ after bd ep ps) ++ raw bd ep ps)
  | [], _, n, qs, _ => by
    have e : (b!"--" ++ bd ++ after bd ep [] : Bytes) = 45 :: 45 :: (bd ++ after bd ep []) := by simp
    rw [e, scan, if_pos ⟨rfl, rfl⟩, cmp_full _ _ hbd.1]
    have hf : found (after bd ep []) = .stop := by simp [after, found]
    simp only [hf]
    rw [raw, List.append_nil]
  | p :: ps, h, n, qs, hn => by
    have e : (b!"--" ++ bd ++ after bd ep (p :: ps) : Bytes) = 45 :: 45 :: (bd ++ after bd ep (p :: ps)) := by simp
    have hlen : (after bd ep (p :: ps)).length = (p.1.flatMap line).length + p.2.length + bd.length + (after bd ep ps).length + 8 := by
      simp [after]; omega
    have hg := (h p (by simp)).1
    rw [e, scan, if_pos ⟨rfl, rfl⟩, cmp_full _ _ hbd.1]
    simp only [found_part hg.1 ps]
    rw [← e]
    have hD := scan_after hbd ps (fun q hq => h q (by simp [hq])) (ep := ep)
    obtain ⟨m, rfl⟩ : ∃ m, n = m + 3 := ⟨n - 3, by omega⟩
    have hraw : ∀ (S : Bytes), S = p.2 ++ 13 :: 10 :: (b!"--" ++ bd ++ after bd ep ps) →
        setLast (setLast qs (b!"--" ++ bd ++ after bd ep (p :: ps)) ++ [⟨p.1, S, 0⟩]) (b!"--" ++ bd ++ after bd ep ps) ++ raw bd ep ps =
          setLast qs (b!"--" ++ bd ++ after bd ep (p :: ps)) ++ raw bd ep (p :: ps) := by
      intro S hS
      rw [setLast_append, raw, List.append_assoc]
      subst hS
      congr 1
      simp; omega
    cases hc : p.2 with
    | nil =>
      rw [List.nil_append]
      simp only
      rw [if_pos (by simp), scan_delim hbd (R := fun qs => .done (qs ++ raw bd ep ps)) hD (m + 1) _ (by rw [hc] at hlen; simp at hlen; omega)]
      rw [hraw _ (by rw [hc]; rfl)]
    | cons y c =>
      have hy : y ≠ 0 := fun e0 => (h p (by simp)).2 (by rw [hc, e0]; rfl)
      rw [List.cons_append]
      simp only
      rw [if_pos hy, scan_text hbd (R := fun qs => .done (qs ++ raw bd ep ps)) hD c.length c _ _ (Nat.le_refl _)
        (fun hi => hg.2 (by rw [hc]; exact hi.trans (List.suffix_cons _ _).isInfix)) (by rw [hc] at hlen; simp at hlen; omega)]
      rw [hraw _ (by rw [hc]; rfl)]

theorem pyParts_raw (bd ep : Bytes) (ps : List Part) : pyParts (raw bd ep ps) = some ps := by
  induction ps with
  | nil => rfl
  | cons p ps ih =>
    rw [raw, pyParts, if_neg (by simp), ih]
    simp

/-- The scan of a whole body. -/
theorem scan_encode {bd : Bytes} (hbd : GoodBoundary bd) (pre : Option Bytes) (hpre : ∀ t, pre = some t → Free bd t) (ep : Bytes) (ps : List Part)
    {R : List RawPart → Out}
    (hD : ∀ (n : Nat) (qs : List RawPart), (after bd ep ps).length < n →
      scan (n + 1) bd qs (b!"--" ++ bd ++ after bd ep ps) = R (setLast qs (b!"--" ++ bd ++ after bd ep ps))) :
    scan ((encode bd pre ep ps).length + 1) bd [] (encode bd pre ep ps) = R [] := by
  cases pre with
  | none =>
    have e : encode bd none ep ps = b!"--" ++ bd ++ after bd ep ps := by simp [encode]
    rw [e, hD _ [] (by simp; omega)]; rfl
  | some t =>
    have e : encode bd (some t) ep ps = t ++ 13 :: 10 :: (b!"--" ++ bd ++ after bd ep ps) := by simp [encode]
    rw [e, scan_text hbd hD t.length t _ _ (Nat.le_refl _) (hpre t rfl) (by simp; omega)]; rfl

/-! ## Fields with other blanks -/

theorem scanName_stop : ∀ (n t : Bytes) (x : Nat), (x = 32 ∨ x = 9 ∨ x = 58) → 32 ∉ n → 9 ∉ n → 58 ∉ n → 2 ≤ t.length → scanName (n ++ x :: t) = some (n, x :: t)
  | [], t, x, hx, _, _, _, _ => by rw [List.nil_append, scanName, if_pos hx]
  | c :: n, t, x, hx, h1, h2, h3, ht => by
    have hc : ¬ (c = 32 ∨ c = 9 ∨ c = 58) := by
      rintro (rfl | rfl | rfl)
      · exact h1 (by simp)
      · exact h2 (by simp)
      · exact h3 (by simp)
    rw [List.cons_append, scanName, if_neg hc, if_neg (by simp; omega),
      scanName_stop n t x hx (fun h => h1 (by simp [h])) (fun h => h2 (by simp [h])) (fun h => h3 (by simp [h])) ht]

theorem skipBlank_ok : ∀ (bl : Bytes) (x : Nat) (t : Bytes), (∀ c ∈ bl, c = 32 ∨ c = 9) → x ≠ 32 → x ≠ 9 → t ≠ [] → skipBlank (bl ++ x :: t) = some (x :: t)
  | [], x, t, _, h1, h2, _ => by rw [List.nil_append, skipBlank, if_neg (by rintro (h | h) <;> contradiction)]
  | c :: bl, x, t, hb, h1, h2, ht => by
    have := List.length_pos_iff.2 ht
    rw [List.cons_append, skipBlank, if_pos (hb c (by simp)), if_neg (by simp; omega)]
    exact skipBlank_ok bl x t (fun d hd => hb d (by simp [hd])) h1 h2 ht

theorem afterColon_ok (n bl v t : Bytes) (hb : ∀ c ∈ bl, c = 32 ∨ c = 9) (h4 : 13 ∉ v) (h5 : v.head? ≠ some 32) (h6 : v.head? ≠ some 9) (ht : t ≠ []) :
    afterColon n (bl ++ (v ++ 13 :: 10 :: t)) = .ok ((n, v), 10 :: t) := by
  unfold afterColon
  rw [if_neg (by simp; omega)]
  have hs : skipBlank (bl ++ (v ++ 13 :: 10 :: t)) = some (v ++ 13 :: 10 :: t) := by
    cases v with
    | nil => exact skipBlank_ok bl 13 _ hb (by decide) (by decide) (by simp)
    | cons c v =>
      exact skipBlank_ok bl c _ hb (fun e => h5 (by rw [e]; rfl)) (fun e => h6 (by rw [e]; rfl)) (by simp)
  rw [hs]
  simp only [scanValue_ok v t h4 ht]

theorem parseLine_written (w : Written) (h : w.Good) (t : Bytes) (ht : t ≠ []) : parseLine (w.line ++ t) = .ok (w.field, 10 :: t) := by
  obtain ⟨n, b1, b2, v⟩ := w
  obtain ⟨⟨⟨m, hm⟩, h1, h2, h3, h4, h5, h6⟩, hb1, hb2⟩ := h
  simp only [Written.field] at hm h1 h2 h3 h4 h5 h6 hb1 hb2 ⊢
  have e : Written.line ⟨n, b1, b2, v⟩ ++ t = n ++ (b1 ++ 58 :: (b2 ++ (v ++ 13 :: 10 :: t))) := by simp [Written.line]
  rw [e]
  unfold parseLine
  have hp : isPrefix b!"Content-" (n ++ (b1 ++ 58 :: (b2 ++ (v ++ 13 :: 10 :: t)))) = .ok () := by
    rw [hm, List.append_assoc]; exact isPrefix_append _ _
  rw [hp]
  cases b1 with
  | nil =>
    rw [List.nil_append, scanName_stop n _ 58 (by simp) h1 h2 h3 (by simp; omega)]
    simp only [if_true]
    exact afterColon_ok n b2 v t hb2 h4 h5 h6 ht
  | cons c b1 =>
    have hc : c = 32 ∨ c = 9 := hb1 c (by simp)
    rw [List.cons_append, scanName_stop n _ c (by rcases hc with h | h <;> simp [h]) h1 h2 h3 (by simp; omega)]
    simp only
    rw [if_neg (by rintro rfl; simp at hc), if_neg (by simp; omega),
      skipBlank_ok b1 58 _ (fun d hd => hb1 d (by simp [hd])) (by decide) (by decide) (by simp)]
    simp only [if_true]
    exact afterColon_ok n b2 v t hb2 h4 h5 h6 ht

theorem written_two (w : Written) (h : w.Good) : ∃ a b r, w.line = a :: b :: r ∧ a ≠ 13 := by
  obtain ⟨n, b1, b2, v⟩ := w
  obtain ⟨⟨⟨m, hm⟩, _⟩, _⟩ := h
  simp only [Written.field] at hm
  subst hm
  exact ⟨67, 111, b!"ntent-" ++ m ++ b1 ++ b!":" ++ b2 ++ v ++ b!"\r\n", by simp [Written.line], by simp⟩

theorem parseHeader_written : ∀ (ws : List Written) (n : Nat) (t : Bytes), (∀ w ∈ ws, w.Good) → ws.length < n →
    parseHeader n (ws.flatMap Written.line ++ 13 :: 10 :: t) = .ok (ws.map Written.field, t)
  | [], n + 1, t, _, _ => by
    rw [List.flatMap_nil, List.nil_append, parseHeader, if_pos ⟨rfl, rfl⟩]; rfl
  | w :: ws, n + 1, t, h, hn => by
    have hl := parseLine_written w (h w (by simp)) (ws.flatMap Written.line ++ 13 :: 10 :: t) (by simp)
    have e : (w :: ws).flatMap Written.line ++ 13 :: 10 :: t = w.line ++ (ws.flatMap Written.line ++ 13 :: 10 :: t) := by simp
    have ih := parseHeader_written ws n t (fun g hg => h g (by simp [hg])) (by simp at hn; omega)
    obtain ⟨a, b, r, ea, ha⟩ := written_two w (h w (by simp))
    rw [e]
    rw [ea, List.cons_append, List.cons_append] at hl ⊢
    rw [parseHeader, if_neg (fun x => ha x.1), hl]
    simp only [List.drop_succ_cons, List.drop_zero, ih, List.map_cons]

theorem flatMap_written_length (ws : List Written) : ws.length ≤ (ws.flatMap Written.line).length := by
  induction ws with
  | nil => simp
  | cons f fs ih => simp [Written.line] at *; omega

/-- The parts as they are recorded. -/
def rawW (bd ep : Bytes) : List WPart → List RawPart
  | [] => []
  | p :: ps => ⟨p.1.map Written.field, p.2 ++ b!"\r\n--" ++ bd ++ afterW bd ep ps, p.2.length⟩ :: rawW bd ep ps

theorem found_written {bd ep : Bytes} {p : WPart} (hp : ∀ w ∈ p.1, w.Good) (ps : List WPart) :
    found (afterW bd ep (p :: ps)) = .part (p.1.map Written.field) (p.2 ++ 13 :: 10 :: (b!"--" ++ bd ++ afterW bd ep ps)) := by
  have e : afterW bd ep (p :: ps) = 13 :: 10 :: (p.1.flatMap Written.line ++ 13 :: 10 :: (p.2 ++ 13 :: 10 :: (b!"--" ++ bd ++ afterW bd ep ps))) := by
    simp [afterW]
  rw [e]
  unfold found
  simp only
  rw [if_neg (by simp), if_neg (by simp), if_neg (by simp),
    parseHeader_written p.1 _ _ hp (by have := flatMap_written_length p.1; simp only [List.length_append]; omega)]

theorem scan_afterW {bd ep : Bytes} (hbd : GoodBoundary bd) : ∀ (ps : List WPart), (∀ p ∈ ps, GoodWPart bd p ∧ p.2.head? ≠ some 0) →
    ∀ (n : Nat) (qs : List RawPart), (afterW bd ep ps).length < n →
      scan (n + 1) bd qs (b!"--" ++ bd ++ afterW bd ep ps) = .done (setLast qs (b!"--" ++ bd ++ afterW bd ep ps) ++ rawW bd ep ps)
  | [], _, n, qs, _ => by
    have e : (b!"--" ++ bd ++ afterW bd ep [] : Bytes) = 45 :: 45 :: (bd ++ afterW bd ep []) := by simp
    rw [e, scan, if_pos ⟨rfl, rfl⟩, cmp_full _ _ hbd.1]
    have hf : found (afterW bd ep []) = .stop := by simp [afterW, found]
    simp only [hf]
    rw [rawW, List.append_nil]
  | p :: ps, h, n, qs, hn => by
    have e : (b!"--" ++ bd ++ afterW bd ep (p :: ps) : Bytes) = 45 :: 45 :: (bd ++ afterW bd ep (p :: ps)) := by simp
    have hlen : (afterW bd ep (p :: ps)).length = (p.1.flatMap Written.line).length + p.2.length + bd.length + (afterW bd ep ps).length + 8 := by
      simp [afterW]; omega
    have hg := (h p (by simp)).1
    rw [e, scan, if_pos ⟨rfl, rfl⟩, cmp_full _ _ hbd.1]
    simp only [found_written hg.1 ps]
    rw [← e]
    have hD := scan_afterW hbd ps (fun q hq => h q (by simp [hq])) (ep := ep)
    obtain ⟨m, rfl⟩ : ∃ m, n = m + 3 := ⟨n - 3, by omega⟩
    have hraw : ∀ (S : Bytes), S = p.2 ++ 13 :: 10 :: (b!"--" ++ bd ++ afterW bd ep ps) →
        setLast (setLast qs (b!"--" ++ bd ++ afterW bd ep (p :: ps)) ++ [⟨p.1.map Written.field, S, 0⟩]) (b!"--" ++ bd ++ afterW bd ep ps) ++ rawW bd ep ps =
          setLast qs (b!"--" ++ bd ++ afterW bd ep (p :: ps)) ++ rawW bd ep (p :: ps) := by
      intro S hS
      rw [setLast_append, rawW, List.append_assoc]
      subst hS
      congr 1
      simp; omega
    cases hc : p.2 with
    | nil =>
      rw [List.nil_append]
      simp only
      rw [if_pos (by simp), scan_delim hbd (R := fun qs => .done (qs ++ rawW bd ep ps)) hD (m + 1) _ (by rw [hc] at hlen; simp at hlen; omega)]
      rw [hraw _ (by rw [hc]; rfl)]
    | cons y c =>
      have hy : y ≠ 0 := fun e0 => (h p (by simp)).2 (by rw [hc, e0]; rfl)
      rw [List.cons_append]
      simp only
      rw [if_pos hy, scan_text hbd (R := fun qs => .done (qs ++ rawW bd ep ps)) hD c.length c _ _ (Nat.le_refl _)
        (fun hi => hg.2 (by rw [hc]; exact hi.trans (List.suffix_cons _ _).isInfix)) (by rw [hc] at hlen; simp at hlen; omega)]
      rw [hraw _ (by rw [hc]; rfl)]

theorem pyParts_rawW (bd ep : Bytes) (ps : List WPart) : pyParts (rawW bd ep ps) = some (ps.map meant) := by
  induction ps with
  | nil => rfl
  | cons p ps ih =>
    rw [rawW, pyParts, if_neg (by simp), ih]
    simp [meant]

/-- The scan of a whole body. -/
theorem scan_encodeW {bd : Bytes} (hbd : GoodBoundary bd) (pre : Option Bytes) (hpre : ∀ t, pre = some t → Free bd t) (ep : Bytes) (ps : List WPart)
    {R : List RawPart → Out}
    (hD : ∀ (n : Nat) (qs : List RawPart), (afterW bd ep ps).length < n →
      scan (n + 1) bd qs (b!"--" ++ bd ++ afterW bd ep ps) = R (setLast qs (b!"--" ++ bd ++ afterW bd ep ps))) :
    scan ((encodeW bd pre ep ps).length + 1) bd [] (encodeW bd pre ep ps) = R [] := by
  cases pre with
  | none =>
    have e : encodeW bd none ep ps = b!"--" ++ bd ++ afterW bd ep ps := by simp [encodeW]
    rw [e, hD _ [] (by simp; omega)]; rfl
  | some t =>
    have e : encodeW bd (some t) ep ps = t ++ 13 :: 10 :: (b!"--" ++ bd ++ afterW bd ep ps) := by simp [encodeW]
    rw [e, scan_text hbd hD t.length t _ _ (Nat.le_refl _) (hpre t rfl) (by simp; omega)]; rfl

end Fly.Multipart
