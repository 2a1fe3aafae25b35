import Verif.Encode.Spec
set_option linter.all false

namespace Fly.Encode

theorem sameLetters_iff : ∀ a b : Bytes, SameLetters a b ↔ a.map lower = b
  | [], [] => by simp [SameLetters]
  | [], y :: b => by simp [SameLetters]
  | x :: a, [] => by simp [SameLetters]
  | x :: a, y :: b => by
    have ih := sameLetters_iff a b
    have h1 : SameLetter x y ↔ lower x = y := by
      unfold SameLetter lower
      split <;> omega
    simp only [SameLetters, List.map_cons, List.cons.injEq, ih, h1]

theorem fromName_iff (n : Bytes) (k : Coding) : fromName n = some k ↔ Named n k := by
  unfold Named
  rw [sameLetters_iff]
  unfold fromName table
  simp only [List.find?_cons]
  constructor
  · intro h
    repeat' split at h
    all_goals first
      | (simp at h; subst h; simp_all [nameOf]; done)
      | (simp at h)
    all_goals (rename_i hh; simp at hh; subst h; rw [← hh]; rfl)
  · intro h
    rw [h]
    cases k <;> decide

theorem fromName_long (n : Bytes) (h : 8 < n.length) : fromName n = none := by
  cases hf : fromName n with
  | none => rfl
  | some k =>
    have := (fromName_iff n k).1 hf
    unfold Named at this
    rw [sameLetters_iff] at this
    have e : n.length = (nameOf k).length := by rw [← this]; simp
    cases k <;> simp [nameOf] at e <;> omega

def sep (d : Nat) : Bool := space d || d == 59 || d == 44 || d == 0

theorem copyName_cons (i c d : Nat) (r : Bytes) : copyName i (c :: d :: r) =
    if i + 1 ≥ 20 then (if sep d then none else some [])
    else if sep d then some [c] else (copyName (i + 1) (d :: r)).map (c :: ·) := by
  rw [copyName.eq_def]; rfl

theorem copyName_spec : ∀ (n : Bytes) (i d : Nat) (r : Bytes), i < 20 → n ≠ [] → (∀ c ∈ n, sep c = false) → sep d = true →
    copyName i (n ++ d :: r) =
      if i + n.length < 20 then some n else if i + n.length = 20 then none else some (n.take (19 - i))
  | [], _, _, _, _, h, _, _ => absurd rfl h
  | [c], i, d, r, hi, _, _, hd => by
    rw [List.cons_append, List.nil_append, copyName_cons]
    by_cases h : i + 1 ≥ 20
    · rw [if_pos h, if_pos hd, if_neg (by simp only [List.length_cons, List.length_nil]; omega),
        if_pos (by simp only [List.length_cons, List.length_nil]; omega)]
    · rw [if_neg h, if_pos hd, if_pos (by simp only [List.length_cons, List.length_nil]; omega)]
  | c :: c2 :: n, i, d, r, hi, _, hn, hd => by
    rw [List.cons_append, List.cons_append, copyName_cons]
    have hc2 : sep c2 = false := hn c2 (by simp)
    by_cases h : i + 1 ≥ 20
    · rw [if_pos h, if_neg (by simp [hc2]), if_neg (by simp only [List.length_cons]; omega),
        if_neg (by simp only [List.length_cons]; omega)]
      rw [show 19 - i = 0 by omega]; rfl
    · rw [if_neg h, if_neg (by simp [hc2])]
      have ih := copyName_spec (c2 :: n) (i + 1) d r (by omega) (by simp) (fun x hx => hn x (List.mem_cons_of_mem _ hx)) hd
      rw [List.cons_append] at ih
      rw [ih]
      have e : i + (n.length + 1 + 1) = i + 1 + (n.length + 1) := by omega
      simp only [List.length_cons, e]
      by_cases h1 : i + 1 + (n.length + 1) < 20
      · simp only [if_pos h1]; rfl
      · by_cases h2 : i + 1 + (n.length + 1) = 20
        · simp only [if_neg h1, if_pos h2]; rfl
        · simp only [if_neg h1, if_neg h2]
          rw [show 19 - i = (19 - (i + 1)) + 1 by omega]; rfl

theorem copyName_from (n : Bytes) (d : Nat) (r : Bytes) (hne : n ≠ []) (hn : ∀ c ∈ n, sep c = false) (hd : sep d = true)
    (h20 : n.length ≠ 20) : ∃ m, copyName 0 (n ++ d :: r) = some m ∧ fromName m = fromName n := by
  rw [copyName_spec n 0 d r (by omega) hne hn hd]
  by_cases h : 0 + n.length < 20
  · exact ⟨n, by rw [if_pos h], rfl⟩
  · rw [if_neg h, if_neg (by omega)]
    exact ⟨_, rfl, by rw [fromName_long n (by omega), fromName_long _ (by simp; omega)]⟩

/-! ## percentages -/

theorem pct_table : ∀ v : Fin 1000, pct v.1 ≤ v.1 / 10 ∧ v.1 / 10 ≤ pct v.1 + 1 ∧ (0 < pct v.1 ↔ 10 ≤ v.1) ∧
    pct v.1 ≤ pct (v.1 + 1) ∧ pct v.1 < 100 := by
  decide +kernel

theorem pct_le_succ (v : Nat) (h : v < 1000) : pct v ≤ pct (v + 1) := (pct_table ⟨v, h⟩).2.2.2.1

theorem pct_mono (a b : Nat) (h : a ≤ b) (hb : b ≤ 1000) : pct a ≤ pct b := by
  induction b with
  | zero => have : a = 0 := by omega
            subst this; exact Nat.le_refl _
  | succ b ih =>
    by_cases e : a = b + 1
    · subst e; exact Nat.le_refl _
    · exact Nat.le_trans (ih (by omega) (by omega)) (pct_le_succ b (by omega))

/-! ## the parser -/

theorem parse_go (p p' : PS) (c : Nat) (r : Bytes) (h : step p c (c :: r) = .go p') : parse p (c :: r) = parse p' r := by
  rw [parse, h]

/-- Characters of names. -/
def nchar (c : Nat) : Prop := 33 ≤ c ∧ c ≤ 126 ∧ c ≠ 44 ∧ c ≠ 59

theorem nchar_tchar (c : Nat) (h : nchar c) : tchar c = true := by
  simp [tchar, vchar, nchar] at *; omega

theorem nchar_sep (c : Nat) (h : nchar c) : sep c = false := by
  simp [sep, space, nchar] at *; omega

theorem nchar_space (c : Nat) (h : nchar c) : space c = false := by
  simp [space, nchar] at *; omega

theorem parse_names (p : PS) (hp : p.st = .name) (t : Bytes) : ∀ n : Bytes, (∀ c ∈ n, nchar c) → parse p (n ++ t) = parse p t
  | [], _ => rfl
  | c :: n, h => by
    have hc := h c (by simp)
    have ih := parse_names p hp t n fun x hx => h x (by simp [hx])
    rw [List.cons_append, parse_go p p c, ih]
    unfold step
    have h1 := hc
    simp only [nchar] at h1
    simp [nchar_tchar c hc, hp, nchar_space c hc, h1.2.2.1, h1.2.2.2, show c ≠ 0 by omega]

theorem blank_ok (c : Nat) (h : c = 32 ∨ c = 9) : space c = true := by
  rcases h with rfl | rfl <;> rfl

theorem parse_blanks (p : PS) (hp : p.st = .wspace ∨ p.st = .spaceAfter ∨ p.st = .lastSpace ∨ p.st = .comma) (t : Bytes) :
    ∀ w : Bytes, Blanks w → parse p (w ++ t) = parse p t
  | [], _ => rfl
  | c :: w, h => by
    have hc := blank_ok c (h c (by simp))
    have ih := parse_blanks p hp t w fun x hx => h x (by simp [hx])
    rw [List.cons_append, parse_go p p c, ih]
    unfold step
    rcases hp with hp | hp | hp | hp <;> simp [hp, hc]

/-- blanks in front of `;` -/
theorem parse_w1 (p : PS) (hp : p.st = .name) (t : Bytes) (w : Bytes) (hw : Blanks w) :
    parse p (w ++ 59 :: t) = parse { p with st := .semi } t := by
  cases w with
  | nil =>
    rw [List.nil_append, parse_go p { p with st := .semi } 59]
    unfold step
    simp [hp, show tchar 59 = false by decide, show space 59 = false by decide]
  | cons c w =>
    have hc := blank_ok c (hw c (by simp))
    rw [List.cons_append, parse_go p { p with st := .wspace } c,
      parse_blanks { p with st := .wspace } (Or.inl rfl) _ w (fun x hx => hw x (by simp [hx])),
      parse_go { p with st := .wspace } { p with st := .semi } 59]
    · unfold step
      simp [show tchar 59 = false by decide, show space 59 = false by decide]
    · unfold step
      simp [hp, hc]

/-- blanks behind `;` -/
theorem parse_w2 (p : PS) (hp : p.st = .semi) (t : Bytes) (w : Bytes) (hw : Blanks w) :
    parse p (w ++ 113 :: 61 :: t) = parse { p with st := .eq } t := by
  have hq : ∀ p : PS, p.st = .q → parse p (61 :: t) = parse { p with st := .eq } t := by
    intro p hp
    rw [parse_go p { p with st := .eq } 61]
    unfold step
    simp [hp, show tchar 61 = true by decide]
  cases w with
  | nil =>
    rw [List.nil_append, parse_go p { p with st := .q } 113, hq _ rfl]
    unfold step
    simp [hp, show tchar 113 = true by decide, show space 113 = false by decide]
  | cons c w =>
    have hc := blank_ok c (hw c (by simp))
    rw [List.cons_append, parse_go p { p with st := .spaceAfter } c,
      parse_blanks { p with st := .spaceAfter } (Or.inr (Or.inl rfl)) _ w (fun x hx => hw x (by simp [hx])),
      parse_go { p with st := .spaceAfter } { p with st := .q } 113, hq _ rfl]
    · unfold step
      simp [show tchar 113 = true by decide, show space 113 = false by decide]
    · have : c ≠ 59 := by rcases hw c (by simp) with rfl | rfl <;> decide
      unfold step
      simp [hp, hc, this]

/-- States in which an element may end. -/
def Ended (s : PSt) : Prop := s = .name ∨ s = .oneInt ∨ s = .zeroInt ∨ s = .oneDec ∨ s = .zeroDec ∨ s = .lastSpace

theorem parse_digits (t : Bytes) : ∀ (ds : List Nat) (p : PS), p.st = .zeroDec → (∀ d ∈ ds, d < 10) → p.dec + ds.length ≤ 3 →
    parse p (ds.map (48 + ·) ++ t) = parse { p with dec := p.dec + ds.length } t
  | [], p, _, _, _ => rfl
  | d :: ds, p, hp, hd, hl => by
    have h := hd d (by simp)
    simp only [List.length_cons] at hl
    have hnum : number (48 + d) = true := by simp [number]; omega
    have ht : tchar (48 + d) = true := by simp [tchar, vchar]; omega
    rw [List.map_cons, List.cons_append, parse_go p { p with dec := p.dec + 1 } (48 + d),
      parse_digits t ds { p with dec := p.dec + 1 } hp (fun x hx => hd x (by simp [hx])) (by simp; omega)]
    · simp only [List.length_cons]
      rw [show p.dec + 1 + ds.length = p.dec + (ds.length + 1) by omega]
    · unfold step
      simp [hp, ht, hnum, show p.dec < 3 by omega]

theorem parse_zeros (t : Bytes) : ∀ (k : Nat) (p : PS), p.st = .oneDec → p.dec + k ≤ 3 →
    parse p (List.replicate k 48 ++ t) = parse { p with dec := p.dec + k } t
  | 0, p, _, _ => rfl
  | k + 1, p, hp, hl => by
    rw [List.replicate_succ, List.cons_append, parse_go p { p with dec := p.dec + 1 } 48,
      parse_zeros t k { p with dec := p.dec + 1 } hp (by simp; omega)]
    · simp only
      rw [show p.dec + 1 + k = p.dec + (k + 1) by omega]
    · unfold step
      simp [hp, show tchar 48 = true by decide, show p.dec < 3 by omega]

theorem parse_qtext (p : PS) (hp : p.st = .eq) (hd : p.dec = 0) (q : Q) (hq : q.Ok) (t : Bytes) :
    ∃ s n, Ended s ∧ s ≠ .name ∧ parse p (q.text ++ t) = parse { p with st := s, qv := some (q.text ++ t), dec := n } t := by
  cases q with
  | zero ds =>
    cases ds with
    | nil =>
      refine ⟨.zeroInt, 0, by simp [Ended], by simp, ?_⟩
      have e : (Q.zero []).text ++ t = 48 :: t := rfl
      rw [e, parse_go p { p with st := .zeroInt, qv := some (48 :: t), dec := 0 } 48]
      unfold step
      simp [hp, show tchar 48 = true by decide, hd.symm]
    | cons d ds =>
      obtain ⟨h1, h2⟩ := hq
      have hd10 := h2 d (by simp)
      have hnum : number (48 + d) = true := by simp [number]; omega
      have ht : tchar (48 + d) = true := by simp [tchar, vchar]; omega
      refine ⟨.zeroDec, 1 + ds.length, by simp [Ended], by simp, ?_⟩
      have e : (Q.zero (d :: ds)).text ++ t = 48 :: 46 :: (48 + d) :: (ds.map (48 + ·) ++ t) := rfl
      rw [e, parse_go p { p with st := .zeroInt, qv := some (48 :: 46 :: (48 + d) :: (ds.map (48 + ·) ++ t)) } 48,
        parse_go _ { p with st := .zeroPoint, qv := some (48 :: 46 :: (48 + d) :: (ds.map (48 + ·) ++ t)) } 46,
        parse_go _ { p with st := .zeroDec, qv := some (48 :: 46 :: (48 + d) :: (ds.map (48 + ·) ++ t)), dec := 1 } (48 + d),
        parse_digits t ds _ rfl (fun x hx => h2 x (by simp [hx])) (by simp at h1 ⊢; omega)]
      · unfold step
        have : 48 + d ≠ 46 := by omega
        simp [ht, hnum, hd, this]
      · unfold step
        simp [show tchar 46 = true by decide, show space 46 = false by decide]
      · unfold step
        simp [hp, show tchar 48 = true by decide]
  | one k =>
    cases k with
    | zero =>
      refine ⟨.oneInt, 0, by simp [Ended], by simp, ?_⟩
      have e : (Q.one 0).text ++ t = 49 :: t := rfl
      rw [e, parse_go p { p with st := .oneInt, qv := some (49 :: t), dec := 0 } 49]
      unfold step
      simp [hp, show tchar 49 = true by decide, hd.symm]
    | succ k =>
      refine ⟨.oneDec, 1 + k, by simp [Ended], by simp, ?_⟩
      have e : (Q.one (k + 1)).text ++ t = 49 :: 46 :: 48 :: (List.replicate k 48 ++ t) := by
        simp [Q.text, List.replicate_succ]
      rw [e, parse_go p { p with st := .oneInt, qv := some (49 :: 46 :: 48 :: (List.replicate k 48 ++ t)) } 49,
        parse_go _ { p with st := .onePoint, qv := some (49 :: 46 :: 48 :: (List.replicate k 48 ++ t)) } 46,
        parse_go _ { p with st := .oneDec, qv := some (49 :: 46 :: 48 :: (List.replicate k 48 ++ t)), dec := 1 } 48,
        parse_zeros t k _ rfl (by simp [Q.Ok] at hq ⊢; omega)]
      · unfold step
        simp [show tchar 48 = true by decide, hd]
      · unfold step
        simp [show tchar 46 = true by decide, show space 46 = false by decide]
      · unfold step
        simp [hp, show tchar 49 = true by decide]

theorem parse_w3 (p : PS) (hp : Ended p.st) (hn : p.st ≠ .name) (w t : Bytes) (hw : Blanks w) :
    ∃ s, Ended s ∧ parse p (w ++ t) = parse { p with st := s } t := by
  cases w with
  | nil => exact ⟨p.st, hp, rfl⟩
  | cons c w =>
    have hc := blank_ok c (hw c (by simp))
    have hx : c ≠ 0 ∧ c ≠ 44 ∧ c ≠ 49 ∧ c ≠ 48 ∧ c ≠ 46 ∧ number c = false := by
      rcases hw c (by simp) with rfl | rfl <;> decide
    obtain ⟨x1, x2, x3, x4, x5, x6⟩ := hx
    refine ⟨.lastSpace, by simp [Ended], ?_⟩
    rw [List.cons_append, parse_go p { p with st := .lastSpace } c,
      parse_blanks { p with st := .lastSpace } (by simp) _ w (fun x hx => hw x (by simp [hx]))]
    unfold step
    rcases hp with hp | hp | hp | hp | hp | hp
    · exact absurd hp hn
    · simp [hp, hc, x3]
    · simp [hp, hc, x4]
    · simp [hp, hc, x1, x4]
    · simp [hp, hc, x1, x6]
    · simp only [hp, hc]
      cases p; simp at hp; subst hp; simp

theorem takeWhile_all (f : Nat → Bool) : ∀ l : Bytes, (∀ c ∈ l, f c = true) → l.takeWhile f = l
  | [], _ => rfl
  | c :: l, h => by
    rw [List.takeWhile_cons, if_pos (h c (by simp)), takeWhile_all f l fun x hx => h x (by simp [hx])]

/-- What `quality` finds in a written value, whatever stands behind it. -/
theorem quality_text (q : Q) (hq : q.Ok) (t : Bytes) (ht : ∀ c, t.head? = some c → c ≠ 46 ∧ number c = false) :
    quality (some (q.text ++ t)) = some (pct q.val) := by
  cases q with
  | one k =>
    have : pct 1000 = 100 := by decide +kernel
    cases k <;> simp [Q.text, quality, Q.val, this]
  | zero ds =>
    obtain ⟨h1, h2⟩ := hq
    have htw : t.takeWhile (fun c => c == 46 || number c) = [] := by
      cases t with
      | nil => rfl
      | cons c r =>
        have := ht c rfl
        simp [this.1, this.2]
    have hstop : (Q.zero ds).text.takeWhile (fun c => c == 46 || number c) = (Q.zero ds).text := by
      apply takeWhile_all
      cases ds with
      | nil => decide
      | cons d ds =>
        intro c hc
        simp only [Q.text, List.mem_append] at hc
        rcases hc with hc | hc
        · revert c; decide
        · obtain ⟨d', hd', rfl⟩ := List.mem_map.1 hc
          have := h2 d' hd'
          simp [number]; omega
    have hall : ((Q.zero ds).text ++ t).takeWhile (fun c => c == 46 || number c) = (Q.zero ds).text := by
      rw [List.takeWhile_append, hstop]; simp [htw]
    have hlen : (Q.zero ds).text.length < 6 := by
      cases ds with
      | nil => decide
      | cons d ds => simp [Q.text] at h1 ⊢; omega
    have hhead : ((Q.zero ds).text ++ t).head? ≠ some 49 := by cases ds <;> simp [Q.text]
    have hval : thousandths (Q.zero ds).text = (Q.zero ds).val := by
      have hn : ∀ d, d < 10 → number (48 + d) = true := by intro d hd; simp [number]; omega
      match ds, h1, h2 with
      | [], _, _ => decide
      | [a], _, h2 =>
        have := hn a (h2 a (by simp))
        simp [Q.text, thousandths, Q.val, frac, this, show number 48 = true by decide, show number 46 = false by decide]
      | [a, b], _, h2 =>
        have e1 := hn a (h2 a (by simp))
        have e2 := hn b (h2 b (by simp))
        simp [Q.text, thousandths, Q.val, frac, e1, e2, show number 48 = true by decide, show number 46 = false by decide]
      | [a, b, c], _, h2 =>
        have e1 := hn a (h2 a (by simp))
        have e2 := hn b (h2 b (by simp))
        have e3 := hn c (h2 c (by simp))
        simp [Q.text, thousandths, Q.val, frac, e1, e2, e3, show number 48 = true by decide, show number 46 = false by decide]
        omega
      | a :: b :: c :: d :: _, h1, _ => simp at h1
    rw [quality]
    simp only [hall, if_pos hlen, hval]
    rw [if_neg (by simpa using hhead)]

/-- What the parser keeps of the elements: an element without weight gets the one of the element before it. -/
def collect : Nat → List Elem → List Acc
  | _, [] => []
  | q0, e :: es =>
    (match fromName e.name with
     | none => []
     | some c => [⟨c, match e.weight with | none => q0 | some w => pct w.q.val⟩]) ++
    collect (match e.weight with | none => q0 | some w => pct w.q.val) es

theorem parse_weight (p : PS) (hp : p.st = .name) (hd : p.dec = 0) (e : Elem) (he : e.Ok) (t : Bytes) (q0 : Nat)
    (hq : quality p.qv = some q0) (ht : ∀ c, t.head? = some c → c ≠ 46 ∧ number c = false) :
    ∃ p' : PS, Ended p'.st ∧ p'.name = p.name ∧ p'.acc = p.acc ∧
      quality p'.qv = some (match e.weight with | none => q0 | some w => pct w.q.val) ∧
      parse p (weightText e.weight ++ t) = parse p' t := by
  cases hw : e.weight with
  | none => exact ⟨p, Or.inl hp, rfl, rfl, hq, rfl⟩
  | some w =>
    obtain ⟨h1, h2, h3, h4⟩ := he.weight w hw
    obtain ⟨s, n, hs, hn, e1⟩ := parse_qtext { p with st := .eq } rfl hd w.q h3 (w.w3 ++ t)
    have e2 : weightText (some w) ++ t = w.w1 ++ 59 :: (w.w2 ++ 113 :: 61 :: (w.q.text ++ (w.w3 ++ t))) := by
      simp [weightText]
    have hhead : ∀ c, (w.w3 ++ t).head? = some c → c ≠ 46 ∧ number c = false := by
      intro c hc
      cases hw3 : w.w3 with
      | nil => rw [hw3] at hc; exact ht c hc
      | cons b r =>
        rw [hw3] at hc h4
        simp at hc
        subst hc
        rcases h4 b (by simp) with rfl | rfl <;> decide
    obtain ⟨s', hs', e3⟩ := parse_w3 { p with st := s, qv := some (w.q.text ++ (w.w3 ++ t)), dec := n } hs hn w.w3 t h4
    refine ⟨{ p with st := s', qv := some (w.q.text ++ (w.w3 ++ t)), dec := n }, hs', rfl, rfl, quality_text _ h3 _ hhead, ?_⟩
    rw [e2, parse_w1 p hp _ _ h1, parse_w2 _ rfl _ _ h2, e1, e3]

theorem weight_head (e : Elem) (he : e.Ok) (d : Nat) (r : Bytes) (hd : sep d = true) :
    ∃ d' r', weightText e.weight ++ d :: r = d' :: r' ∧ sep d' = true := by
  cases hw : e.weight with
  | none => exact ⟨d, r, rfl, hd⟩
  | some w =>
    have h1 := (he.weight w hw).1
    cases hw1 : w.w1 with
    | nil => exact ⟨59, _, by simp only [weightText, hw1, List.nil_append, List.cons_append]; rfl, by decide⟩
    | cons b x =>
      refine ⟨b, _, by simp only [weightText, hw1, List.cons_append]; rfl, ?_⟩
      rw [hw1] at h1
      rcases h1 b (by simp) with rfl | rfl <;> decide

theorem add_elem (p : PS) (e : Elem) (he : e.Ok) (d : Nat) (r : Bytes) (hd : sep d = true) (q : Nat)
    (hn : p.name = some (e.name ++ (weightText e.weight ++ d :: r))) (hq : quality p.qv = some q) :
    add p = some (p.acc ++ (match fromName e.name with | none => [] | some c => [⟨c, q⟩])) := by
  obtain ⟨d', r', e1, hd'⟩ := weight_head e he d r hd
  obtain ⟨m, hm, hf⟩ := copyName_from e.name d' r' he.ne (fun c hc => nchar_sep c (he.chars c hc)) hd' he.len
  unfold add
  rw [hn, Option.getD_some, e1, hm, hq]
  simp only [hf]
  cases fromName e.name <;> simp

theorem step_end (p : PS) (hp : Ended p.st) (s : Bytes) : step p 0 s = finish p := by
  unfold step
  rcases hp with hp | hp | hp | hp | hp | hp <;>
    simp [hp, show space 0 = false by decide, show number 0 = false by decide]

theorem step_comma (p : PS) (hp : Ended p.st) (s : Bytes) : step p 44 s = .go { p with st := .comma } := by
  unfold step
  rcases hp with hp | hp | hp | hp | hp | hp <;>
    simp [hp, show space 44 = false by decide, show number 44 = false by decide, show tchar 44 = true by decide]

theorem text_cons (e : Elem) (es : List Elem) : text (e :: es) ++ [0] =
    e.name ++ (weightText e.weight ++ (match es with | [] => [0] | _ => 44 :: (e.gap ++ (text es ++ [0])))) := by
  cases es with
  | nil => simp [text]
  | cons x es => simp [text]

theorem parse_elems : ∀ (es : List Elem) (e : Elem) (p : PS) (q0 : Nat) (c : Nat) (n : Bytes),
    (∀ x ∈ e :: es, x.Ok) → p.st = .name → p.dec = 0 → p.name = some (text (e :: es) ++ [0]) →
    quality p.qv = some q0 → text (e :: es) ++ [0] = c :: n →
    parse p n = .ok (p.acc ++ collect q0 (e :: es))
  | es, e, p, q0, c, n, hok, hp, hd, hname, hq, hc => by
    have he := hok e (by simp)
    rw [text_cons] at hname hc
    obtain ⟨c', n', hn⟩ := List.exists_cons_of_ne_nil he.ne
    rw [hn, List.cons_append] at hc
    simp only [List.cons.injEq] at hc
    obtain ⟨rfl, rfl⟩ := hc
    rw [parse_names p hp _ n' fun x hx => he.chars x (by rw [hn]; simp [hx])]
    cases es with
    | nil =>
      obtain ⟨p', h1, h2, h3, h4, h5⟩ := parse_weight p hp hd e he [0] q0 hq (by decide)
      simp only at hname ⊢
      rw [h5, parse, step_end p' h1, finish, add_elem p' e he 0 [] (by decide) _ (by rw [h2, hname]) h4]
      simp [collect, h3]
    | cons x es =>
      obtain ⟨p', h1, h2, h3, h4, h5⟩ := parse_weight p hp hd e he (44 :: (e.gap ++ (text (x :: es) ++ [0]))) q0 hq
        (by intro c hc; simp at hc; subst hc; decide)
      simp only at hname ⊢
      rw [h5, parse_go _ _ _ _ (step_comma p' h1 _), parse_blanks { p' with st := .comma } (by simp) _ _ he.gap]
      have hx := hok x (by simp)
      obtain ⟨cx, nx, hnx⟩ := List.exists_cons_of_ne_nil hx.ne
      obtain ⟨m, hm⟩ : ∃ m, text (x :: es) ++ [0] = cx :: m := by
        rw [text_cons, hnx, List.cons_append]; exact ⟨_, rfl⟩
      have hcx : nchar cx := hx.chars cx (by rw [hnx]; simp)
      have hcx' := hcx
      simp only [nchar] at hcx'
      have hadd : add { p' with st := .comma } = some (p'.acc ++ (match fromName e.name with | none => [] | some c => [⟨c, _⟩])) :=
        add_elem { p' with st := .comma } e he 44 _ (by decide) _ (by simp only; rw [h2, hname]) h4
      rw [hm, parse_go _ { p' with st := .name, name := some (cx :: m), dec := 0, acc := p'.acc ++ (match fromName e.name with | none => [] | some c => [⟨c, (match e.weight with | none => q0 | some w => pct w.q.val)⟩]) } cx m]
      · have ih := parse_elems es x { p' with st := .name, name := some (cx :: m), dec := 0, acc := p'.acc ++ (match fromName e.name with | none => [] | some c => [⟨c, (match e.weight with | none => q0 | some w => pct w.q.val)⟩]) }
          _ cx m (fun y hy => hok y (by simp at hy ⊢; right; exact hy)) rfl rfl (by rw [hm]) h4 hm
        rw [ih]
        simp only [collect, h3, List.append_assoc]
      · unfold step
        simp only [nchar_tchar cx hcx, Bool.not_true, Bool.false_and, if_false]
        rw [if_neg (by decide), if_neg (by simp [nchar_space cx hcx]; omega), if_neg (by simp; omega)]
        unfold next
        rw [hadd]
        simp only [begin]
        rw [if_pos (nchar_tchar cx hcx), if_neg (by simp; omega)]

theorem parseAe_text (e : Elem) (es : List Elem) (h : ∀ x ∈ e :: es, x.Ok) :
    parseAe (text (e :: es)) = .ok (collect 100 (e :: es)) := by
  have he := h e (by simp)
  obtain ⟨c, n, hn⟩ := List.exists_cons_of_ne_nil he.ne
  obtain ⟨m, hm⟩ : ∃ m, text (e :: es) ++ [0] = c :: m := by
    rw [text_cons, hn, List.cons_append]; exact ⟨_, rfl⟩
  have hc : nchar c := he.chars c (by rw [hn]; simp)
  have hc' := hc
  simp only [nchar] at hc'
  unfold parseAe
  rw [hm, parse_go start { start with st := .name, name := some (c :: m) } c m]
  · have := parse_elems es e { start with st := .name, name := some (c :: m) } 100 c m h rfl rfl (by rw [hm]) rfl hm
    rw [this]
    rfl
  · unfold step
    simp only [nchar_tchar c hc, start]
    rw [if_neg (by simp), if_neg (by simp; omega)]
    unfold begin
    rw [if_pos (nchar_tchar c hc), if_neg (by simp; omega)]

/-! ## the decision -/

def better (a : Acc) (m : Option Acc) : Bool :=
  a.q > 0 && a.q > (m.map (·.q)).getD 0 && (match m with | none => true | some x => prio a.coding > prio x.coding)

theorem loop_cons (a : Acc) (l : List Acc) (m : Option Acc) :
    decideLoop (a :: l) m = decideLoop l (if better a m then some a else m) := rfl

theorem loop_some (l : List Acc) : ∀ m a, decideLoop l m = some a →
    (m = some a ∨ (a ∈ l ∧ 0 < a.q)) ∧ (∀ y, m = some y → y.q ≤ a.q ∧ prio y.coding ≤ prio a.coding) ∧
    ∀ x ∈ l, ¬ (a.q < x.q ∧ prio a.coding < prio x.coding) := by
  induction l with
  | nil =>
    intro m a h
    simp only [decideLoop] at h
    subst h
    exact ⟨Or.inl rfl, by rintro y ⟨⟩; exact ⟨Nat.le_refl _, Nat.le_refl _⟩, by simp⟩
  | cons x l ih =>
    intro m a h
    rw [loop_cons] at h
    obtain ⟨h1, h2, h3⟩ := ih _ a h
    by_cases hb : better x m = true
    · rw [if_pos hb] at h1 h2
      have hx := h2 x rfl
      have hb' := hb
      simp [better] at hb'
      refine ⟨?_, ?_, ?_⟩
      · rcases h1 with h1 | h1
        · simp at h1; subst h1; exact Or.inr ⟨by simp, hb'.1.1⟩
        · exact Or.inr ⟨by simp [h1.1], h1.2⟩
      · rintro y rfl
        simp at hb'
        omega
      · intro z hz
        rcases List.mem_cons.1 hz with rfl | hz
        · omega
        · exact h3 z hz
    · rw [if_neg hb] at h1 h2
      refine ⟨?_, h2, ?_⟩
      · rcases h1 with h1 | h1
        · exact Or.inl h1
        · exact Or.inr ⟨by simp [h1.1], h1.2⟩
      · intro z hz
        rcases List.mem_cons.1 hz with rfl | hz
        · cases m with
          | none =>
            simp [better] at hb
            omega
          | some y =>
            have := h2 y rfl
            simp [better] at hb
            rintro ⟨g1, g2⟩
            have := hb (by omega) (by omega)
            omega
        · exact h3 z hz

theorem loop_none (l : List Acc) : ∀ m, decideLoop l m = none ↔ m = none ∧ ∀ a ∈ l, a.q = 0 := by
  induction l with
  | nil => intro m; simp [decideLoop]
  | cons x l ih =>
    intro m
    rw [loop_cons, ih]
    cases m with
    | none =>
      by_cases hx : x.q = 0
      · simp [better, hx]
      · simp [better, hx, Nat.pos_of_ne_zero hx]
    | some y => by_cases hb : better x (some y) = true <;> simp [hb]

/-- The highest priority is never replaced. -/
theorem loop_gzip (l : List Acc) (a : Acc) (ha : a.coding = .gzip) : decideLoop l (some a) = some a := by
  induction l with
  | nil => rfl
  | cons x l ih =>
    rw [loop_cons, if_neg, ih]
    simp [better, ha]
    intro _ _
    cases x.coding <;> simp [prio]

/-- What is kept when no weight is carried over. -/
def keep (e : Elem) : Option Acc := (fromName e.name).map fun c => ⟨c, pct e.quality⟩

theorem collect_weights : ∀ (es : List Elem) (q : Nat), (∀ e ∈ es, e.weight ≠ none) → collect q es = es.filterMap keep
  | [], _, _ => rfl
  | e :: es, q, h => by
    rw [collect, collect_weights es _ fun x hx => h x (by simp [hx]), List.filterMap_cons]
    have hw := h e (by simp)
    obtain ⟨w, hw⟩ := Option.ne_none_iff_exists'.1 hw
    unfold keep Elem.quality
    rw [hw]
    cases fromName e.name <;> simp

theorem collect_last : ∀ es : List Elem, WeightsLast es → collect 100 es = es.filterMap keep
  | [], _ => rfl
  | e :: es, h => by
    have h100 : pct 1000 = 100 := by decide +kernel
    by_cases hw : e.weight = none
    · rw [collect, List.filterMap_cons]
      simp only [hw]
      rw [collect_last es h.2]
      unfold keep Elem.quality
      rw [hw]
      simp only [h100]
      cases fromName e.name <;> simp
    · exact collect_weights _ _ fun x hx => by
        rcases List.mem_cons.1 hx with rfl | hx
        · exact hw
        · exact h.1 hw x hx

theorem quality_le (e : Elem) (h : e.Ok) : e.quality ≤ 1000 := by
  unfold Elem.quality
  cases hw : e.weight with
  | none => simp
  | some w =>
    have hq := (h.weight w hw).2.2.1
    simp only
    cases hqq : w.q with
    | one k => simp [Q.val]
    | zero ds =>
      rw [hqq] at hq
      obtain ⟨h1, h2⟩ := hq
      have hg : ∀ i, ds.getD i 0 ≤ 9 := by
        intro i
        rw [List.getD_eq_getElem?_getD]
        cases hx : ds[i]? with
        | none => simp
        | some d => have := h2 d (List.mem_of_getElem? hx); simp; omega
      have a := hg 0
      have b := hg 1
      have c := hg 2
      simp only [Q.val]
      omega

theorem pct_pos (v : Nat) (h : v ≤ 1000) : 0 < pct v ↔ 10 ≤ v := by
  by_cases e : v = 1000
  · subst e; decide +kernel
  · exact (pct_table ⟨v, by omega⟩).2.2.1

theorem pct_far (a b : Nat) (hb : b ≤ 1000) (h : a + 20 ≤ b) : pct a < pct b := by
  have h1 := (pct_table ⟨a, by omega⟩).1
  simp only at h1
  by_cases e : b = 1000
  · subst e
    have : pct 1000 = 100 := by decide +kernel
    omega
  · have h2 := (pct_table ⟨b, by omega⟩).2.1
    simp only at h2
    omega

theorem mem_keep (es : List Elem) (a : Acc) : a ∈ es.filterMap keep ↔
    ∃ e ∈ es, Named e.name a.coding ∧ a.q = pct e.quality := by
  rw [List.mem_filterMap]
  constructor
  · rintro ⟨e, he, h⟩
    refine ⟨e, he, ?_⟩
    unfold keep at h
    cases hf : fromName e.name with
    | none => rw [hf] at h; simp at h
    | some c =>
      rw [hf] at h; simp at h; subst h
      exact ⟨(fromName_iff _ _).1 hf, rfl⟩
  · rintro ⟨e, he, h1, h2⟩
    refine ⟨e, he, ?_⟩
    unfold keep
    rw [(fromName_iff _ _).2 h1]
    simp [← h2]

theorem step_zero (p p' : PS) (s : Bytes) : step p 0 s ≠ .go p' := by
  have hf : ∀ p : PS, finish p ≠ .go p' := by
    intro p; unfold finish; split <;> simp
  unfold step
  rw [if_neg (by decide)]
  cases p.st <;> simp [show space 0 = false by decide, show number 0 = false by decide, hf]

theorem parse_inside : ∀ (v : Bytes) (p : PS), parse p (v ++ [0]) ≠ .outside
  | [], p => by
    rw [List.nil_append, parse]
    cases h : step p 0 [0] with
    | err => simp
    | overflow => simp
    | done l => simp
    | go p' => exact absurd h (step_zero p p' _)
  | c :: v, p => by
    rw [List.cons_append, parse]
    cases h : step p c (c :: (v ++ [0])) with
    | err => simp
    | overflow => simp
    | done l => simp
    | go p' => exact parse_inside v p'

theorem mostPriority_gzip : mostPriority = .gzip := by decide

end Fly.Encode
