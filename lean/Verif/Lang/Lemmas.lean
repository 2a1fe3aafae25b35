import Verif.Lang.Spec
set_option linter.all false

namespace Fly.Lang
open Fly.Encode (Q)

theorem parse_go (k : Kind) (p p' : PS) (c : Nat) (r : Bytes) (h : step k p c (c :: r) = .go p') :
    parse k p (c :: r) = parse k p' r := by
  rw [parse, h]

theorem nc_token (c : Nat) (h : NameChar c) : token c = true := by
  simp [token, NameChar] at *; omega

theorem nc_space (k : Kind) (c : Nat) (h : NameChar c) : space k c = false := by
  simp [space, NameChar] at *; omega

/-! ## the copied name -/

theorem copied_name (max : Nat) : ∀ (n : Bytes) (i : Nat) (t : Bytes), (∀ c ∈ n, NameChar c) → i + n.length < max →
    (∀ c r, t = c :: r → ¬ NameChar c) → copied max i (n ++ t) = n
  | [], i, [], _, _, _ => rfl
  | [], i, c :: r, _, _, h => by
    have := h c r rfl
    rw [List.nil_append, copied, if_neg]
    simp [token, NameChar] at *
    omega
  | c :: n, i, t, hn, hl, h => by
    have hc := hn c (by simp)
    have h1 : c ≠ 44 := hc.2.2.1
    simp only [List.length_cons] at hl
    rw [List.cons_append, copied, if_pos (by simp [nc_token c hc, h1]; omega),
      copied_name max n (i + 1) t (fun x hx => hn x (by simp [hx])) (by omega) h]

theorem copied_long (max : Nat) : ∀ (n : Bytes) (i : Nat) (t : Bytes), (∀ c ∈ n, NameChar c) → i ≤ max → max ≤ i + n.length →
    (copied max i (n ++ t)).length + i = max
  | [], i, [], _, h1, h2 => by simp at h2; simp [copied]; omega
  | [], i, c :: r, _, h1, h2 => by
    simp at h2
    rw [List.nil_append, copied, if_neg (by simp; omega)]
    simp; omega
  | c :: n, i, t, hn, h1, h2 => by
    have hc := hn c (by simp)
    have h3 : c ≠ 44 := hc.2.2.1
    simp only [List.length_cons] at h2
    rw [List.cons_append, copied]
    by_cases h : i < max
    · rw [if_pos (by simp [nc_token c hc, h3, h])]
      have := copied_long max n (i + 1) t (fun x hx => hn x (by simp [hx])) (by omega) (by omega)
      simp only [List.length_cons]
      omega
    · rw [if_neg (by simp [h])]
      simp
      omega

theorem copied_le (max : Nat) : ∀ (s : Bytes) (i : Nat), (copied max i s).length ≤ max - i
  | [], i => by simp [copied]
  | c :: r, i => by
    rw [copied]
    split
    · have := copied_le max r (i + 1)
      rename_i h
      simp at h
      simp only [List.length_cons]
      omega
    · simp

/-- What is copied is a run of name characters at the beginning of the text. -/
theorem copied_run (max : Nat) : ∀ (s : Bytes) (i : Nat), ∃ t, s = copied max i s ++ t ∧ ∀ c ∈ copied max i s, NameChar c
  | [], i => ⟨[], by simp [copied], by simp [copied]⟩
  | c :: r, i => by
    rw [copied]
    split
    · obtain ⟨t, h1, h2⟩ := copied_run max r (i + 1)
      rename_i h
      refine ⟨t, by rw [List.cons_append, ← h1], ?_⟩
      intro x hx
      rcases List.mem_cons.1 hx with rfl | hx
      · simp [token] at h; simp [NameChar]; omega
      · exact h2 x hx
    · exact ⟨c :: r, rfl, by simp⟩

/-! ## the parser on well-formed texts -/

theorem parse_names (k : Kind) (p : PS) (hp : p.st = .name) (t : Bytes) : ∀ n : Bytes, (∀ c ∈ n, NameChar c) →
    parse k p (n ++ t) = parse k p t
  | [], _ => rfl
  | c :: n, h => by
    have hc := h c (by simp)
    have ih := parse_names k p hp t n fun x hx => h x (by simp [hx])
    rw [List.cons_append, parse_go k p p c, ih]
    unfold step
    have h1 := hc
    simp only [NameChar] at h1
    simp [nc_token c hc, hp, nc_space k c hc, h1.2.2.1, h1.2.2.2, show c ≠ 0 by omega]

theorem blank_space (k : Kind) (c : Nat) (h : c = 32 ∨ (k.tab = true ∧ c = 9)) : space k c = true := by
  simp only [space]
  rcases h with rfl | ⟨h, rfl⟩
  · rfl
  · simp [h]

theorem parse_blanks (k : Kind) (p : PS) (hp : p.st = .ows1 ∨ p.st = .ows2) (t : Bytes) :
    ∀ w : Bytes, Blanks k.tab w → parse k p (w ++ t) = parse k p t
  | [], _ => rfl
  | c :: w, h => by
    have hc := blank_space k c (h c (by simp))
    have ih := parse_blanks k p hp t w fun x hx => h x (by simp [hx])
    rw [List.cons_append, parse_go k p p c, ih]
    unfold step
    rcases hp with hp | hp <;> simp [hp, hc]

theorem parse_gap (k : Kind) (p : PS) (hp : p.st = .addEnd) (t : Bytes) :
    ∀ w : Bytes, (∀ c ∈ w, c = 44 ∨ c = 32 ∨ (k.tab = true ∧ c = 9)) → parse k p (w ++ t) = parse k p t
  | [], _ => rfl
  | c :: w, h => by
    have ih := parse_gap k p hp t w fun x hx => h x (by simp [hx])
    rw [List.cons_append, parse_go k p p c, ih]
    unfold step
    rcases h c (by simp) with rfl | h
    · simp [hp]
    · simp [hp, blank_space k c h]

theorem space59 (k : Kind) : space k 59 = false := by simp [space]
theorem space113 (k : Kind) : space k 113 = false := by simp [space]

theorem parse_w1 (k : Kind) (p : PS) (hp : p.st = .name) (t : Bytes) (w : Bytes) (hw : Blanks k.tab w) :
    parse k p (w ++ 59 :: t) = parse k { p with st := .semi } t := by
  cases w with
  | nil =>
    rw [List.nil_append, parse_go k p { p with st := .semi } 59]
    unfold step
    simp [hp]
  | cons c w =>
    have hb := hw c (by simp)
    have hc := blank_space k c hb
    rw [List.cons_append, parse_go k p { p with st := .ows1 } c,
      parse_blanks k { p with st := .ows1 } (Or.inl rfl) _ w (fun x hx => hw x (by simp [hx])),
      parse_go k { p with st := .ows1 } { p with st := .semi } 59]
    · unfold step
      simp [space59]
    · unfold step
      have h1 : c ≠ 44 ∧ c ≠ 0 ∧ c ≠ 59 := by rcases hb with rfl | ⟨_, rfl⟩ <;> decide
      simp [hp, hc, h1]

theorem parse_w2 (k : Kind) (p : PS) (hp : p.st = .semi) (t : Bytes) (w : Bytes) (hw : Blanks k.tab w) :
    parse k p (w ++ 113 :: 61 :: t) = parse k { p with st := .qeq } t := by
  have hq : ∀ p : PS, p.st = .q → parse k p (61 :: t) = parse k { p with st := .qeq } t := by
    intro p hp
    rw [parse_go k p { p with st := .qeq } 61]
    unfold step
    simp [hp]
  cases w with
  | nil =>
    rw [List.nil_append, parse_go k p { p with st := .q } 113, hq _ rfl]
    unfold step
    simp [hp, space113]
  | cons c w =>
    have hc := blank_space k c (hw c (by simp))
    rw [List.cons_append, parse_go k p { p with st := .ows2 } c,
      parse_blanks k { p with st := .ows2 } (Or.inr rfl) _ w (fun x hx => hw x (by simp [hx])),
      parse_go k { p with st := .ows2 } { p with st := .q } 113, hq _ rfl]
    · unfold step
      simp [space113]
    · unfold step
      simp [hp, hc]

/-- States in which an element may end. -/
def Ended (s : St) : Prop := s = .name ∨ s = .oneInt ∨ s = .zeroInt ∨ s = .oneDec ∨ s = .zeroDec

theorem parse_digits (k : Kind) (t : Bytes) : ∀ (ds : List Nat) (p : PS), p.st = .zeroDec → (∀ d ∈ ds, d < 10) →
    p.dec + ds.length ≤ 3 → parse k p (ds.map (48 + ·) ++ t) = parse k { p with dec := p.dec + ds.length } t
  | [], p, _, _, _ => rfl
  | d :: ds, p, hp, hd, hl => by
    have h := hd d (by simp)
    simp only [List.length_cons] at hl
    have hnum : digit (48 + d) = true := by simp [digit]; omega
    rw [List.map_cons, List.cons_append, parse_go k p { p with dec := p.dec + 1 } (48 + d),
      parse_digits k t ds { p with dec := p.dec + 1 } hp (fun x hx => hd x (by simp [hx])) (by simp; omega)]
    · simp only [List.length_cons]
      congr 2
      omega
    · unfold step
      simp [hp, hnum, show p.dec < 3 by omega]

theorem parse_zeros (k : Kind) (t : Bytes) : ∀ (n : Nat) (p : PS), p.st = .oneDec →
    p.dec + n ≤ 3 → parse k p (List.replicate n 48 ++ t) = parse k { p with dec := p.dec + n } t
  | 0, p, _, _ => rfl
  | n + 1, p, hp, hl => by
    rw [List.replicate_succ, List.cons_append, parse_go k p { p with dec := p.dec + 1 } 48,
      parse_zeros k t n { p with dec := p.dec + 1 } hp (by simp; omega)]
    · congr 2
      simp only
      omega
    · unfold step
      simp [hp, show p.dec < 3 by omega]

/-- A weight is read completely, and the pointer to it is kept. -/
theorem parse_q (k : Kind) (q : Q) (hq : q.Ok) (t : Bytes) (p : PS) (hp : p.st = .qeq) (hd : p.dec = 0) :
    ∃ s d, Ended s ∧ s ≠ .name ∧ parse k p (q.text ++ t) = parse k { p with st := s, qv := some (q.text ++ t), dec := d } t := by
  cases q with
  | zero ds =>
    cases ds with
    | nil =>
      refine ⟨.zeroInt, 0, by simp [Ended], by simp, ?_⟩
      simp only [Q.text]
      rw [List.cons_append, List.nil_append, parse_go k p { p with st := .zeroInt, qv := some (48 :: t), dec := 0 } 48]
      unfold step
      simp [hp, hd]
    | cons d ds =>
      refine ⟨.zeroDec, 1 + ds.length, by simp [Ended], by simp, ?_⟩
      have h := hq.2 d (by simp)
      have hl := hq.1
      simp only [List.length_cons] at hl
      have hnum : digit (48 + d) = true := by simp [digit]; omega
      have ht : (Q.zero (d :: ds)).text ++ t = 48 :: 46 :: (48 + d) :: (ds.map (48 + ·) ++ t) := rfl
      rw [ht, parse_go k p { p with st := .zeroInt, qv := some (48 :: 46 :: (48 + d) :: (ds.map (48 + ·) ++ t)) } 48,
        parse_go k { p with st := .zeroInt, qv := some (48 :: 46 :: (48 + d) :: (ds.map (48 + ·) ++ t)) }
          { p with st := .zeroPoint, qv := some (48 :: 46 :: (48 + d) :: (ds.map (48 + ·) ++ t)) } 46,
        parse_go k { p with st := .zeroPoint, qv := some (48 :: 46 :: (48 + d) :: (ds.map (48 + ·) ++ t)) }
          { p with st := .zeroDec, qv := some (48 :: 46 :: (48 + d) :: (ds.map (48 + ·) ++ t)), dec := 1 } (48 + d),
        parse_digits k t ds { p with st := .zeroDec, qv := some (48 :: 46 :: (48 + d) :: (ds.map (48 + ·) ++ t)), dec := 1 } rfl
          (fun x hx => hq.2 x (by simp [hx])) (by simp; omega)]
      · unfold step; simp [hnum, hd]
      · unfold step; simp
      · unfold step; simp [hp]
  | one n =>
    cases n with
    | zero =>
      refine ⟨.oneInt, 0, by simp [Ended], by simp, ?_⟩
      simp only [Q.text]
      rw [List.cons_append, List.nil_append, parse_go k p { p with st := .oneInt, qv := some (49 :: t), dec := 0 } 49]
      unfold step
      simp [hp, hd]
    | succ n =>
      refine ⟨.oneDec, 1 + n, by simp [Ended], by simp, ?_⟩
      have hl : n + 1 ≤ 3 := hq
      have ht : (Q.one (n + 1)).text ++ t = 49 :: 46 :: 48 :: (List.replicate n 48 ++ t) := rfl
      rw [ht, parse_go k p { p with st := .oneInt, qv := some (49 :: 46 :: 48 :: (List.replicate n 48 ++ t)) } 49,
        parse_go k { p with st := .oneInt, qv := some (49 :: 46 :: 48 :: (List.replicate n 48 ++ t)) }
          { p with st := .onePoint, qv := some (49 :: 46 :: 48 :: (List.replicate n 48 ++ t)) } 46,
        parse_go k { p with st := .onePoint, qv := some (49 :: 46 :: 48 :: (List.replicate n 48 ++ t)) }
          { p with st := .oneDec, qv := some (49 :: 46 :: 48 :: (List.replicate n 48 ++ t)), dec := 1 } 48,
        parse_zeros k t n { p with st := .oneDec, qv := some (49 :: 46 :: 48 :: (List.replicate n 48 ++ t)), dec := 1 } rfl
          (by simp; omega)]
      · unfold step; simp [hd]
      · unfold step; simp
      · unfold step; simp [hp]

theorem fraction_digits (t : Bytes) (ht : ∀ c r, t = c :: r → digit c = false) : ∀ (ds : List Nat) (w : Nat), (∀ d ∈ ds, d < 10) →
    fraction w (ds.map (48 + ·) ++ t) = fraction w (ds.map (48 + ·))
  | [], w, _ => by
    cases t with
    | nil => rfl
    | cons c r => simp [fraction, ht c r rfl]
  | d :: ds, w, h => by
    simp only [List.map_cons, List.cons_append, fraction]
    rw [fraction_digits t ht ds (w / 10) (fun x hx => h x (by simp [hx]))]

/-- The stored quality is the written one. -/
theorem qvalue_text (q : Q) (hq : q.Ok) (t : Bytes) (ht : ∀ c r, t = c :: r → digit c = false ∧ c ≠ 46) :
    qvalue (some (q.text ++ t)) = q.val := by
  cases q with
  | one n => cases n <;> rfl
  | zero ds =>
    cases ds with
    | nil =>
      cases t with
      | nil => rfl
      | cons c r =>
        have := (ht c r rfl).2
        show qvalue (some (48 :: c :: r)) = _
        unfold qvalue
        split
        · rename_i h; simp at h
        · rename_i h; simp at h
        · rename_i h; simp at h; exact absurd h.2.1 this
        · rfl
    | cons d ds =>
      show fraction 100 ((d :: ds).map (48 + ·) ++ t) = _
      rw [fraction_digits t (fun c r h => (ht c r h).1) _ _ hq.2]
      have hd := hq.2
      have hl := hq.1
      match ds, hd, hl with
      | [], hd, _ =>
        have := hd d (by simp)
        simp [fraction, digit, Q.val, show (48 + d ≤ 57) by omega]
      | [e], hd, _ =>
        have h1 := hd d (by simp)
        have h2 := hd e (by simp)
        simp [fraction, digit, Q.val, show (48 + d ≤ 57) by omega, show (48 + e ≤ 57) by omega]
      | [e, f], hd, _ =>
        have h1 := hd d (by simp)
        have h2 := hd e (by simp)
        have h3 := hd f (by simp)
        simp [fraction, digit, Q.val, show (48 + d ≤ 57) by omega, show (48 + e ≤ 57) by omega, show (48 + f ≤ 57) by omega]
        try omega
      | _ :: _ :: _ :: _, _, hl => simp at hl

/-- Behind an element: end of the text or a comma. -/
def Stops (t : Bytes) : Prop := ∃ r, t = 0 :: r ∨ t = 44 :: r

theorem Stops.head {t : Bytes} (h : Stops t) : ∀ c r, t = c :: r → c = 0 ∨ c = 44 := by
  obtain ⟨r, h | h⟩ := h <;> (intro c r' e; rw [h] at e; simp at e; omega)

/-- Reading an element, up to what follows it: the state then reached, whose pointers still describe the element. -/
theorem parse_elem (k : Kind) (e : Elem) (he : e.Ok k.tab) (t : Bytes) (p : PS) (hp : p.st = .init ∨ p.st = .addEnd) :
    ∃ s d qv, Ended s ∧ (e.weight ≠ none → s ≠ .name) ∧
      parse k p (e.text ++ t) = parse k { p with st := s, str := some (e.text ++ t), qv := qv, dec := d } t ∧
      ((∀ c r, t = c :: r → digit c = false ∧ c ≠ 46) → qvalue qv = e.quality) := by
  obtain ⟨n, w, g⟩ := e
  have hne := he.ne
  have hch := he.chars
  simp only at hne hch
  cases n with
  | nil => exact absurd rfl hne
  | cons c n =>
    have hc := hch c (by simp)
    have h1 := hc
    simp only [NameChar] at h1
    have hstart : ∀ u : Bytes, parse k p (c :: n ++ u) =
        parse k { p with st := .name, str := some (c :: n ++ u), qv := none, dec := 0 } u := by
      intro u
      rw [List.cons_append, parse_go k p { p with st := .name, str := some (c :: (n ++ u)), qv := none, dec := 0 } c,
        parse_names k _ rfl u n (fun x hx => hch x (by simp [hx]))]
      unfold step
      rcases hp with hp | hp
      · simp [hp, stInit, nc_token c hc, h1.2.2.1]
      · simp [hp, stInit, nc_token c hc, h1.2.2.1, nc_space k c hc, show c ≠ 0 by omega]
    cases w with
    | none =>
      refine ⟨.name, 0, none, by simp [Ended], by simp, ?_, fun _ => rfl⟩
      simp only [Elem.text, weightText, List.append_nil]
      exact hstart t
    | some w =>
      obtain ⟨hw1, hw2, hq⟩ := he.weight w rfl
      have et : (Elem.mk (c :: n) (some w) g).text ++ t = c :: n ++ (w.w1 ++ 59 :: (w.w2 ++ 113 :: 61 :: (w.q.text ++ t))) := by
        simp [Elem.text, weightText]
      rw [et, hstart, parse_w1 k _ rfl _ _ hw1, parse_w2 k _ rfl _ _ hw2]
      obtain ⟨s, d, hs, hs2, hpq⟩ := parse_q k w.q hq t
        { p with st := .qeq, str := some (c :: n ++ (w.w1 ++ 59 :: (w.w2 ++ 113 :: 61 :: (w.q.text ++ t)))), qv := none, dec := 0 } rfl rfl
      refine ⟨s, d, some (w.q.text ++ t), hs, fun _ => hs2, hpq, fun ht => ?_⟩
      exact qvalue_text w.q hq t ht

theorem ended_comma (k : Kind) (p : PS) (hp : Ended p.st) (s : Bytes) : step k p 44 s = comma k p := by
  unfold step
  have h : digit 44 = false := rfl
  rcases hp with h1 | h1 | h1 | h1 | h1 <;> simp [h1, h]

theorem ended_nul (k : Kind) (p : PS) (hp : Ended p.st) (s : Bytes) : step k p 0 s = finish k p := by
  unfold step
  have h : digit 0 = false := rfl
  rcases hp with h1 | h1 | h1 | h1 | h1 <;> simp [h1, h]

theorem elem_name (k : Kind) (e : Elem) (he : e.Ok k.tab) (hl : e.name.length < k.max) (t : Bytes) (ht : Stops t) :
    copied k.max 0 (e.text ++ t) = e.name := by
  have h0 := ht.head
  rw [Elem.text, List.append_assoc]
  apply copied_name k.max e.name 0 _ he.chars (by omega)
  intro c r hcr
  have hb : c = 32 ∨ c = 9 ∨ c = 59 ∨ c = 0 ∨ c = 44 := by
    cases hw : e.weight with
    | none =>
      rw [hw] at hcr
      simp only [weightText, List.nil_append] at hcr
      have := h0 c r hcr
      omega
    | some w =>
      rw [hw] at hcr
      have hb := (he.weight w hw).1
      cases hw1 : w.w1 with
      | nil => rw [weightText, hw1] at hcr; simp at hcr; omega
      | cons b l =>
        rw [weightText, hw1] at hcr
        simp at hcr
        have := hb b (by rw [hw1]; simp)
        omega
  simp only [NameChar]
  omega

theorem stops_q {t : Bytes} (h : Stops t) : ∀ c r, t = c :: r → digit c = false ∧ c ≠ 46 := by
  intro c r e
  rcases h.head c r e with rfl | rfl <;> exact ⟨rfl, by decide⟩

theorem text_cons (e e2 : Elem) (es : List Elem) : text (e :: e2 :: es) = e.text ++ 44 :: (e.gap ++ text (e2 :: es)) := rfl

/-- The whole field. -/
theorem parse_text (k : Kind) (tr : Bytes) (htr : Trail k.tab tr) : ∀ (es : List Elem) (p : PS), es ≠ [] →
    (∀ e ∈ es, e.Ok k.tab ∧ e.name.length < k.max) →
    p.st = .init ∨ p.st = .addEnd → p.top ≤ k.max →
    ∃ t, t ≤ k.max ∧ parse k p (text es ++ (tr ++ [0])) = .ok (p.acc ++ meant es) t
  | [], _, h, _, _, _ => absurd rfl h
  | [e], p, _, he, hp, htop => by
    obtain ⟨ho, hl⟩ := he e (by simp)
    obtain ⟨s, d, qv, hs, _, hpe, hq⟩ := parse_elem k e ho (tr ++ [0]) p hp
    have st : Stops (tr ++ [0]) := by
      rcases htr with rfl | ⟨g, rfl, _⟩
      · exact ⟨[], Or.inl rfl⟩
      · exact ⟨g ++ [0], Or.inr rfl⟩
    have hn := elem_name k e ho hl _ st
    refine ⟨max p.top (e.name.length + 1), by omega, ?_⟩
    show parse k p (e.text ++ (tr ++ [0])) = _
    rw [hpe]
    replace hq := hq (stops_q st)
    rcases htr with rfl | ⟨g, rfl, hg⟩
    · rw [List.nil_append, parse, ended_nul k _ hs]
      rw [List.nil_append] at hn
      simp only [finish, stAdd, hn, hq, meant, List.map_cons, List.map_nil]
    · rw [List.cons_append, parse, ended_comma k _ hs]
      rw [List.cons_append] at hn
      simp only [comma, stAdd, hn, hq, meant, List.map_cons, List.map_nil]
      rw [parse_gap k _ rfl _ _ hg, parse]
      simp [step, space]
  | e :: e2 :: es, p, _, he, hp, htop => by
    obtain ⟨ho, hl⟩ := he e (by simp)
    have st : Stops (44 :: (e.gap ++ text (e2 :: es)) ++ (tr ++ [0])) := ⟨e.gap ++ text (e2 :: es) ++ (tr ++ [0]), Or.inr rfl⟩
    obtain ⟨s, d, qv, hs, _, hpe, hq⟩ := parse_elem k e ho (44 :: (e.gap ++ text (e2 :: es)) ++ (tr ++ [0])) p hp
    have hn := elem_name k e ho hl _ st
    have hq := hq (stops_q st)
    rw [text_cons, List.append_assoc, hpe]
    have ih := parse_text k tr htr (e2 :: es)
      { p with st := .addEnd, str := some (e.text ++ (44 :: (e.gap ++ text (e2 :: es)) ++ (tr ++ [0]))), qv := qv, dec := d, acc := p.acc ++ [⟨e.name, e.quality⟩], top := max p.top (e.name.length + 1) }
      (by simp) (fun x hx => he x (by simp [hx])) (Or.inr rfl) (by simp only; omega)
    obtain ⟨tt, h1, h2⟩ := ih
    refine ⟨tt, h1, ?_⟩
    rw [List.cons_append, parse, ended_comma k _ hs]
    rw [List.cons_append] at hn
    simp only [comma, stAdd, hn, hq]
    rw [List.append_assoc, parse_gap k _ rfl _ _ ho.gap]
    rw [List.cons_append, List.append_assoc] at h2
    rw [h2]
    simp [meant]

/-- More than three decimals. -/
theorem parse_many (k : Kind) : ∀ (ds : List Nat) (t : Bytes) (p : PS), p.st = .zeroDec → (∀ d ∈ ds, d < 10) → p.dec ≤ 3 → 3 < p.dec + ds.length →
    parse k p (ds.map (48 + ·) ++ t) = .perror
  | [], t, p, _, _, h1, h2 => by simp at h2; omega
  | d :: ds, t, p, hp, hd, h1, h2 => by
    have h := hd d (by simp)
    simp only [List.length_cons] at h2
    have hnum : digit (48 + d) = true := by simp [digit]; omega
    rw [List.map_cons, List.cons_append]
    by_cases h3 : p.dec < 3
    · rw [parse_go k p { p with dec := p.dec + 1 } (48 + d)]
      · exact parse_many k ds t { p with dec := p.dec + 1 } hp (fun x hx => hd x (by simp [hx])) (by simp; omega) (by simp; omega)
      · unfold step
        simp [hp, hnum, h3]
    · rw [parse]
      simp [step, hp, hnum, h3]

/-! ## every text -/

def Live (s : St) : Prop := s ≠ .init ∧ s ≠ .addEnd

/-- States other than the first and the one behind an element have a name. -/
def Inv (k : Kind) (p : PS) : Prop := (Live p.st → p.str ≠ none) ∧ p.top ≤ k.max + 1

theorem stAdd_inv (k : Kind) (p : PS) (h : p.str ≠ none) (ht : p.top ≤ k.max + 1) :
    ∃ p', stAdd k p = some p' ∧ p'.top ≤ k.max + 1 := by
  cases hs : p.str with
  | none => exact absurd hs h
  | some s =>
    refine ⟨{ p with acc := p.acc ++ [⟨copied k.max 0 s, qvalue p.qv⟩], top := max p.top ((copied k.max 0 s).length + 1) },
      by simp only [stAdd, hs], ?_⟩
    have := copied_le k.max s 0
    simp only
    omega

def Good (k : Kind) : Stp → Prop
  | .perror => True
  | .crash => False
  | .done _ t => t ≤ k.max + 1
  | .go p => Inv k p

theorem comma_good (k : Kind) (p : PS) (h : p.str ≠ none) (ht : p.top ≤ k.max + 1) : Good k (comma k p) := by
  obtain ⟨p', h1, h2⟩ := stAdd_inv k p h ht
  simp only [comma, h1, Good, Inv]
  exact ⟨fun h => absurd rfl h.2, h2⟩

theorem finish_good (k : Kind) (p : PS) (h : p.str ≠ none) (ht : p.top ≤ k.max + 1) : Good k (finish k p) := by
  obtain ⟨p', h1, h2⟩ := stAdd_inv k p h ht
  simpa only [finish, h1, Good]

theorem init_good (k : Kind) (p : PS) (c : Nat) (s : Bytes) (ht : p.top ≤ k.max + 1) : Good k (stInit p c s (comma k)) := by
  unfold stInit
  split
  · split
    · exact comma_good k _ (by simp) ht
    · exact ⟨fun _ => by simp, ht⟩
  · trivial

theorem step_good (k : Kind) (p : PS) (h : Inv k p) (c : Nat) (s : Bytes) : Good k (step k p c s) := by
  have h1 := h.1
  have h2 := h.2
  cases hst : p.st with
  | init => unfold step; simp only [hst]; exact init_good k p c s h2
  | addEnd =>
    unfold step; simp only [hst]
    repeat' split
    all_goals first | exact h | exact init_good k p c s h2 | simpa [Good]
  | _ =>
    have hs : p.str ≠ none := h1 (by rw [hst]; constructor <;> simp)
    unfold step
    simp only [hst]
    repeat' split
    all_goals first
      | exact comma_good k p hs h2
      | exact finish_good k p hs h2
      | exact h
      | trivial
      | exact ⟨fun _ => hs, h2⟩

theorem parse_good (k : Kind) : ∀ (s : Bytes) (p : PS), Inv k p →
    match parse k p s with | .crash => False | .ok _ t => t ≤ k.max + 1 | _ => True
  | [], p, _ => by simp [parse]
  | c :: r, p, h => by
    have hg := step_good k p h c (c :: r)
    rw [parse]
    cases hs : step k p c (c :: r) with
    | perror => trivial
    | crash => rw [hs] at hg; exact hg
    | done l t => rw [hs] at hg; exact hg
    | go p' => rw [hs] at hg; exact parse_good k r p' hg

/-- The terminating 0 ends the parser. -/
theorem step_nul (k : Kind) (p : PS) (s : Bytes) : ∀ p', step k p 0 s ≠ .go p' := by
  intro p' h
  have e1 : space k 0 = false := by simp [space]
  have e2 : token 0 = false := rfl
  have e3 : digit 0 = false := rfl
  have e4 : ∀ q, finish k q ≠ .go p' := by
    intro q; unfold finish; split <;> simp
  unfold step at h
  cases hst : p.st <;> simp [hst, e1, e2, e3, stInit] at h <;> exact e4 _ h

theorem parse_inside (k : Kind) : ∀ (v : Bytes) (p : PS) (t : Bytes), parse k p (v ++ 0 :: t) ≠ .outside
  | [], p, t => by
    rw [List.nil_append, parse]
    cases hs : step k p 0 (0 :: t) with
    | go p' => exact absurd hs (step_nul k p _ p')
    | _ => simp
  | c :: v, p, t => by
    rw [List.cons_append, parse]
    cases hs : step k p c (c :: (v ++ 0 :: t)) with
    | go p' => exact parse_inside k v p' t
    | _ => simp

/-! ## names that are short enough -/

/-- `str` points into the whole text, every run of which is short. -/
def Short (k : Kind) (v : Bytes) (p : PS) : Prop :=
  p.top ≤ k.max ∧ ∀ s, p.str = some s → ∃ a, v = a ++ s

theorem stAdd_short (k : Kind) (v : Bytes) (hv : NoLongName k.max v) (p p' : PS) (h : Short k v p) (ha : stAdd k p = some p') :
    Short k v p' := by
  cases hs : p.str with
  | none => simp [stAdd, hs] at ha
  | some s =>
    simp only [stAdd, hs, Option.some.injEq] at ha
    subst ha
    refine ⟨?_, by simpa only [hs] using h.2⟩
    obtain ⟨a, ha⟩ := h.2 s hs
    obtain ⟨t, h1, h2⟩ := copied_run k.max s 0
    have hle := copied_le k.max s 0
    have h0 := h.1
    simp only
    by_cases hl : (copied k.max 0 s).length = k.max
    · obtain ⟨c, hc, hn⟩ := hv a (copied k.max 0 s) t (by rw [List.append_assoc, ← h1]; exact ha) hl
      exact absurd (h2 c hc) hn
    · omega

def GoodS (k : Kind) (v : Bytes) : Stp → Prop
  | .done _ t => t ≤ k.max
  | .go p => Short k v p
  | _ => True

theorem comma_short (k : Kind) (v : Bytes) (hv : NoLongName k.max v) (p : PS) (h : Short k v p) : GoodS k v (comma k p) := by
  unfold comma
  split
  · trivial
  · rename_i p' hp; exact stAdd_short k v hv p p' h hp

theorem finish_short (k : Kind) (v : Bytes) (hv : NoLongName k.max v) (p : PS) (h : Short k v p) : GoodS k v (finish k p) := by
  unfold finish
  split
  · trivial
  · rename_i p' hp; exact (stAdd_short k v hv p p' h hp).1

theorem init_short (k : Kind) (v : Bytes) (hv : NoLongName k.max v) (p : PS) (c : Nat) (s : Bytes) (hs : ∃ a, v = a ++ s)
    (h : Short k v p) : GoodS k v (stInit p c s (comma k)) := by
  unfold stInit
  have hh : ∀ s', some s = some s' → ∃ a, v = a ++ s' := by
    intro s' e; simp at e; subst e; exact hs
  split
  · split
    · exact comma_short k v hv _ ⟨h.1, hh⟩
    · exact ⟨h.1, hh⟩
  · trivial

theorem step_short (k : Kind) (v : Bytes) (hv : NoLongName k.max v) (p : PS) (c : Nat) (s : Bytes) (hs : ∃ a, v = a ++ s)
    (h : Short k v p) : GoodS k v (step k p c s) := by
  unfold step
  cases hst : p.st <;> simp only
  all_goals
    repeat' split
    all_goals first
      | exact comma_short k v hv p h
      | exact finish_short k v hv p h
      | exact init_short k v hv p c s hs h
      | exact h
      | exact h.1
      | trivial

theorem parse_short (k : Kind) (v : Bytes) (hv : NoLongName k.max v) : ∀ (s : Bytes) (p : PS) (a : Bytes), v = a ++ s → Short k v p →
    match parse k p s with | .ok _ t => t ≤ k.max | _ => True
  | [], p, _, _, _ => by simp [parse]
  | c :: r, p, a, ha, h => by
    have hg := step_short k v hv p c (c :: r) ⟨a, ha⟩ h
    rw [parse]
    cases hs : step k p c (c :: r) with
    | perror => trivial
    | crash => trivial
    | done l t => rw [hs] at hg; exact hg
    | go p' => rw [hs] at hg; exact parse_short k v hv r p' (a ++ [c]) (by rw [ha]; simp) hg

/-! ## names that are too long -/

theorem parse_long (k : Kind) (n : Bytes) (hn : ∀ c ∈ n, NameChar c) (hl : k.max ≤ n.length) (hm : 0 < k.max) :
    ∃ l, parseValue k n = .ok l (k.max + 1) := by
  cases n with
  | nil => simp at hl; omega
  | cons c n =>
    have hc := hn c (by simp)
    have h1 := hc
    simp only [NameChar] at h1
    unfold parseValue
    rw [List.cons_append, parse_go k start { start with st := .name, str := some (c :: (n ++ [0])), qv := none, dec := 0 } c,
      parse_names k _ rfl [0] n (fun x hx => hn x (by simp [hx])), parse]
    · have := copied_long k.max (c :: n) 0 [0] hn (by omega) (by omega)
      rw [List.cons_append] at this
      simp only [step, finish, stAdd]
      refine ⟨[⟨copied k.max 0 (c :: (n ++ [0])), 1000⟩], ?_⟩
      simp [start, this, qvalue]
      exact this
    · unfold step
      simp [start, stInit, nc_token c hc, h1.2.2.1]

theorem headerValue_first (k : Kind) (v : Bytes) (hs : List (Bytes × Bytes)) (h : FirstField k.header v hs)
    (hk : 0 < k.header.length) (hv : v ≠ []) : headerValue k hs = some v := by
  obtain ⟨pre, post, rfl, hpre⟩ := h
  unfold headerValue
  rw [List.find?_append]
  have e : pre.find? (fun h => 0 < h.1.length && (!k.skipEmpty || 0 < h.2.length) && h.1 == k.header) = none := by
    rw [List.find?_eq_none]
    intro x hx
    simp [hpre x hx]
  rw [e, List.find?_cons]
  have : (decide (0 < k.header.length) && (!k.skipEmpty || decide (0 < v.length)) && k.header == k.header) = true := by
    have := List.length_pos_iff.2 hv
    simp only [hk, this, decide_true, Bool.true_and, Bool.or_true, beq_self_eq_true]
  simp only [this, Option.none_or, Option.map_some]

end Fly.Lang
