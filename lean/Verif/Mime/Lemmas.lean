import Verif.Mime.Spec
import Verif.Encode.Lemmas
set_option linter.all false

namespace Fly.Mime
open Fly.Encode (pct thousandths number frac)

theorem parse_go (p p' : PS) (c : Nat) (r : Bytes) (h : step p c (c :: r) = .go p') :
    parse p (c :: r) = parse p' r := by
  rw [parse, h]

def run (x : Stp) (t : Bytes) : Out :=
  match x with
  | .perror => .perror
  | .crash => .crash
  | .overflow => .overflow
  | .done l => .ok l
  | .go p => parse p t

theorem parse_run (p : PS) (c : Nat) (r : Bytes) : parse p (c :: r) = run (step p c (c :: r)) r := by
  rw [parse]
  cases step p c (c :: r) <;> rfl

theorem vis_token (c : Nat) (h : Visible c) : token c = true := by
  simp [token, Visible] at *; omega

theorem vis_space (c : Nat) (h : Visible c) : space c = false := by
  simp [space, Visible] at *; omega

theorem copy_pre (a t : Bytes) : copy (some (a ++ t)) a.length = some a := by
  unfold copy
  split
  · rename_i h; rw [List.length_eq_zero_iff] at h; rw [h]
  · simp

theorem copy_min (a t : Bytes) : copy (some (a ++ t)) (min a.length 30) = some (a.take 30) := by
  unfold copy
  split
  · rename_i h
    have : a = [] := by rw [← List.length_eq_zero_iff]; omega
    rw [this]; rfl
  · simp only
    rw [if_pos (by simp; omega), List.take_append_of_le_length (by omega)]
    congr 1
    by_cases h : a.length ≤ 30
    · rw [Nat.min_eq_left h, List.take_length, List.take_of_length_le h]
    · rw [Nat.min_eq_right (by omega)]

theorem diff_pre (a t : Bytes) : diff (some (a ++ t)) t = some a.length := by
  simp [diff]

/-! ## media ranges -/

def tell (x : Param) : Bytes × Bytes := (x.name.take 30, x.value.take 30)

/-- The local variables describe `m`, and everything of it was measured. -/
structure Settled (p : PS) (m : Media) (acc : List Acc) : Prop where
  type : copy p.type p.typeLen = some m.type
  sub : copy p.subtype p.subtypeLen = some m.subtype
  qv : p.qv = none
  dec : p.dec = 0
  exts : p.exts = 0
  acc : p.acc = acc
  params : p.params = m.params.map tell
  el : p.el = none
  er : p.er = none

/-- The parser has just read `m`, and `t` follows. -/
structure Has (p : PS) (m : Media) (acc : List Acc) (t : Bytes) : Prop where
  type : copy p.type p.typeLen = some m.type
  qv : p.qv = none
  dec : p.dec = 0
  exts : p.exts = 0
  acc : p.acc = acc
  el : p.el = none
  er : p.er = none
  rest : (p.st = .subtype ∧ m.params = [] ∧ p.subtype = some (m.subtype ++ t) ∧ p.params = [] ∧ p.prLen = 0) ∨
    (p.st = .pr ∧ ∃ init x, m.params = init ++ [x] ∧ copy p.subtype p.subtypeLen = some m.subtype ∧ p.params = init.map tell ∧
      copy p.pl (min p.plLen 30) = some (x.name.take 30) ∧ p.pr = some (x.value ++ t))

theorem has_semi (p : PS) (m : Media) (acc : List Acc) (t : Bytes) (h : Has p m acc (59 :: t)) :
    ∃ p', Settled p' m acc ∧ p'.st = .semi ∧ step p 59 (59 :: t) = .go p' := by
  rcases h.rest with ⟨h1, h2, h3, h4, _⟩ | ⟨h1, init, x, h2, h3, h4, h5, h6⟩
  · refine ⟨{ p with subtypeLen := m.subtype.length, st := .semi }, ⟨h.type, ?_, h.qv, h.dec, h.exts, h.acc, ?_, h.el, h.er⟩, rfl, ?_⟩
    · show copy p.subtype m.subtype.length = _
      rw [h3]; exact copy_pre _ _
    · show p.params = _
      rw [h4, h2]; rfl
    · have : diff p.subtype (59 :: t) = some m.subtype.length := by rw [h3]; exact diff_pre _ _
      simp [step, h1, token, space, measured, this]
  · have hd : diff p.pr (59 :: t) = some x.value.length := by rw [h6]; exact diff_pre _ _
    have hc : copy p.pr (min x.value.length 30) = some (x.value.take 30) := by rw [h6]; exact copy_min _ _
    refine ⟨{ p with prLen := min x.value.length 30, plLen := min p.plLen 30, params := p.params ++ [tell x], st := .semi },
      ⟨h.type, h3, h.qv, h.dec, h.exts, h.acc, ?_, h.el, h.er⟩, rfl, ?_⟩
    · show p.params ++ [tell x] = _
      rw [h4, h2]; simp
    · simp [step, h1, stPr, token, hd, stPend, h5, hc, space, tell]

theorem has_end (p : PS) (m : Media) (acc : List Acc) (t : Bytes) (h : Has p m acc (0 :: t)) :
    ∃ p', Settled p' m acc ∧ step p 0 (0 :: t) = stAdd p' 0 (0 :: t) := by
  rcases h.rest with ⟨h1, h2, h3, h4, _⟩ | ⟨h1, init, x, h2, h3, h4, h5, h6⟩
  · refine ⟨{ p with subtypeLen := m.subtype.length }, ⟨h.type, ?_, h.qv, h.dec, h.exts, h.acc, ?_, h.el, h.er⟩, ?_⟩
    · show copy p.subtype m.subtype.length = _
      rw [h3]; exact copy_pre _ _
    · show p.params = _
      rw [h4, h2]; rfl
    · have : diff p.subtype (0 :: t) = some m.subtype.length := by rw [h3]; exact diff_pre _ _
      simp [step, h1, measured, this]
  · have hd : diff p.pr (0 :: t) = some x.value.length := by rw [h6]; exact diff_pre _ _
    have hc : copy p.pr (min x.value.length 30) = some (x.value.take 30) := by rw [h6]; exact copy_min _ _
    refine ⟨{ p with prLen := min x.value.length 30, plLen := min p.plLen 30, params := p.params ++ [tell x] },
      ⟨h.type, h3, h.qv, h.dec, h.exts, h.acc, ?_, h.el, h.er⟩, ?_⟩
    · show p.params ++ [tell x] = _
      rw [h4, h2]; simp
    · simp [step, h1, stPr, token, hd, stPend, h5, hc, tell]

theorem has_comma (p : PS) (m : Media) (acc : List Acc) (t : Bytes) (h : Has p m acc (44 :: t)) (hm : m.params = []) :
    ∃ p', Settled p' m acc ∧ step p 44 (44 :: t) = stAdd p' 44 (44 :: t) := by
  rcases h.rest with ⟨h1, h2, h3, h4, _⟩ | ⟨h1, init, x, h2, h3, h4, h5, h6⟩
  · refine ⟨{ p with subtypeLen := m.subtype.length }, ⟨h.type, ?_, h.qv, h.dec, h.exts, h.acc, ?_, h.el, h.er⟩, ?_⟩
    · show copy p.subtype m.subtype.length = _
      rw [h3]; exact copy_pre _ _
    · show p.params = _
      rw [h4, h2]; rfl
    · have : diff p.subtype (44 :: t) = some m.subtype.length := by rw [h3]; exact diff_pre _ _
      simp [step, h1, measured, this]
  · rw [hm] at h2; simp at h2

theorem has_blank (p : PS) (m : Media) (acc : List Acc) (b : Nat) (t : Bytes) (hb : b = 32 ∨ b = 9) (h : Has p m acc (b :: t)) :
    ∃ p', p'.st = .ows1 ∧ step p b (b :: t) = .go p' := by
  have hs : space b = true := by rcases hb with rfl | rfl <;> rfl
  have ht : token b = false := by rcases hb with rfl | rfl <;> rfl
  have hb2 : b ≠ 44 ∧ b ≠ 0 ∧ b ≠ 59 := by omega
  rcases h.rest with ⟨h1, h2, h3, h4, _⟩ | ⟨h1, init, x, h2, h3, h4, h5, h6⟩
  · have : diff p.subtype (b :: t) = some m.subtype.length := by rw [h3]; exact diff_pre _ _
    refine ⟨{ p with subtypeLen := m.subtype.length, st := .ows1 }, rfl, ?_⟩
    simp [step, h1, measured, this, hs, ht, hb2, stOws1]
  · have hd : diff p.pr (b :: t) = some x.value.length := by rw [h6]; exact diff_pre _ _
    have hc : copy p.pr (min x.value.length 30) = some (x.value.take 30) := by rw [h6]; exact copy_min _ _
    refine ⟨{ p with prLen := min x.value.length 30, plLen := min p.plLen 30, params := p.params ++ [tell x], st := .ows1 }, rfl, ?_⟩
    simp [step, h1, stPr, hd, stPend, h5, hc, hs, ht, hb2, stOws1, tell]

/-- Reading visible characters of a parameter's name. -/
theorem parse_pl (t : Bytes) : ∀ (n : Bytes) (p : PS), p.st = .pl → (∀ c ∈ n, Visible c ∧ c ≠ 61) → parse p (n ++ t) = parse p t
  | [], p, _, _ => rfl
  | c :: n, p, hp, h => by
    have hc := h c (by simp)
    have e : ({ p with st := .pl } : PS) = p := by rw [← hp]
    rw [List.cons_append, parse_go p p c, parse_pl t n p hp fun x hx => h x (by simp [hx])]
    simp [step, hp, stPl, hc.2, vis_token c hc.1, e]

theorem parse_pr (t : Bytes) : ∀ (n : Bytes) (p : PS), p.st = .pr → (∀ c ∈ n, token c = true) → parse p (n ++ t) = parse p t
  | [], p, _, _ => rfl
  | c :: n, p, hp, h => by
    have hc := h c (by simp)
    have e : ({ p with st := .pr } : PS) = p := by rw [← hp]
    rw [List.cons_append, parse_go p p c, parse_pr t n p hp fun x hx => h x (by simp [hx])]
    simp [step, hp, stPr, hc, e]

theorem parse_ows2 (t : Bytes) : ∀ (w : Bytes) (p : PS), p.st = .ows2 → Blanks w → parse p (w ++ t) = parse p t
  | [], p, _, _ => rfl
  | c :: w, p, hp, h => by
    have hs : space c = true := by rcases h c (by simp) with rfl | rfl <;> rfl
    have e : ({ p with st := .ows2 } : PS) = p := by rw [← hp]
    rw [List.cons_append, parse_go p p c, parse_ows2 t w p hp fun x hx => h x (by simp [hx])]
    simp [step, hp, stOws2, hs, e]

/-- Blanks behind a semicolon. -/
theorem parse_semi (t w : Bytes) (p : PS) (hp : p.st = .semi) (h : Blanks w) :
    ∃ s, (s = .semi ∨ s = .ows2) ∧ parse p (w ++ t) = parse { p with st := s } t := by
  cases w with
  | nil => exact ⟨.semi, Or.inl rfl, by rw [← hp]; rfl⟩
  | cons c w =>
    have hs : space c = true := by rcases h c (by simp) with rfl | rfl <;> rfl
    refine ⟨.ows2, Or.inr rfl, ?_⟩
    rw [List.cons_append, parse_go p { p with st := .ows2 } c, parse_ows2 t w _ rfl fun x hx => h x (by simp [hx])]
    simp [step, hp, stOws2, hs]

/-- The name of a parameter and the equals sign. -/
theorem parse_name (n t : Bytes) (p : PS) (hp : p.st = .semi ∨ p.st = .ows2) (hne : n ≠ []) (hq : n ≠ b!"q")
    (hn : ∀ c ∈ n, Visible c ∧ c ≠ 61) :
    parse p (n ++ 61 :: t) = parse { p with st := .peq, pl := some (n ++ 61 :: t), plLen := n.length } t := by
  have hstep : ∀ c s, step p c s = stOws2 p c s := by
    intro c s
    rcases hp with hp | hp <;> simp [step, hp]
  have hfin : ∀ (p' : PS), p'.st = .pl → p'.pl = some (n ++ 61 :: t) →
      parse p' (61 :: t) = parse { p' with st := .peq, plLen := n.length } t := by
    intro p' h1 h2
    rw [parse_go p' { p' with st := .peq, plLen := n.length } 61]
    have : diff p'.pl (61 :: t) = some n.length := by rw [h2]; exact diff_pre _ _
    simp [step, h1, stPl, this]
  cases n with
  | nil => exact absurd rfl hne
  | cons c n =>
    have hc := hn c (by simp)
    have hs := vis_space c hc.1
    have htk := vis_token c hc.1
    by_cases h113 : c = 113
    · subst h113
      rw [List.cons_append, parse_go p { p with st := .maybeq, pl := some (113 :: (n ++ 61 :: t)) } 113]
      · cases n with
        | nil => exact absurd rfl hq
        | cons d n =>
          have hd := hn d (by simp)
          rw [List.cons_append, parse_go _ { p with st := .pl, pl := some (113 :: (d :: n ++ 61 :: t)) } d,
            parse_pl _ n _ rfl (fun x hx => hn x (by simp [hx])), hfin _ rfl rfl]
          · rfl
          · simp [step, hd.2, stPl, vis_token d hd.1]
      · rw [hstep]; simp [stOws2, hs]
    · rw [List.cons_append, parse_go p { p with st := .pl, pl := some (c :: (n ++ 61 :: t)) } c,
        parse_pl _ n _ rfl (fun x hx => hn x (by simp [hx])), hfin _ rfl rfl]
      rw [hstep]; simp [stOws2, hs, h113, htk, hc.2]

/-- A parameter. -/
theorem parse_param (x : Param) (hx : x.Ok) (t : Bytes) (p : PS) (m : Media) (acc : List Acc)
    (h : Has p m acc (x.text ++ t)) :
    ∃ p', parse p (x.text ++ t) = parse p' t ∧ Has p' { m with params := m.params ++ [x] } acc t := by
  have et : x.text ++ t = 59 :: (x.w ++ (x.name ++ 61 :: (x.value ++ t))) := by simp [Param.text]
  rw [et] at h ⊢
  obtain ⟨p1, s1, hst, h1⟩ := has_semi p m acc _ h
  rw [parse_go p p1 59 _ h1]
  obtain ⟨s, hs, h2⟩ := parse_semi (x.name ++ 61 :: (x.value ++ t)) x.w p1 hst hx.w
  rw [h2, parse_name x.name _ { p1 with st := s } hs hx.ne hx.notQ hx.name]
  cases hv : x.value with
  | nil => exact absurd hv hx.valueNe
  | cons c v =>
    have hc := hx.value c (by rw [hv]; simp)
    have h34 : c ≠ 34 := by have := hx.notQuoted; rw [hv] at this; simpa using this
    rw [List.cons_append, parse_go _ { p1 with st := .pr, pl := some (x.name ++ 61 :: (c :: v ++ t)), plLen := x.name.length, pr := some (c :: v ++ t) } c,
      parse_pr t v _ rfl (fun y hy => vis_token y (hx.value y (by rw [hv]; simp [hy])))]
    · refine ⟨_, rfl, ⟨s1.type, s1.qv, s1.dec, s1.exts, s1.acc, s1.el, s1.er, Or.inr ⟨rfl, m.params, x, rfl, s1.sub, s1.params, ?_, ?_⟩⟩⟩
      · exact copy_min _ _
      · simp only [hv]
    · simp [step, h34, vis_token c hc]

theorem parse_params (t : Bytes) (acc : List Acc) : ∀ (ps : List Param) (p : PS) (m : Media), (∀ x ∈ ps, x.Ok) →
    Has p m acc (ps.flatMap Param.text ++ t) →
    ∃ p', parse p (ps.flatMap Param.text ++ t) = parse p' t ∧ Has p' { m with params := m.params ++ ps } acc t
  | [], p, m, _, h => ⟨p, rfl, by simpa using h⟩
  | x :: ps, p, m, hx, h => by
    have et : (x :: ps).flatMap Param.text ++ t = x.text ++ (ps.flatMap Param.text ++ t) := by simp
    rw [et] at h ⊢
    obtain ⟨p1, h1, h2⟩ := parse_param x (hx x (by simp)) _ p m acc h
    obtain ⟨p2, h3, h4⟩ := parse_params t acc ps p1 _ (fun y hy => hx y (by simp [hy])) h2
    exact ⟨p2, by rw [h1, h3], by simpa using h4⟩

/-- Where a media range may begin. -/
def Fresh (p : PS) (acc : List Acc) : Prop := (p.st = .init ∨ p.st = .after) ∧ p.acc = acc

theorem parse_type (t : Bytes) : ∀ (n : Bytes) (p : PS), p.st = .type → (∀ c ∈ n, Visible c ∧ c ≠ 47) → parse p (n ++ t) = parse p t
  | [], p, _, _ => rfl
  | c :: n, p, hp, h => by
    have hc := h c (by simp)
    have e : ({ p with st := .type } : PS) = p := by rw [← hp]
    rw [List.cons_append, parse_go p p c, parse_type t n p hp fun x hx => h x (by simp [hx])]
    simp [step, hp, stType, hc.2, vis_token c hc.1, e]

theorem parse_sub (t : Bytes) : ∀ (n : Bytes) (p : PS), p.st = .subtype → (∀ c ∈ n, Visible c) → parse p (n ++ t) = parse p t
  | [], p, _, _ => rfl
  | c :: n, p, hp, h => by
    have hc := h c (by simp)
    have h1 := hc
    simp only [Visible] at h1
    rw [List.cons_append, parse_go p p c, parse_sub t n p hp fun x hx => h x (by simp [hx])]
    simp [step, hp, vis_token c hc, h1, show c ≠ 0 by omega]

/-- Type, slash and subtype. -/
theorem parse_bare (ty sub t : Bytes) (htn : ty ≠ []) (hty : ∀ c ∈ ty, Visible c ∧ c ≠ 47) (hsn : sub ≠ [])
    (hsub : ∀ c ∈ sub, Visible c) (p : PS) (acc : List Acc) (h : Fresh p acc) :
    ∃ p', parse p (ty ++ 47 :: (sub ++ t)) = parse p' t ∧ Has p' ⟨ty, sub, []⟩ acc t := by
  cases ty with
  | nil => exact absurd rfl htn
  | cons c ty =>
    cases sub with
    | nil => exact absurd rfl hsn
    | cons d sub =>
      have hc := hty c (by simp)
      have hd := hsub d (by simp)
      have hc1 := hc.1
      simp only [Visible] at hc1
      have hd1 := hd
      simp only [Visible] at hd1
      have hini : step p c (c :: (ty ++ 47 :: (d :: sub ++ t))) =
          .go ⟨.type, some (c :: (ty ++ 47 :: (d :: sub ++ t))), none, 0, 0, 0, none, none, none, 0, 0, none, none, p.elLen, p.erLen, [], 0, p.acc⟩ := by
        rcases h.1 with hp | hp
        · simp [step, hp, stInit, stType, vis_token c hc.1, hc.2]
        · simp [step, hp, stAfter, vis_space c hc.1, stInit, stType, vis_token c hc.1, hc.2, hc1, show c ≠ 0 by omega]
      rw [List.cons_append, parse_go p _ c _ hini, parse_type _ ty _ rfl (fun x hx => hty x (by simp [hx]))]
      have hdiff : diff (some (c :: (ty ++ 47 :: (d :: sub ++ t)))) (47 :: (d :: sub ++ t)) = some (ty.length + 1) := by
        have := diff_pre (c :: ty) (47 :: (d :: sub ++ t))
        simpa using this
      rw [parse_go _ ⟨.slash, some (c :: (ty ++ 47 :: (d :: sub ++ t))), none, ty.length + 1, 0, 0, none, none, none, 0, 0, none, none, p.elLen, p.erLen, [], 0, p.acc⟩ 47]
      · rw [List.cons_append, parse_go _ ⟨.subtype, some (c :: (ty ++ 47 :: (d :: (sub ++ t)))), some (d :: (sub ++ t)), ty.length + 1, 0, 0, none, none, none, 0, 0, none, none, p.elLen, p.erLen, [], 0, p.acc⟩ d,
          parse_sub t sub _ rfl (fun x hx => hsub x (by simp [hx]))]
        · refine ⟨_, rfl, ⟨?_, rfl, rfl, rfl, h.2, rfl, rfl, Or.inl ⟨rfl, rfl, rfl, rfl, rfl⟩⟩⟩
          have := copy_pre (c :: ty) (47 :: (d :: sub ++ t))
          simpa using this
        · simp [step, vis_token d hd, hd1]
      · simp only [step, stType, hdiff]
        rfl

theorem parse_media (m : Media) (hm : m.Ok) (t : Bytes) (p : PS) (acc : List Acc) (h : Fresh p acc) :
    ∃ p', parse p (m.text ++ t) = parse p' t ∧ Has p' m acc t := by
  have et : m.text ++ t = m.type ++ 47 :: (m.subtype ++ (m.params.flatMap Param.text ++ t)) := by simp [Media.text]
  rw [et]
  obtain ⟨p1, h1, h2⟩ := parse_bare m.type m.subtype (m.params.flatMap Param.text ++ t) hm.typeNe hm.type hm.subNe hm.sub p acc h
  obtain ⟨p2, h3, h4⟩ := parse_params t acc m.params p1 _ hm.params h2
  exact ⟨p2, by rw [h1, h3], by simpa using h4⟩

/-! ## weights -/

theorem parse_digits (t : Bytes) : ∀ (ds : List Nat) (p : PS), p.st = .zeroDec → (∀ d ∈ ds, d < 10) →
    p.dec + ds.length ≤ 3 → parse p (ds.map (48 + ·) ++ t) = parse { p with dec := p.dec + ds.length } t
  | [], p, _, _, _ => rfl
  | d :: ds, p, hp, hd, hl => by
    have h := hd d (by simp)
    simp only [List.length_cons] at hl
    have hnum : digit (48 + d) = true := by simp [digit]; omega
    rw [List.map_cons, List.cons_append, parse_go p { p with dec := p.dec + 1 } (48 + d),
      parse_digits t ds { p with dec := p.dec + 1 } hp (fun x hx => hd x (by simp [hx])) (by simp; omega)]
    · simp only [List.length_cons]
      congr 2
      omega
    · unfold step
      simp [hp, hnum, show p.dec < 3 by omega]

/-- The letter q and the equals sign behind a semicolon. -/
theorem parse_weq (m : Media) (acc : List Acc) (w t : Bytes) (hw : Blanks w) (p : PS)
    (h : Has p m acc (59 :: (w ++ 113 :: 61 :: t))) :
    ∃ p', parse p (59 :: (w ++ 113 :: 61 :: t)) = parse p' t ∧ p'.st = .weq ∧ Settled p' m acc := by
  obtain ⟨p1, s1, hst, h1⟩ := has_semi p m acc _ h
  rw [parse_go p p1 59 _ h1]
  obtain ⟨s, hs, h2⟩ := parse_semi (113 :: 61 :: t) w p1 hst hw
  rw [h2, parse_go _ { p1 with st := .maybeq, pl := some (113 :: 61 :: t) } 113,
    parse_go _ { p1 with st := .weq, pl := none } 61]
  · exact ⟨_, rfl, rfl, ⟨s1.type, s1.sub, s1.qv, s1.dec, s1.exts, s1.acc, s1.params, s1.el, s1.er⟩⟩
  · simp [step]
  · rcases hs with rfl | rfl <;> simp [step, stOws2, space]

/-- The local variables describe `m` with a quality. -/
structure Weighed (p : PS) (m : Media) (acc : List Acc) (qv : Option Bytes) : Prop where
  type : copy p.type p.typeLen = some m.type
  sub : copy p.subtype p.subtypeLen = some m.subtype
  qv : p.qv = qv
  exts : p.exts = 0
  acc : p.acc = acc
  params : p.params = m.params.map tell
  el : p.el = none
  er : p.er = none

theorem parse_weight (m : Media) (acc : List Acc) (w : Weight) (hw : w.Ok) (t : Bytes) (p : PS) (h : Has p m acc (w.text ++ t)) :
    ∃ p', parse p (w.text ++ t) = parse p' t ∧ p'.st = .zeroDec ∧ p'.dec = w.ds.length ∧
      Weighed p' m acc (some (b!"0." ++ w.ds.map (48 + ·) ++ t)) := by
  obtain ⟨ws, ds⟩ := w
  cases ds with
  | nil => exact absurd rfl hw.ne
  | cons d ds =>
    have hd := hw.ds d (by simp)
    have hl := hw.len
    simp only [List.length_cons] at hl
    have hnum : digit (48 + d) = true := by simp [digit]; omega
    have et : (Weight.mk ws (d :: ds)).text ++ t = 59 :: (ws ++ 113 :: 61 :: 48 :: 46 :: (48 + d) :: (ds.map (48 + ·) ++ t)) := by
      simp [Weight.text]
    rw [et] at h ⊢
    obtain ⟨p1, h1, h2, h3⟩ := parse_weq m acc ws _ hw.w p h
    rw [h1, parse_go p1 { p1 with st := .zeroInt, qv := some (48 :: 46 :: (48 + d) :: (ds.map (48 + ·) ++ t)) } 48 _ (by simp [step, h2]),
      parse_go _ { p1 with st := .zeroPoint, qv := some (48 :: 46 :: (48 + d) :: (ds.map (48 + ·) ++ t)) } 46 _ (by simp [step]),
      parse_go _ { p1 with st := .zeroDec, qv := some (48 :: 46 :: (48 + d) :: (ds.map (48 + ·) ++ t)), dec := 1 } (48 + d) _ (by simp [step, hnum, h3.dec]),
      parse_digits t ds _ rfl (fun x hx => hw.ds x (by simp [hx])) (by simp; omega)]
    refine ⟨_, rfl, rfl, by simp; omega, ⟨h3.type, h3.sub, rfl, h3.exts, h3.acc, h3.params, h3.el, h3.er⟩⟩

theorem takeWhile_num (t : Bytes) (ht : ∀ c r, t = c :: r → c ≠ 46 ∧ digit c = false) : ∀ a : Bytes, (∀ c ∈ a, c = 46 ∨ digit c = true) →
    (a ++ t).takeWhile (fun c => c == 46 || number c) = a
  | [], _ => by
    cases t with
    | nil => rfl
    | cons c r =>
      have := ht c r rfl
      have h2 : number c = false := this.2
      simp [this.1, h2]
  | c :: a, h => by
    have h1 : (c == 46 || number c) = true := by
      rcases h c (by simp) with h | h
      · simp [h]
      · have : number c = true := h
        simp [this]
    rw [List.cons_append, List.takeWhile_cons, h1, if_pos rfl, takeWhile_num t ht a fun x hx => h x (by simp [hx])]

theorem val_lt (w : Weight) (hw : w.Ok) : w.val < 1000 := by
  obtain ⟨ws, ds⟩ := w
  have h1 := hw.ds
  simp only [Weight.val]
  have h : ∀ i, ds.getD i 0 < 10 := by
    intro i
    rw [List.getD_eq_getElem?_getD]
    cases hg : ds[i]? with
    | none => simp
    | some x => simp; exact h1 x (List.mem_of_getElem? hg)
  have := h 0; have := h 1; have := h 2
  omega

theorem quality_weight (w : Weight) (hw : w.Ok) (t : Bytes) (ht : ∀ c r, t = c :: r → c ≠ 46 ∧ digit c = false) :
    quality (some (b!"0." ++ w.ds.map (48 + ·) ++ t)) = some (pct w.val) := by
  obtain ⟨ws, ds⟩ := w
  have h1 := hw.ds
  have h2 := hw.len
  have h3 := hw.ne
  simp only at h1 h2 h3 ⊢
  have htw : ((b!"0." ++ ds.map (48 + ·)) ++ t).takeWhile (fun c => c == 46 || number c) = b!"0." ++ ds.map (48 + ·) := by
    apply takeWhile_num t ht
    intro c hc
    rcases List.mem_append.1 hc with hc | hc
    · simp at hc; rcases hc with rfl | rfl
      · right; rfl
      · left; rfl
    · obtain ⟨d, hd, rfl⟩ := List.mem_map.1 hc
      right
      have := h1 d hd
      simp [digit]; omega
  unfold quality
  simp only [htw]
  rw [if_neg (by simp), if_pos (by simp; omega)]
  congr 2
  have hth : thousandths (b!"0." ++ ds.map (48 + ·)) = frac 100 (ds.map (48 + ·)) := by
    simp [thousandths, number]
  rw [hth]
  match ds, h1, h2, h3 with
  | [], _, _, h3 => exact absurd rfl h3
  | [d], h1, _, _ =>
    have := h1 d (by simp)
    simp [frac, number, Weight.val, show 48 + d ≤ 57 by omega]
  | [d, e], h1, _, _ =>
    have := h1 d (by simp); have := h1 e (by simp)
    simp [frac, number, Weight.val, show 48 + d ≤ 57 by omega, show 48 + e ≤ 57 by omega]
  | [d, e, f], h1, _, _ =>
    have := h1 d (by simp); have := h1 e (by simp); have := h1 f (by simp)
    simp [frac, number, Weight.val, show 48 + d ≤ 57 by omega, show 48 + e ≤ 57 by omega, show 48 + f ≤ 57 by omega]
    try omega
  | _ :: _ :: _ :: _ :: _, _, h2, _ => simp at h2

theorem percent_pct (v : Nat) (h : v < 1000) : Percent v (pct v) := by
  have := Fly.Encode.pct_table ⟨v, h⟩
  exact Or.inr ⟨h, this.1, this.2.1, this.2.2.1⟩

/-! ## lists of ranges -/

def toldOf (r : Range) : Acc :=
  ⟨r.media.type, r.media.subtype, (match r.weight with | none => 100 | some w => pct w.val), r.media.params.map tell, 0⟩

theorem toldOf_told (r : Range) (h : r.Ok) : Told r (toldOf r) := by
  refine ⟨rfl, rfl, ?_, rfl, rfl⟩
  unfold Range.quality toldOf
  cases hw : r.weight with
  | none => exact Or.inl ⟨rfl, rfl⟩
  | some w => exact percent_pct _ (val_lt w (h.weight w hw))

theorem stAdd_weighed (p : PS) (m : Media) (hm : m.type.length < 30 ∧ m.subtype.length ≤ 30) (acc : List Acc) (qv : Option Bytes) (q : Nat) (hq : quality qv = some q)
    (h : Weighed p m acc qv) (c : Nat) (s : Bytes) :
    stAdd p c s = stAfter { p with acc := acc ++ [⟨m.type, m.subtype, q, m.params.map tell, 0⟩] } c s := by
  have h1 : typeOk m.type = true := by simp [typeOk, hm.1]
  have h2 := hm.2
  simp only [stAdd, h.qv, hq, h.type, h1, h.sub, if_neg (show ¬ 30 < m.subtype.length by omega), h.acc, h.params, h.exts]
  rfl

theorem settled_weighed (p : PS) (m : Media) (acc : List Acc) (h : Settled p m acc) : Weighed p m acc none :=
  ⟨h.type, h.sub, h.qv, h.exts, h.acc, h.params, h.el, h.er⟩

/-- A range followed by a comma or by the end. -/
theorem parse_range (r : Range) (hr : r.Ok) (p : PS) (acc : List Acc) (h : Fresh p acc) (c : Nat) (t : Bytes)
    (hc : c = 0 ∨ c = 44 ∧ r.Closed) :
    ∃ p', p'.acc = acc ++ [toldOf r] ∧
      parse p (r.text ++ c :: t) = run (stAfter p' c (c :: t)) t := by
  have et : r.text ++ c :: t = r.media.text ++ (weightText r.weight ++ c :: t) := by simp [Range.text]
  rw [et]
  obtain ⟨p1, h1, h2⟩ := parse_media r.media hr.media (weightText r.weight ++ c :: t) p acc h
  rw [h1]
  cases hw : r.weight with
  | none =>
    rw [hw] at h2
    simp only [weightText, List.nil_append] at h2 ⊢
    have hq : quality none = some 100 := rfl
    have hstep : ∃ p2, Settled p2 r.media acc ∧ step p1 c (c :: t) = stAdd p2 c (c :: t) := by
      rcases hc with rfl | ⟨rfl, hcl⟩
      · exact has_end p1 r.media acc t h2
      · have : r.media.params = [] := by
          rcases hcl with h | h
          · exact h
          · exact absurd hw h
        exact has_comma p1 r.media acc t h2 this
    obtain ⟨p2, h3, h4⟩ := hstep
    rw [parse_run, h4, stAdd_weighed p2 r.media ⟨hr.media.typeLen, hr.media.subLen⟩ acc none 100 hq (settled_weighed p2 _ _ h3)]
    have e : toldOf r = ⟨r.media.type, r.media.subtype, 100, r.media.params.map tell, 0⟩ := by simp only [toldOf, hw]
    exact ⟨{ p2 with acc := acc ++ [toldOf r] }, rfl, by rw [e]⟩
  | some w =>
    have hwo := hr.weight w hw
    rw [hw] at h2
    simp only [weightText] at h2 ⊢
    obtain ⟨p2, h3, h4, h5, h6⟩ := parse_weight r.media acc w hwo (c :: t) p1 h2
    have hcd : digit c = false ∧ space c = false ∧ c ≠ 59 ∧ c ≠ 46 := by
      rcases hc with rfl | ⟨rfl, _⟩ <;> decide
    have hq := quality_weight w hwo (c :: t) (by intro x y e; simp at e; rw [← e.1]; exact ⟨hcd.2.2.2, hcd.1⟩)
    have h7 : step p2 c (c :: t) = stAdd p2 c (c :: t) := by
      rcases hc with rfl | ⟨rfl, _⟩ <;> simp [step, h4, digit, space]
    rw [h3, parse_run, h7, stAdd_weighed p2 r.media ⟨hr.media.typeLen, hr.media.subLen⟩ acc _ _ hq h6]
    have e : toldOf r = ⟨r.media.type, r.media.subtype, pct w.val, r.media.params.map tell, 0⟩ := by simp only [toldOf, hw]
    exact ⟨{ p2 with acc := acc ++ [toldOf r] }, rfl, by rw [e]⟩

theorem parse_gap (t : Bytes) : ∀ (g : Bytes) (p : PS), p.st = .after → Gap g → parse p (g ++ t) = parse p t
  | [], p, _, _ => rfl
  | c :: g, p, hp, h => by
    have e : ({ p with st := .after } : PS) = p := by rw [← hp]
    rw [List.cons_append, parse_go p p c, parse_gap t g p hp fun x hx => h x (by simp [hx])]
    rcases h c (by simp) with rfl | rfl | rfl <;> simp [step, hp, stAfter, space, e]

theorem parse_prefix (t : Bytes) : ∀ (l : List (Range × Bytes)) (p : PS) (acc : List Acc), PrefixOk l → Fresh p acc →
    ∃ p', parse p (prefixText l ++ t) = parse p' t ∧ Fresh p' (acc ++ l.map fun x => toldOf x.1)
  | [], p, acc, _, h => ⟨p, rfl, by simpa using h⟩
  | (r, g) :: l, p, acc, hl, h => by
    obtain ⟨h1, h2, h3⟩ := hl (r, g) (by simp)
    have et : prefixText ((r, g) :: l) ++ t = r.text ++ 44 :: (g ++ (prefixText l ++ t)) := by simp [prefixText]
    rw [et]
    obtain ⟨p1, h4, h5⟩ := parse_range r h1 p acc h 44 (g ++ (prefixText l ++ t)) (Or.inr ⟨rfl, h2⟩)
    rw [h5]
    simp only [stAfter]
    rw [if_neg (by decide), if_neg (by decide), if_pos (by decide)]
    simp only [run]
    rw [parse_gap _ g _ rfl h3]
    obtain ⟨p2, h6, h7⟩ := parse_prefix t l { p1 with st := .after } (acc ++ [toldOf r]) (fun x hx => hl x (by simp [hx])) ⟨Or.inr rfl, h4⟩
    exact ⟨p2, h6, by simpa using h7⟩

theorem allTold_map : ∀ rs : List Range, (∀ r ∈ rs, r.Ok) → AllTold rs (rs.map toldOf)
  | [], _ => trivial
  | r :: rs, h => ⟨toldOf_told r (h r (by simp)), allTold_map rs fun x hx => h x (by simp [hx])⟩

theorem headerValue_first (v : Bytes) (hs : List (Bytes × Bytes)) (h : FirstAccept v hs) : headerValue hs = some v := by
  obtain ⟨pre, post, n, rfl, hn, hpre⟩ := h
  unfold headerValue
  rw [List.find?_append]
  have e : pre.find? (fun h => decide (0 < h.1.length) && (h.1 == b!"Accept" || h.1 == b!"accept")) = none := by
    rw [List.find?_eq_none]
    intro x hx
    have := hpre x hx
    simp [this]
  rw [e, List.find?_cons]
  rcases hn with rfl | rfl <;> simp

theorem start_fresh : Fresh start [] := ⟨Or.inl rfl, rfl⟩

end Fly.Mime
