import Verif.Route.Spec
set_option linter.all false

namespace Fly.Route
open Req (Method alpha numeral)

theorem pos_none (c : Nat) : ∀ l : Bytes, pos c l = none ↔ c ∉ l
  | [] => by simp [pos]
  | x :: r => by
    simp only [pos, List.mem_cons, not_or]
    by_cases h : x = c
    · simp [h]
    · have := pos_none c r
      simp [h, this, Ne.symm h]

theorem pos_some (c : Nat) : ∀ (l : Bytes) (n : Nat), pos c l = some n → ∃ a b, l = a ++ c :: b ∧ c ∉ a ∧ a.length = n
  | [], n, h => by simp [pos] at h
  | x :: r, n, h => by
    simp only [pos] at h
    by_cases hx : x = c
    · subst hx
      simp at h
      exact ⟨[], r, rfl, by simp, by simpa using h⟩
    · simp [hx] at h
      obtain ⟨k, hk, rfl⟩ := h
      obtain ⟨a, b, rfl, h2, h3⟩ := pos_some c r k hk
      exact ⟨x :: a, b, rfl, by simp [h2, Ne.symm hx], by simp [h3]⟩

theorem pos_append (c : Nat) : ∀ (a b : Bytes), c ∉ a → pos c (a ++ c :: b) = some a.length
  | [], b, _ => by simp [pos]
  | x :: a, b, h => by
    simp only [List.mem_cons, not_or] at h
    have := pos_append c a b h.2
    simp [pos, Ne.symm h.1, this]

/-! ## segments -/

def unsplit : List Bytes → Bytes
  | [] => []
  | [s] => s
  | s :: t => s ++ 47 :: unsplit t

theorem segs_ne (u : Bytes) : segs u ≠ [] := by
  cases u with
  | nil => simp [segs]
  | cons c r =>
    rw [segs]
    split
    · simp
    · split <;> simp

theorem unsplit_segs : ∀ u, unsplit (segs u) = u
  | [] => rfl
  | c :: r => by
    have ih := unsplit_segs r
    rw [segs]
    by_cases h : c = 47
    · rw [if_pos h]
      cases hs : segs r with
      | nil => exact absurd hs (segs_ne r)
      | cons s t => rw [hs] at ih; simp only [unsplit, ih, h, List.nil_append]
    · rw [if_neg h]
      cases hs : segs r with
      | nil => exact absurd hs (segs_ne r)
      | cons s t =>
        rw [hs] at ih
        cases t with
        | nil => simp only [unsplit] at ih ⊢; rw [ih]
        | cons y t => simp only [unsplit] at ih ⊢; rw [← ih]; rfl

theorem segs_free : ∀ u, ∀ s ∈ segs u, (47 : Nat) ∉ s
  | [], s, h => by simp [segs] at h; simp [h]
  | c :: r, s, h => by
    have ih := segs_free r
    rw [segs] at h
    by_cases hc : c = 47
    · rw [if_pos hc] at h
      rcases List.mem_cons.1 h with rfl | h
      · simp
      · exact ih s h
    · rw [if_neg hc] at h
      cases hs : segs r with
      | nil => exact absurd hs (segs_ne r)
      | cons x t =>
        rw [hs] at h ih
        rcases List.mem_cons.1 h with rfl | h
        · have := ih x (by simp)
          simp [this, Ne.symm hc]
        · exact ih s (by simp [h])

theorem segs_sub : ∀ u, ∀ s ∈ segs u, ∀ x ∈ s, x ∈ u
  | [], s, h => by simp [segs] at h; simp [h]
  | c :: r, s, h => by
    have ih := segs_sub r
    rw [segs] at h
    by_cases hc : c = 47
    · rw [if_pos hc] at h
      rcases List.mem_cons.1 h with rfl | h
      · simp
      · exact fun x hx => List.mem_cons_of_mem _ (ih s h x hx)
    · rw [if_neg hc] at h
      cases hs : segs r with
      | nil => exact absurd hs (segs_ne r)
      | cons y t =>
        rw [hs] at h ih
        rcases List.mem_cons.1 h with rfl | h
        · intro x hx
          rcases List.mem_cons.1 hx with rfl | hx
          · simp
          · exact List.mem_cons_of_mem _ (ih y (by simp) x hx)
        · exact fun x hx => List.mem_cons_of_mem _ (ih s (by simp [h]) x hx)

theorem segs_append (b : Bytes) : ∀ a, segs (a ++ 47 :: b) = segs a ++ segs b
  | [] => by simp [segs]
  | c :: a => by
    have ih := segs_append b a
    rw [List.cons_append, segs, segs, ih]
    by_cases h : c = 47
    · simp [h]
    · rw [if_neg h, if_neg h]
      cases hs : segs a with
      | nil => exact absurd hs (segs_ne a)
      | cons s t => rfl

theorem segs_one : ∀ b : Bytes, (47 : Nat) ∉ b → segs b = [b]
  | [], _ => rfl
  | c :: b, h => by
    simp only [List.mem_cons, not_or] at h
    rw [segs, if_neg (Ne.symm h.1), segs_one b h.2]

theorem unsplit_append (s : Bytes) : ∀ a, a ≠ [] → unsplit (a ++ [s]) = unsplit a ++ 47 :: s
  | [], h => absurd rfl h
  | [x], _ => rfl
  | x :: y :: t, _ => by
    have ih := unsplit_append s (y :: t) (by simp)
    simp only [List.cons_append] at ih ⊢
    simp only [unsplit, ih, List.append_assoc, List.cons_append]

theorem allFit_plain : ∀ (ps ss : List Bytes), (∀ p ∈ ps, ¬ IsParam p) → (AllFit ps ss ↔ ps = ss)
  | [], [], _ => by simp [AllFit]
  | [], s :: ss, _ => by simp [AllFit]
  | p :: ps, [], _ => by simp [AllFit]
  | p :: ps, s :: ss, h => by
    have := allFit_plain ps ss fun x hx => h x (by simp [hx])
    have hp := h p (by simp)
    simp [AllFit, SegFits, hp, this]

theorem allFit_append (p : Bytes) : ∀ (ps ss : List Bytes),
    (AllFit (ps ++ [p]) ss ↔ ∃ ss' s, ss = ss' ++ [s] ∧ AllFit ps ss' ∧ SegFits p s)
  | [], [] => by simp [AllFit]
  | [], s :: ss => by
    constructor
    · intro h
      simp only [List.nil_append, AllFit] at h
      cases ss with
      | nil => exact ⟨[], s, rfl, trivial, h.1⟩
      | cons y t => exact absurd h.2 (by simp [AllFit])
    · rintro ⟨ss', x, h1, h2, h3⟩
      cases ss' with
      | nil => simp at h1; obtain ⟨rfl, rfl⟩ := h1; exact ⟨h3, trivial⟩
      | cons y t => exact absurd h2 (by simp [AllFit])
  | q :: ps, [] => by simp [AllFit]
  | q :: ps, s :: ss => by
    have ih := allFit_append p ps ss
    simp only [List.cons_append, AllFit, ih]
    constructor
    · rintro ⟨h1, ss', x, rfl, h3, h4⟩
      exact ⟨s :: ss', x, rfl, ⟨h1, h3⟩, h4⟩
    · rintro ⟨ss', x, h1, h3, h4⟩
      cases ss' with
      | nil => exact absurd h3 (by simp [AllFit])
      | cons y t =>
        simp only [List.cons_append, List.cons.injEq] at h1
        obtain ⟨rfl, rfl⟩ := h1
        exact ⟨h3.1, t, x, rfl, h3.2, h4⟩

theorem plain_segs (p : Bytes) (h : Plain p) : ∀ s ∈ segs p, ¬ IsParam s := by
  rintro s hs ⟨x, rfl⟩
  exact h (segs_sub p _ hs 123 (by simp))

theorem fits_plain (p u : Bytes) (h : Plain p) : Fits p u ↔ p = u := by
  unfold Fits
  rw [allFit_plain _ _ (plain_segs p h)]
  constructor
  · intro e
    rw [← unsplit_segs p, e, unsplit_segs]
  · rintro rfl; rfl

theorem fits_last (pre x u : Bytes) (h : (123 : Nat) ∉ pre) (hx : (47 : Nat) ∉ x) :
    Fits (pre ++ 47 :: 123 :: x ++ [125]) u ↔ ∃ s, u = pre ++ 47 :: s ∧ s ≠ [] ∧ (47 : Nat) ∉ s := by
  unfold Fits
  have e1 : segs (pre ++ 47 :: 123 :: x ++ [125]) = segs pre ++ [123 :: x ++ [125]] := by
    rw [show pre ++ 47 :: 123 :: x ++ [125] = pre ++ 47 :: (123 :: x ++ [125]) by simp, segs_append,
      segs_one (123 :: x ++ [125]) (by simp [hx])]
  have hip : IsParam (123 :: x ++ [125]) := ⟨x, rfl⟩
  rw [e1, allFit_append]
  constructor
  · rintro ⟨ss, s, e2, h2, h3⟩
    rw [allFit_plain _ _ (plain_segs pre h)] at h2
    subst h2
    refine ⟨s, ?_, ?_, ?_⟩
    · rw [← unsplit_segs u, e2, unsplit_append _ _ (segs_ne pre), unsplit_segs]
    · rcases h3 with h3 | h3
      · exact h3.2
      · exact absurd hip h3.1
    · exact segs_free u s (by rw [e2]; simp)
  · rintro ⟨s, rfl, h2, h3⟩
    refine ⟨segs pre, s, ?_, ?_, Or.inl ⟨hip, h2⟩⟩
    · rw [segs_append, segs_one s h3]
    · rw [allFit_plain _ _ (plain_segs pre h)]

/-! ## registration -/

theorem parse_plain : ∀ p, Plain p → parseParams p = .ok []
  | [], _ => rfl
  | c :: r, h => by
    simp only [Plain, List.mem_cons, not_or] at h
    rw [parseParams, if_neg (by simpa using Ne.symm h.1)]
    exact parse_plain r h.2

theorem parse_nil : ∀ p, parseParams p = .ok [] → Plain p
  | [], _ => by simp [Plain]
  | c :: r, h => by
    rw [parseParams] at h
    by_cases hc : c = 123
    · rw [if_pos (by simp [hc])] at h
      split at h
      · simp at h
      · split at h
        · simp at h
        · split at h <;> simp at h
    · rw [if_neg (by simpa using hc)] at h
      have := parse_nil r h
      simp only [Plain, List.mem_cons, not_or] at this ⊢
      exact ⟨Ne.symm hc, this⟩

theorem parse_skip (rest : Bytes) : ∀ pre, (123 : Nat) ∉ pre → parseParams (pre ++ rest) = parseParams rest
  | [], _ => rfl
  | c :: r, h => by
    simp only [List.mem_cons, not_or] at h
    rw [List.cons_append, parseParams, if_neg (by simpa using Ne.symm h.1)]
    exact parse_skip rest r h.2

theorem parse_bracket : ∀ p ps, parseParams p = .ok ps → ∀ a b, p = a ++ 123 :: b → (125 : Nat) ∈ b
  | [], ps, h, a, b, e => by simp at e
  | c :: r, ps, h, a, b, e => by
    rw [parseParams] at h
    by_cases hc : c = 123
    · rw [if_pos (by simp [hc])] at h
      split at h
      · simp at h
      · rename_i hb
        cases a with
        | nil => simp at e; rw [← e.2]; simpa using hb
        | cons y a =>
          simp only [List.cons_append, List.cons.injEq] at e
          split at h
          · simp at h
          · split at h
            · simp at h
            · rename_i ps' hps
              exact parse_bracket r ps' hps a b e.2
    · rw [if_neg (by simpa using hc)] at h
      cases a with
      | nil => simp at e; exact absurd e.1 hc
      | cons y a =>
        simp only [List.cons_append, List.cons.injEq] at e
        exact parse_bracket r ps h a b e.2

/-- What was asked for when a route was registered. -/
def asked (r : Route) : Bytes × Method × Nat := (r.uri, r.method, r.fn)

theorem registerAll_order : ∀ (l : List (Bytes × Method × Nat)) (rs : List Route),
    ∃ l', (registerAll rs l).map asked = rs.map asked ++ l' ∧ l'.Sublist l ∧
      ((∀ x ∈ l, ∃ ps, parseParams x.1 = .ok ps) → l' = l)
  | [], rs => ⟨[], by simp [registerAll], by simp, by simp⟩
  | (u, m, f) :: t, rs => by
    rw [registerAll]
    unfold register
    cases hp : parseParams u with
    | error e =>
      obtain ⟨l', h1, h2, h3⟩ := registerAll_order t rs
      refine ⟨l', h1, h2.cons _, fun h => ?_⟩
      obtain ⟨ps, h⟩ := h (u, m, f) (by simp)
      rw [hp] at h
      simp at h
    | ok ps =>
      obtain ⟨l', h1, h2, h3⟩ := registerAll_order t (rs ++ [⟨u, m, ps, f⟩])
      refine ⟨(u, m, f) :: l', ?_, h2.cons_cons _, fun h => ?_⟩
      · simp only
        rw [h1]
        simp [asked]
      · rw [h3 fun x hx => h x (by simp [hx])]

/-- A route as registration makes it. -/
def Made (r : Route) : Prop := parseParams r.uri = .ok r.params

theorem registerAll_made : ∀ (l : List (Bytes × Method × Nat)) (rs : List Route),
    (∀ r ∈ rs, Made r) → ∀ r ∈ registerAll rs l, Made r
  | [], rs, h => h
  | (u, m, f) :: t, rs, h => by
    rw [registerAll]
    unfold register
    cases hp : parseParams u with
    | error e => exact registerAll_made t rs h
    | ok ps =>
      refine registerAll_made t _ ?_
      intro r hr
      rcases List.mem_append.1 hr with hr | hr
      · exact h r hr
      · simp at hr; subst hr; exact hp

theorem registerAll_uri (P : Bytes → Prop) : ∀ (l : List (Bytes × Method × Nat)) (rs : List Route),
    (∀ r ∈ rs, P r.uri) → (∀ x ∈ l, P x.1) → ∀ r ∈ registerAll rs l, P r.uri
  | [], rs, h, _ => h
  | (u, m, f) :: t, rs, h, hl => by
    rw [registerAll]
    unfold register
    cases hp : parseParams u with
    | error e => exact registerAll_uri P t rs h fun x hx => hl x (by simp [hx])
    | ok ps =>
      refine registerAll_uri P t _ ?_ fun x hx => hl x (by simp [hx])
      intro r hr
      rcases List.mem_append.1 hr with hr | hr
      · exact h r hr
      · simp at hr; subst hr; exact hl (u, m, f) (by simp)

theorem made_noparam (r : Route) (h : Made r) : r.params = [] ↔ Plain r.uri := by
  constructor
  · intro e; exact parse_nil _ (by rw [h, e])
  · intro e
    have := parse_plain _ e
    rw [h] at this
    simpa using this

/-! ## matching -/

/-- The literal part in front of the first parameter. -/
theorem match_prefix (u after pre rest : Bytes) (hp : (123 : Nat) ∉ pre) : ∀ (n f i : Nat), pre.length - i = n →
    i ≤ pre.length → n < f → u.take i = pre.take i →
    matchFrom u after (pre ++ 123 :: rest) f i i =
      if pre <+: u ∧ pre.length < u.length then matchFrom u after (pre ++ 123 :: rest) (f - n) pre.length pre.length
      else .no := by
  intro n
  induction n with
  | zero =>
    intro f i hn hi hf ht
    have e : i = pre.length := by omega
    subst e
    by_cases hu : pre.length < u.length
    · rw [if_pos ⟨by rw [List.take_length] at ht; rw [← ht]; exact List.take_prefix _ _, hu⟩]; simp
    · rw [if_neg (by omega)]
      obtain ⟨f, rfl⟩ : ∃ g, f = g + 1 := ⟨f - 1, by omega⟩
      rw [matchFrom, if_neg hu, if_neg (by simp)]
  | succ n ih =>
    intro f i hn hi hf ht
    obtain ⟨f, rfl⟩ : ∃ g, f = g + 1 := ⟨f - 1, by omega⟩
    have hi' : i < pre.length := by omega
    rw [matchFrom]
    by_cases hu : i < u.length
    · rw [if_pos hu]
      have e1 : (pre ++ 123 :: rest ++ [0])[i]? = some pre[i] := by
        rw [List.append_assoc, List.getElem?_append_left hi', List.getElem?_eq_getElem hi']
      have hc : pre[i] ≠ 123 := fun e => hp (e ▸ List.getElem_mem hi')
      have e2 : u[i]? = some u[i] := List.getElem?_eq_getElem hu
      simp only [e1, e2]
      rw [if_neg (by simpa using hc)]
      by_cases hx : u[i] = pre[i]
      · rw [if_pos (by simp [hx]), ih f (i + 1) (by omega) (by omega) (by omega)
          (by rw [List.take_add_one, List.take_add_one, ht, e2, List.getElem?_eq_getElem hi', hx])]
        rw [show f + 1 - (n + 1) = f - n by omega]
      · rw [if_neg (by simpa using hx), if_neg]
        rintro ⟨⟨t, e⟩, _⟩
        subst e
        exact hx (by rw [List.getElem_append_left hi'])
    · rw [if_neg hu, if_neg (by simp; omega), if_neg (by omega)]

theorem match_split (u after pre rest : Bytes) (hp : (123 : Nat) ∉ pre) :
    matchParam u after (pre ++ 123 :: rest) =
      if pre <+: u ∧ pre.length < u.length then
        matchFrom u after (pre ++ 123 :: rest) (u.length + 1 - pre.length) pre.length pre.length
      else .no := by
  by_cases h : pre.length < u.length + 1
  · exact match_prefix u after pre rest hp pre.length (u.length + 1) 0 (by omega) (by omega) (by omega) rfl
  · rw [if_neg (by omega)]
    -- more fuel than needed: the path ends first
    have aux : ∀ (n f i : Nat), u.length - i = n → i ≤ u.length → 
        matchFrom u after (pre ++ 123 :: rest) f i i = .no := by
      intro n
      induction n with
      | zero =>
        intro f i hn hi
        cases f with
        | zero => rfl
        | succ f => rw [matchFrom, if_neg (by omega), if_neg (by simp; omega)]
      | succ n ih =>
        intro f i hn hi
        cases f with
        | zero => rfl
        | succ f =>
          have hi' : i < pre.length := by omega
          have hu : i < u.length := by omega
          rw [matchFrom, if_pos hu]
          have e1 : (pre ++ 123 :: rest ++ [0])[i]? = some pre[i] := by
            rw [List.append_assoc, List.getElem?_append_left hi', List.getElem?_eq_getElem hi']
          have hc : pre[i] ≠ 123 := fun e => hp (e ▸ List.getElem_mem hi')
          have e2 : u[i]? = some u[i] := List.getElem?_eq_getElem hu
          simp only [e1, e2]
          rw [if_neg (by simpa using hc)]
          split
          · exact ih f (i + 1) (by omega) (by omega)
          · rfl
    exact aux _ _ 0 rfl (by omega)

theorem match_at (u after pre rest : Bytes) (f : Nat) (h : pre <+: u) (hl : pre.length < u.length) :
    matchFrom u after (pre ++ 123 :: rest) (f + 1) pre.length pre.length =
      match pos 47 (123 :: rest), pos 47 (u.drop pre.length) with
      | none, some _ => .no
      | some _, none => .no
      | none, none => .yes
      | some _, some k =>
        match pos 125 (123 :: rest) with
        | none => .outside
        | some l =>
          match (u ++ after)[pre.length + (pre.length + k)]? with
          | none => .outside
          | some x => if x == 125 then matchFrom u after (pre ++ 123 :: rest) f (pre.length + (pre.length + k) + 1) (pre.length + l + 1) else .no := by
  rw [matchFrom, if_pos hl]
  have e1 : (pre ++ 123 :: rest ++ [0])[pre.length]? = some 123 := by
    rw [List.append_assoc, List.getElem?_append_right (Nat.le_refl _)]; simp
  have e2 : (pre ++ 123 :: rest).drop pre.length = 123 :: rest := by simp
  simp only [e1, e2]
  rfl

/-- A parameter in the last segment. -/
theorem match_last (u after pre rest : Bytes) (hp : (123 : Nat) ∉ pre) (hr : (47 : Nat) ∉ rest) :
    matchParam u after (pre ++ 123 :: rest) = .no ∨ matchParam u after (pre ++ 123 :: rest) = .yes := by
  rw [match_split _ _ _ _ hp]
  split
  · rename_i h
    obtain ⟨f, e⟩ : ∃ g, u.length + 1 - pre.length = g + 1 := ⟨u.length - pre.length, by omega⟩
    rw [e, match_at _ _ _ _ _ h.1 h.2, (pos_none 47 (123 :: rest)).2 (by simp [hr])]
    cases pos 47 (u.drop pre.length) <;> simp
  · simp

theorem match_last_iff (u after pre rest : Bytes) (hp : (123 : Nat) ∉ pre) (hr : (47 : Nat) ∉ rest) :
    matchParam u after (pre ++ 123 :: rest) = .yes ↔ ∃ s, u = pre ++ s ∧ s ≠ [] ∧ (47 : Nat) ∉ s := by
  rw [match_split _ _ _ _ hp]
  constructor
  · intro h
    split at h
    · rename_i hc
      obtain ⟨⟨s, rfl⟩, hl⟩ := hc
      obtain ⟨f, e⟩ : ∃ g, (pre ++ s).length + 1 - pre.length = g + 1 := ⟨(pre ++ s).length - pre.length, by omega⟩
      rw [e, match_at _ _ _ _ _ ⟨s, rfl⟩ hl, (pos_none 47 (123 :: rest)).2 (by simp [hr])] at h
      refine ⟨s, rfl, ?_, ?_⟩
      · rintro rfl; simp at hl
      · rw [List.drop_left] at h
        cases hps : pos 47 s with
        | none => exact (pos_none 47 s).1 hps
        | some k => rw [hps] at h; simp at h
    · simp at h
  · rintro ⟨s, rfl, h2, h3⟩
    have hl : pre.length < (pre ++ s).length := by simp; exact List.length_pos_iff.2 h2
    rw [if_pos ⟨⟨s, rfl⟩, hl⟩]
    obtain ⟨f, e⟩ : ∃ g, (pre ++ s).length + 1 - pre.length = g + 1 := ⟨(pre ++ s).length - pre.length, by omega⟩
    rw [e, match_at _ _ _ _ _ ⟨s, rfl⟩ hl, (pos_none 47 (123 :: rest)).2 (by simp [hr]), List.drop_left,
      (pos_none 47 s).2 h3]

theorem match_before (u after p : Bytes) (h : ParamBeforeLast p) (hu : (125 : Nat) ∉ u ++ after) :
    matchParam u after p ≠ .yes := by
  obtain ⟨pre, rest, rfl, hp, hr⟩ := h
  rw [match_split _ _ _ _ hp]
  split
  · rename_i hc
    obtain ⟨f, e⟩ : ∃ g, u.length + 1 - pre.length = g + 1 := ⟨u.length - pre.length, by omega⟩
    rw [e, match_at _ _ _ _ _ hc.1 hc.2]
    cases h1 : pos 47 (123 :: rest) with
    | none => exact absurd ((pos_none _ _).1 h1) (by simp [hr])
    | some a =>
      cases h2 : pos 47 (u.drop pre.length) with
      | none => simp
      | some k =>
        cases h3 : pos 125 (123 :: rest) with
        | none => simp
        | some l =>
          cases h4 : (u ++ after)[pre.length + (pre.length + k)]? with
          | none => simp only [h4]; simp
          | some x =>
            have : x ≠ 125 := by
              rintro rfl
              exact hu (List.mem_of_getElem? h4)
            simp only [h4]
            simp [this]
  · simp

theorem lastOnly_split (p : Bytes) (h : LastOnly p) : ∃ pre x, p = (pre ++ [47]) ++ 123 :: (x ++ [125]) ∧
    (123 : Nat) ∉ pre ++ [47] ∧ (47 : Nat) ∉ x ++ [125] := by
  obtain ⟨pre, x, rfl, h1, h2, h3⟩ := h
  exact ⟨pre, x, by simp, by simp [h1], by simp [h2]⟩

theorem fits_iff_match (u after p : Bytes) (h : LastOnly p) : matchParam u after p = .yes ↔ Fits p u := by
  obtain ⟨pre, x, rfl, h1, h2, h3⟩ := h
  rw [fits_last _ _ _ h1 h2]
  rw [show pre ++ 47 :: 123 :: x ++ [125] = (pre ++ [47]) ++ 123 :: (x ++ [125]) by simp]
  rw [match_last_iff _ _ _ _ (by simp [h1]) (by simp [h2])]
  simp

/-- What the lookup does, for any predicate that tells what each route does. -/
theorem found_spec (P : Route → Prop) (u after : Bytes) (m : Method) : ∀ rs : List Route,
    (∀ r ∈ rs, (r.params = [] → (P r ↔ r.uri = u ∧ r.method = m)) ∧
      (r.params ≠ [] → (matchParam u after r.uri = .yes ∧ P r) ∨ (matchParam u after r.uri = .no ∧ ¬ P r))) →
    LooksUp P rs (found u after m rs)
  | [], _ => by simp [found, LooksUp]
  | r :: rs, h => by
    have ih := found_spec P u after m rs fun x hx => h x (by simp [hx])
    have hr := h r (by simp)
    have ext : ¬ P r → LooksUp P rs (found u after m rs) → LooksUp P (r :: rs) (found u after m rs) := by
      intro hn hL
      cases hf : found u after m rs with
      | none => rw [hf] at hL; exact hL
      | some o =>
        cases o with
        | none =>
          rw [hf] at hL
          intro x hx
          rcases List.mem_cons.1 hx with rfl | hx
          · exact hn
          · exact hL x hx
        | some y =>
          rw [hf] at hL
          obtain ⟨b, a, rfl, h1, h2⟩ := hL
          refine ⟨r :: b, a, rfl, h1, ?_⟩
          intro x hx
          rcases List.mem_cons.1 hx with rfl | hx
          · exact hn
          · exact h2 x hx
    rw [found]
    by_cases hp : r.params = []
    · rw [if_pos hp]
      by_cases hc : r.uri.length = u.length ∧ r.uri = u ∧ r.method = m
      · rw [if_pos hc]
        exact ⟨[], rs, rfl, (hr.1 hp).2 hc.2, by simp⟩
      · rw [if_neg hc]
        refine ext (fun hP => hc ?_) ih
        obtain ⟨e1, e2⟩ := (hr.1 hp).1 hP
        exact ⟨by rw [e1], e1, e2⟩
    · rw [if_neg hp]
      rcases hr.2 hp with ⟨e, hP⟩ | ⟨e, hP⟩
      · rw [e]
        exact ⟨[], rs, rfl, hP, by simp⟩
      · rw [e]
        exact ext hP ih

/-! ## binding -/

theorem bind_prefix (pre rest s : Bytes) (ps : List Param) (hp : (123 : Nat) ∉ pre) (hs : s ≠ []) (h47 : (47 : Nat) ∉ s) :
    ∀ (n f i : Nat), pre.length - i = n → i ≤ pre.length → n < f →
    bindFrom (pre ++ s) (pre ++ 123 :: rest) ps f i i 0 [] =
      match ps[0]? with
      | none => none
      | some p => some [{ p with value := s }] := by
  intro n
  have hl : 0 < s.length := List.length_pos_iff.2 hs
  induction n with
  | zero =>
    intro f i hn hi hf
    have e : i = pre.length := by omega
    subst e
    obtain ⟨f, rfl⟩ : ∃ g, f = g + 1 := ⟨f - 1, by omega⟩
    have e1 : (pre ++ 123 :: rest ++ [0])[pre.length]? = some 123 := by
      rw [List.append_assoc, List.getElem?_append_right (Nat.le_refl _)]; simp
    rw [bindFrom, if_pos (by simp; omega), e1]
    simp only [List.drop_left, (pos_none 47 s).2 h47]
    rw [if_pos (by rfl)]
    cases ps[0]? <;> simp
  | succ n ih =>
    intro f i hn hi hf
    obtain ⟨f, rfl⟩ : ∃ g, f = g + 1 := ⟨f - 1, by omega⟩
    have hi' : i < pre.length := by omega
    have e1 : (pre ++ 123 :: rest ++ [0])[i]? = some pre[i] := by
      rw [List.append_assoc, List.getElem?_append_left hi', List.getElem?_eq_getElem hi']
    have hc : pre[i] ≠ 123 := fun e => hp (e ▸ List.getElem_mem hi')
    rw [bindFrom, if_pos (by simp; omega), e1]
    simp only
    rw [if_neg (by simpa using hc)]
    exact ih f (i + 1) (by omega) (by omega) (by omega)

/-! ## writing and parsing parameters -/

theorem parseOne_name (t : Bytes) (ht : t ≠ []) : ∀ (l acc : Bytes), (∀ x ∈ l, varChar x = true) →
    parseOne (.var acc) (l ++ t) = parseOne (.var (acc ++ l)) t
  | [], acc, _ => by simp
  | c :: l, acc, h => by
    have hc := h c (by simp)
    have hne : l ++ t ≠ [] := by simp [ht]
    rw [List.cons_append, parseOne, if_pos hc, if_neg hne,
      parseOne_name t ht l (acc ++ [c]) fun x hx => h x (by simp [hx])]
    simp

theorem varChar_iff (c : Nat) : varChar c = true ↔ (alpha c = true ∨ numeral c = true ∨ c = 95) := by
  simp [varChar, or_assoc]

theorem name_ne (l : Bytes) (h : NameOk l) : l ≠ [] := by rintro rfl; exact h

theorem name_var (l : Bytes) (h : NameOk l) : ∀ x ∈ l, varChar x = true := by
  cases l with
  | nil => simp
  | cons c r =>
    intro x hx
    rw [varChar_iff]
    rcases List.mem_cons.1 hx with rfl | hx
    · rcases h.1 with h | h
      · exact Or.inl h
      · exact Or.inr (Or.inr h)
    · exact h.2 x hx

theorem var_ne (c : Nat) (h : varChar c = true) : c ≠ 123 ∧ c ≠ 125 ∧ c ≠ 58 ∧ c ≠ 47 := by
  refine ⟨?_, ?_, ?_, ?_⟩ <;> (rintro rfl; revert h; decide)

theorem alpha_not_blank (c : Nat) (h : varFirst c = true) : blank c = false := by
  rcases Nat.lt_or_ge 127 c with hc | hc
  · simp [blank]; omega
  · cases hb : blank c with
    | false => rfl
    | true =>
      simp [blank] at hb
      rcases hb with rfl | rfl <;> (revert h; decide)

theorem parseOne_start (n t : Bytes) (h : NameOk n) (ht : t ≠ []) : parseOne .start (n ++ t) = parseOne (.var n) t := by
  cases n with
  | nil => exact absurd h (by simp [NameOk])
  | cons c r =>
    have hf : varFirst c = true := by simp [varFirst]; exact h.1
    rw [List.cons_append, parseOne, if_neg (by simp [alpha_not_blank c hf]), if_pos hf, if_neg (by simp [ht]),
      parseOne_name t ht r [c] fun x hx => name_var (c :: r) h x (by simp [hx])]
    rfl

/-- The type a written parameter is registered with. -/
def regType : Option PType → PType
  | none => .str
  | some .bool => .float
  | some t => t

theorem parseOne_written (n tail : Bytes) (t : Option PType) (h : NameOk n) :
    parseOne .start (n ++ ((match t with | none => [] | some t => 58 :: typeName t) ++ 125 :: tail))
      = some (n, regType t) := by
  rw [parseOne_start n _ h (by simp)]
  cases t with
  | none => simp [parseOne, regType, show varChar 125 = false by decide, show blank 125 = false by decide]
  | some t =>
    cases t <;>
    simp [parseOne, regType, typeName, show varChar 58 = false by decide, show blank 58 = false by decide,
      show blank 105 = false by decide, show alpha 105 = true by decide,
      show blank 102 = false by decide, show alpha 102 = true by decide,
      show blank 98 = false by decide, show alpha 98 = true by decide,
      show blank 115 = false by decide, show alpha 115 = true by decide, getType, List.isPrefixOf]

theorem parse_written (tail : Bytes) (ht : Plain tail) : ∀ ws : List Written,
    (∀ w ∈ ws, Plain w.before ∧ NameOk w.name) →
    parseParams (writePath ws tail) = .ok (ws.map fun w => ⟨w.name, regType w.type, []⟩)
  | [], _ => parse_plain tail ht
  | w :: ws, h => by
    have ih := parse_written tail ht ws fun x hx => h x (by simp [hx])
    obtain ⟨hb, hn⟩ := h w (by simp)
    have e : writePath (w :: ws) tail = w.before ++ 123 :: (w.name ++ ((match w.type with | none => [] | some t => 58 :: typeName t) ++ 125 :: writePath ws tail)) := by
      rcases w with ⟨b, n, t⟩
      cases t <;> simp [writePath]
    have h123 : ∀ x ∈ w.name, x ≠ 123 := fun x hx => (var_ne x (name_var _ hn x hx)).1
    have hty : (123 : Nat) ∉ (match w.type with | none => [] | some t => 58 :: typeName t) := by
      cases w.type with
      | none => simp
      | some t => cases t <;> decide
    rw [e, parse_skip _ _ hb, parseParams, if_pos (by rfl), if_neg (by simp), parseOne_written _ _ _ hn]
    simp only
    rw [parse_skip _ _ (fun hx => h123 _ hx rfl), parse_skip _ _ hty, parseParams, if_neg (by decide), ih]
    rfl

end Fly.Route
