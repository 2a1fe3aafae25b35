import Verif.Mime.Safety

namespace Fly.Mime

theorem accept_first (v : Bytes) (hs : List (Bytes × Bytes)) (h : FirstAccept v hs) :
    accept hs = match parseValue v with
      | .perror => .badRequest
      | .crash => .crash
      | .overflow => .overflow
      | .outside => .outside
      | .ok l => if l.length = 0 then .badRequest else if l.any (fun a => a.q > 0) then .accepted l else .notAcceptable := by
  unfold accept
  simp only [headerValue_first v hs h]
  rfl

theorem told_pos (r : Range) (h : r.Ok) : 0 < (toldOf r).q ↔ 10 ≤ r.quality := by
  have := (toldOf_told r h).2.2.1
  unfold Percent at this
  rcases this with ⟨a, b⟩ | ⟨_, _, _, h⟩
  · omega
  · exact h

/-! ## C29: what a client asks for is what the application sees -/

/-- **C29** (partial: weights written `0.d`, `0.dd` or `0.ddd`, a range with parameters but without weight only at the end, no
quoted strings, no extensions, names that fit, no blanks in front of a comma or semicolon).  Such a field is understood: the application is told the written
ranges in order, with a whole percentage at most one below the written weight; it is answered with 406 exactly if every weight
is below 0.01. -/
theorem C29_understood_partial (l : List (Range × Bytes)) (r : Range) (trail : Bytes) (hl : PrefixOk l) (hr : r.Ok)
    (ht : trail = [] ∨ r.Closed ∧ ∃ g, Gap g ∧ trail = 44 :: g) (hs : List (Bytes × Bytes))
    (hf : FirstAccept (prefixText l ++ r.text ++ trail) hs) :
    if ∃ x ∈ l.map (·.1) ++ [r], 10 ≤ x.quality then ∃ told, accept hs = .accepted told ∧ AllTold (l.map (·.1) ++ [r]) told
    else accept hs = .notAcceptable := by
  have hpv : parseValue (prefixText l ++ r.text ++ trail) = .ok ((l.map (·.1) ++ [r]).map toldOf) := by
    unfold parseValue
    obtain ⟨p1, h1, h2⟩ := parse_prefix (r.text ++ (trail ++ [0])) l start [] hl start_fresh
    rw [List.append_assoc, List.append_assoc, h1]
    rcases ht with rfl | ⟨hc, g, hg, rfl⟩
    · obtain ⟨p2, h3, h4⟩ := parse_range r hr p1 _ h2 0 [] (Or.inl rfl)
      rw [List.nil_append, h4, stAfter_nul]
      simp [run, h3]
    · obtain ⟨p2, h3, h4⟩ := parse_range r hr p1 _ h2 44 (g ++ [0]) (Or.inr ⟨rfl, hc⟩)
      rw [List.cons_append, h4]
      simp only [stAfter]
      rw [if_neg (by decide), if_neg (by decide), if_pos (by decide)]
      simp only [run]
      rw [parse_gap _ g _ rfl hg, parse_run]
      simp [step, stAfter_nul, run, h3]
  have hall : ∀ x ∈ l.map (·.1) ++ [r], x.Ok := by
    intro x hx
    rcases List.mem_append.1 hx with hx | hx
    · obtain ⟨y, hy, rfl⟩ := List.mem_map.1 hx
      exact (hl y hy).1
    · simp at hx; subst hx; exact hr
  rw [accept_first _ hs hf, hpv]
  generalize hrs : l.map (·.1) ++ [r] = rs at *
  have hne : (rs.map toldOf).length ≠ 0 := by rw [← hrs]; simp
  simp only [if_neg hne]
  by_cases h : ∃ x ∈ rs, 10 ≤ x.quality
  · rw [if_pos h]
    obtain ⟨x, hx, hq⟩ := h
    have : ((rs.map toldOf).any fun a => decide (a.q > 0)) = true := by
      rw [List.any_eq_true]
      exact ⟨toldOf x, List.mem_map.2 ⟨x, hx, rfl⟩, by simpa using (told_pos x (hall x hx)).2 hq⟩
    rw [if_pos this]
    exact ⟨_, rfl, allTold_map rs hall⟩
  · rw [if_neg h]
    have : ¬ ((rs.map toldOf).any fun a => decide (a.q > 0)) = true := by
      rw [List.any_eq_true]
      rintro ⟨a, ha, hq⟩
      obtain ⟨x, hx, rfl⟩ := List.mem_map.1 ha
      exact h ⟨x, hx, (told_pos x (hall x hx)).1 (by simpa using hq)⟩
    rw [if_neg this]

/-- `text/html;level=1; q=0.85, */*` -/
example :
    let l : List (Range × Bytes) := [(⟨⟨b!"text", b!"html", [⟨[], b!"level", b!"1"⟩]⟩, some ⟨b!" ", [8, 5]⟩⟩, b!" ")]
    let r : Range := ⟨⟨b!"*", b!"*", []⟩, none⟩
    prefixText l ++ r.text = b!"text/html;level=1; q=0.85, */*" ∧
    accept [(b!"host", b!"a"), (b!"accept", prefixText l ++ r.text)] =
      .accepted [⟨b!"text", b!"html", 85, [(b!"level", b!"1")], 0⟩, ⟨b!"*", b!"*", 100, [], 0⟩] := by decide +kernel

example : accept [(b!"accept", b!"text/html;q=0.009,image/png;q=0.0")] = .notAcceptable := by decide +kernel

/-- **C29**.  Without the field everything is acceptable. -/
theorem C29_absent (hs : List (Bytes × Bytes)) (h : ∀ x ∈ hs, x.1 ≠ b!"Accept" ∧ x.1 ≠ b!"accept") :
    accept hs = .accepted [⟨b!"*", b!"*", 100, [], 0⟩] := by
  have e : headerValue hs = none := by
    unfold headerValue
    rw [Option.map_eq_none_iff, List.find?_eq_none]
    intro x hx
    simp [h x hx]
  simp only [accept, e]

example : accept [(b!"host", b!"a")] = .accepted [⟨b!"*", b!"*", 100, [], 0⟩] := by decide +kernel

/-- The parser at the weight of a range. -/
theorem at_weight (l : List (Range × Bytes)) (m : Media) (w t : Bytes) (hl : PrefixOk l) (hm : m.Ok) (hw : Blanks w) :
    ∃ p', parseValue (prefixText l ++ m.text ++ 59 :: (w ++ b!"q=" ++ t)) = parse p' (t ++ [0]) ∧ p'.st = .weq := by
  unfold parseValue
  obtain ⟨p1, h1, h2⟩ := parse_prefix (m.text ++ 59 :: (w ++ 113 :: 61 :: (t ++ [0]))) l start [] hl start_fresh
  obtain ⟨p2, h3, h4⟩ := parse_media m hm (59 :: (w ++ 113 :: 61 :: (t ++ [0]))) p1 _ h2
  obtain ⟨p3, h5, h6, _⟩ := parse_weq m _ w (t ++ [0]) hw p2 h4
  refine ⟨p3, ?_, h6⟩
  rw [← h5, ← h3, ← h1]
  simp

/-- **C29** refuted: a weight of one (`1`, `1.0`, `1.00`, `1.000`) is answered with 400, behind every well-formed range and
whatever follows. -/
theorem C29_quality_one_refuted (l : List (Range × Bytes)) (m : Media) (w rest : Bytes) (hl : PrefixOk l) (hm : m.Ok)
    (hw : Blanks w) (hs : List (Bytes × Bytes))
    (hf : FirstAccept (prefixText l ++ m.text ++ 59 :: (w ++ b!"q=" ++ 49 :: rest)) hs) : accept hs = .badRequest := by
  obtain ⟨p, h1, h2⟩ := at_weight l m w (49 :: rest) hl hm hw
  have : parse p (49 :: (rest ++ [0])) = .perror := by
    rw [parse_go p { p with st := .oneInt, qv := some (49 :: (rest ++ [0])) } 49 _ (by simp [step, h2])]
    cases rest with
    | nil => rw [List.nil_append, parse_run]; simp [step, run]
    | cons c r =>
      rw [List.cons_append, parse_run]
      simp only [step]
      split
      · simp only [run]
        cases r with
        | nil => rw [List.nil_append, parse_run]; simp [step, run]
        | cons d r => rw [List.cons_append, parse_run]; simp [step, run]
      · rfl
  rw [accept_first _ hs hf, h1]
  rw [List.cons_append, this]

example : accept [(b!"accept", b!"text/html;q=1")] = .badRequest := by decide +kernel
example : accept [(b!"accept", b!"text/html, image/png; q=1.000")] = .badRequest := by decide +kernel

/-- **C29** refuted: a weight `0` without decimals, and a weight `0.` (both are valid), is answered with 400. -/
theorem C29_quality_zero_refuted (l : List (Range × Bytes)) (m : Media) (w dot rest : Bytes) (hl : PrefixOk l) (hm : m.Ok)
    (hw : Blanks w) (hd : dot = [] ∨ dot = b!".") (hr : ∀ c ∈ rest.head?, c ≠ 46 ∧ ¬ (48 ≤ c ∧ c ≤ 57)) (hs : List (Bytes × Bytes))
    (hf : FirstAccept (prefixText l ++ m.text ++ 59 :: (w ++ b!"q=" ++ 48 :: (dot ++ rest))) hs) : accept hs = .badRequest := by
  obtain ⟨p, h1, h2⟩ := at_weight l m w (48 :: (dot ++ rest)) hl hm hw
  have : parse p (48 :: (dot ++ rest ++ [0])) = .perror := by
    rw [parse_go p { p with st := .zeroInt, qv := some (48 :: (dot ++ rest ++ [0])) } 48 _ (by simp [step, h2])]
    have hc : ∃ c r, rest ++ [0] = c :: r ∧ c ≠ 46 ∧ digit c = false := by
      cases rest with
      | nil => exact ⟨0, [], rfl, by decide, by decide⟩
      | cons c r =>
        have := hr c (by simp)
        exact ⟨c, r ++ [0], rfl, this.1, by simp [digit]; omega⟩
    obtain ⟨c, r, e, hc1, hc2⟩ := hc
    rcases hd with rfl | rfl
    · rw [List.nil_append, e, parse_run]
      simp [step, hc1, run]
    · rw [List.append_assoc, e, List.cons_append, List.nil_append]
      rw [parse_go _ { p with st := .zeroPoint, qv := some (48 :: 46 :: c :: r) } 46 _ (by simp [step]), parse_run]
      simp [step, hc2, run]
  rw [accept_first _ hs hf, h1]
  rw [List.cons_append, this]

example : accept [(b!"accept", b!"text/html;q=0,image/png")] = .badRequest := by decide +kernel
example : accept [(b!"accept", b!"text/html;q=0.")] = .badRequest := by decide +kernel

theorem ows1_fails : ∀ (t : Bytes) (p : PS), p.st = .ows1 → parse p (t ++ [0]) = .perror
  | [], p, hp => by rw [List.nil_append, parse_run]; simp [step, hp, stOws1, space, run]
  | c :: t, p, hp => by
    rw [List.cons_append, parse_run]
    simp only [step, hp, stOws1]
    split
    · simp only [run]; exact ows1_fails t _ rfl
    · split
      · rename_i h; simp at h; subst h
        simp [stOws2, space, token, run]
      · rfl

/-- **C29** refuted: a blank behind a range without weight (in front of a comma, of a semicolon or at the end) is answered with
400, whatever follows. -/
theorem C29_blank_refuted (l : List (Range × Bytes)) (m : Media) (b : Nat) (rest : Bytes) (hl : PrefixOk l) (hm : m.Ok)
    (hb : b = 32 ∨ b = 9) (hs : List (Bytes × Bytes))
    (hf : FirstAccept (prefixText l ++ m.text ++ b :: rest) hs) : accept hs = .badRequest := by
  have : parseValue (prefixText l ++ m.text ++ b :: rest) = .perror := by
    unfold parseValue
    obtain ⟨p1, h1, h2⟩ := parse_prefix (m.text ++ b :: (rest ++ [0])) l start [] hl start_fresh
    obtain ⟨p2, h3, h4⟩ := parse_media m hm (b :: (rest ++ [0])) p1 _ h2
    obtain ⟨p3, h5, h6⟩ := has_blank p2 m _ b (rest ++ [0]) hb h4
    have e : prefixText l ++ m.text ++ b :: rest ++ [0] = prefixText l ++ (m.text ++ b :: (rest ++ [0])) := by simp
    rw [e, h1, h3, parse_go p2 p3 b _ h6]
    exact ows1_fails rest p3 h5
  rw [accept_first _ hs hf, this]

example : accept [(b!"accept", b!"text/html , image/png")] = .badRequest := by decide +kernel
example : accept [(b!"accept", b!"text/html ;q=0.5")] = .badRequest := by decide +kernel

/-- The parser behind a parameter without weight, a comma and visible characters: they are part of the value. -/
theorem at_value (l : List (Range × Bytes)) (m : Media) (x : Param) (next t : Bytes) (hl : PrefixOk l)
    (hm : m.Ok) (hx : x.Ok) (hn : ∀ c ∈ next, Visible c) :
    ∃ p', parse start (prefixText l ++ { m with params := m.params ++ [x] : Media }.text ++ 44 :: next ++ t) = parse p' t ∧
      Has p' { m with params := m.params ++ [{ x with value := x.value ++ 44 :: next }] : Media } (l.map fun x => toldOf x.1) t := by
  have hm' : ({ m with params := m.params ++ [x] : Media }).Ok :=
    ⟨hm.typeNe, hm.type, hm.typeLen, hm.subNe, hm.sub, hm.subLen, fun y hy => by
      rcases List.mem_append.1 hy with hy | hy
      · exact hm.params y hy
      · simp at hy; subst hy; exact hx⟩
  obtain ⟨p1, h1, h2⟩ := parse_prefix ({ m with params := m.params ++ [x] : Media }.text ++ (44 :: next ++ t)) l start [] hl start_fresh
  obtain ⟨p2, h3, h4⟩ := parse_media { m with params := m.params ++ [x] : Media } hm' (44 :: next ++ t) p1 _ h2
  rcases h4.rest with ⟨_, h5, _⟩ | ⟨h5, init, y, h6, h7, h8, h9, h10⟩
  · simp at h5
  · have hnt : ∀ c ∈ 44 :: next, token c = true := by
      intro c hc
      rcases List.mem_cons.1 hc with rfl | hc
      · rfl
      · exact vis_token c (hn c hc)
    refine ⟨p2, ?_, ⟨h4.type, h4.qv, h4.dec, h4.exts, ?_, h4.el, h4.er, Or.inr ⟨h5, init, { y with value := y.value ++ 44 :: next }, ?_, h7, h8, h9, ?_⟩⟩⟩
    · rw [← parse_pr t (44 :: next) p2 h5 hnt, ← h3, ← h1]
      simp
    · rw [h4.acc]; simp
    · have := List.append_inj' h6 rfl
      simp only [List.cons.injEq, and_true] at this
      rw [this.1, this.2]
    · rw [h10]; simp

/-- **C29** refuted: a range with parameters but without weight swallows the range behind it; the application is told a
parameter whose value contains it. -/
theorem C29_parameter_swallows_refuted (l : List (Range × Bytes)) (m : Media) (x : Param) (next : Bytes) (hl : PrefixOk l)
    (hm : m.Ok) (hx : x.Ok) (hn : ∀ c ∈ next, Visible c) (hs : List (Bytes × Bytes))
    (hf : FirstAccept (prefixText l ++ { m with params := m.params ++ [x] : Media }.text ++ 44 :: next) hs) :
    ∃ a told, AllTold (l.map (·.1)) told ∧ Told ⟨{ m with params := m.params ++ [{ x with value := x.value ++ 44 :: next }] }, none⟩ a ∧
      accept hs = .accepted (told ++ [a]) := by
  obtain ⟨p, h1, h2⟩ := at_value l m x next [0] hl hm hx hn
  obtain ⟨p', h3, h4⟩ := has_end p _ _ [] h2
  have h5 := stAdd_weighed p' { m with params := m.params ++ [{ x with value := x.value ++ 44 :: next }] : Media } ⟨hm.typeLen, hm.subLen⟩ _ none 100 rfl (settled_weighed p' _ _ h3) 0 [0]
  have hpv : parseValue (prefixText l ++ { m with params := m.params ++ [x] : Media }.text ++ 44 :: next) =
      .ok ((l.map fun x => toldOf x.1) ++ [⟨m.type, m.subtype, 100, (m.params ++ [{ x with value := x.value ++ 44 :: next }]).map tell, 0⟩]) := by
    unfold parseValue
    rw [h1, parse_run, h4, h5, stAfter_nul]
    rfl
  refine ⟨⟨m.type, m.subtype, 100, (m.params ++ [{ x with value := x.value ++ 44 :: next }]).map tell, 0⟩, l.map fun x => toldOf x.1, ?_,
    ⟨rfl, rfl, Or.inl ⟨rfl, rfl⟩, rfl, rfl⟩, ?_⟩
  · have := allTold_map (l.map (·.1)) (fun r hr => by
      obtain ⟨y, hy, rfl⟩ := List.mem_map.1 hr
      exact (hl y hy).1)
    simpa [Function.comp_def] using this
  · rw [accept_first _ hs hf, hpv]
    simp

example : accept [(b!"accept", b!"text/html;level=1,image/png")] =
    .accepted [⟨b!"text", b!"html", 100, [(b!"level", b!"1,image/png")], 0⟩] := by decide +kernel

/-- **C29** refuted: a range with parameters but without weight, followed by a comma and a blank, is answered with 400 whatever follows. -/
theorem C29_parameter_comma_blank_refuted (l : List (Range × Bytes)) (m : Media) (x : Param) (b : Nat) (rest : Bytes)
    (hl : PrefixOk l) (hm : m.Ok) (hx : x.Ok) (hb : b = 32 ∨ b = 9) (hs : List (Bytes × Bytes))
    (hf : FirstAccept (prefixText l ++ { m with params := m.params ++ [x] : Media }.text ++ 44 :: b :: rest) hs) :
    accept hs = .badRequest := by
  obtain ⟨p, h1, h2⟩ := at_value l m x [] (b :: (rest ++ [0])) hl hm hx (by simp)
  obtain ⟨p3, h5, h6⟩ := has_blank p _ _ b (rest ++ [0]) hb h2
  have : parseValue (prefixText l ++ { m with params := m.params ++ [x] : Media }.text ++ 44 :: b :: rest) = .perror := by
    unfold parseValue
    rw [show prefixText l ++ { m with params := m.params ++ [x] : Media }.text ++ 44 :: b :: rest ++ [0] =
      prefixText l ++ { m with params := m.params ++ [x] : Media }.text ++ [44] ++ (b :: (rest ++ [0])) by simp, h1,
      parse_go p p3 b _ h6]
    exact ows1_fails rest p3 h5
  rw [accept_first _ hs hf, this]

example : accept [(b!"accept", b!"text/html;level=1, image/png")] = .badRequest := by decide +kernel

/-- The parser behind a quoted value. -/
theorem at_quoted (l : List (Range × Bytes)) (m : Media) (w name value t : Bytes) (hl : PrefixOk l)
    (hm : m.Ok) (hp : m.params = []) (hw : Blanks w) (hname : ∀ c ∈ name, Visible c ∧ c ≠ 61) (hne : name ≠ []) (hq : name ≠ b!"q")
    (hv : ∀ c ∈ value, QText c) (hvne : value ≠ []) :
    ∃ p', parse start (prefixText l ++ m.text ++ 59 :: (w ++ name ++ b!"=\"" ++ value ++ b!"\"") ++ t) = parse p' t ∧
      p'.st = .pqr ∧ p'.prLen = 0 ∧ Settled p' m (l.map fun x => toldOf x.1) ∧ copy p'.pl (min p'.plLen 30) = some (name.take 30) := by
  have hqs : ∀ c r, QText c → quotedString c r = true := by
    intro c r h
    simp only [QText] at h
    simp [quotedString, qdtext, space]
    omega
  have hpq : ∀ (n t : Bytes) (p : PS), p.st = .pq → (∀ c ∈ n, QText c) → parse p (n ++ t) = parse p t := by
    intro n t p hp
    have e : ({ p with st := .pq } : PS) = p := by rw [← hp]
    induction n with
    | nil => intro _; rfl
    | cons c n ih =>
      intro h
      rw [List.cons_append, parse_go p p c, ih fun x hx => h x (by simp [hx])]
      simp [step, hp, stPq, hqs c _ (h c (by simp)), e]
  rw [show prefixText l ++ m.text ++ 59 :: (w ++ name ++ b!"=\"" ++ value ++ b!"\"") ++ t =
    prefixText l ++ (m.text ++ 59 :: (w ++ (name ++ 61 :: 34 :: (value ++ 34 :: t)))) by simp]
  obtain ⟨p1, h1, h2⟩ := parse_prefix (m.text ++ 59 :: (w ++ (name ++ 61 :: 34 :: (value ++ 34 :: t)))) l start [] hl start_fresh
  obtain ⟨p2, h3, h4⟩ := parse_media m hm (59 :: (w ++ (name ++ 61 :: 34 :: (value ++ 34 :: t)))) p1 _ h2
  rw [h1, h3]
  rcases h4.rest with ⟨h5, h6, h7, h8, h9⟩ | ⟨_, _, _, h5, _⟩
  · have hd : diff p2.subtype (59 :: (w ++ (name ++ 61 :: 34 :: (value ++ 34 :: t)))) = some m.subtype.length := by rw [h7]; exact diff_pre _ _
    rw [parse_go p2 { p2 with subtypeLen := m.subtype.length, st := .semi } 59 _ (by simp [step, h5, token, space, measured, hd])]
    obtain ⟨s, hs, h10⟩ := parse_semi (name ++ 61 :: 34 :: (value ++ 34 :: t)) w { p2 with subtypeLen := m.subtype.length, st := .semi } rfl hw
    rw [h10, parse_name name _ _ (by exact hs) hne hq hname]
    cases value with
    | nil => exact absurd rfl hvne
    | cons c v =>
      have hc := hqs c
      rw [parse_go _ { p2 with subtypeLen := m.subtype.length, st := .pql, pl := some (name ++ 61 :: 34 :: (c :: v ++ 34 :: t)), plLen := name.length } 34 _ (by simp [step]),
        List.cons_append,
        parse_go _ { p2 with subtypeLen := m.subtype.length, st := .pq, pl := some (name ++ 61 :: 34 :: (c :: v ++ 34 :: t)), plLen := name.length, pr := some (c :: (v ++ 34 :: t)) } c _
          (by simp [step, stPq, hc _ (hv c (by simp))]),
        hpq v _ _ rfl (fun x hx => hv x (by simp [hx])),
        parse_go _ { p2 with subtypeLen := m.subtype.length, st := .pqr, pl := some (name ++ 61 :: 34 :: (c :: v ++ 34 :: t)), plLen := name.length, pr := some (c :: (v ++ 34 :: t)) } 34 _
          (by simp [step, stPq, quotedString, qdtext, space])]
      refine ⟨_, rfl, rfl, h9, ⟨h4.type, ?_, h4.qv, h4.dec, h4.exts, ?_, ?_, h4.el, h4.er⟩, copy_min _ _⟩
      · show copy p2.subtype _ = _
        rw [h7]; exact copy_pre _ _
      · show p2.acc = _
        rw [h4.acc]; simp
      · show p2.params = _
        rw [h8, hp]; rfl
  · rw [hp] at h5; simp at h5

/-- **C29** refuted: the value of a quoted parameter is lost; the application is told an empty one. -/
theorem C29_quoted_value_lost_refuted (l : List (Range × Bytes)) (m : Media) (w name value : Bytes) (hl : PrefixOk l)
    (hm : m.Ok) (hp : m.params = []) (hw : Blanks w) (hname : ∀ c ∈ name, Visible c ∧ c ≠ 61) (hne : name ≠ []) (hq : name ≠ b!"q")
    (hv : ∀ c ∈ value, QText c) (hvne : value ≠ []) (hs : List (Bytes × Bytes))
    (hf : FirstAccept (prefixText l ++ m.text ++ 59 :: (w ++ name ++ b!"=\"" ++ value ++ b!"\"")) hs) :
    ∃ a told, AllTold (l.map (·.1)) told ∧ a.type = m.type ∧ a.subtype = m.subtype ∧ a.q = 100 ∧ a.params = [(name.take 30, [])] ∧
      accept hs = .accepted (told ++ [a]) := by
  obtain ⟨p, h1, h2, h3, h4, h5⟩ := at_quoted l m w name value [0] hl hm hp hw hname hne hq hv hvne
  have hpv : parseValue (prefixText l ++ m.text ++ 59 :: (w ++ name ++ b!"=\"" ++ value ++ b!"\"")) =
      .ok ((l.map fun x => toldOf x.1) ++ [⟨m.type, m.subtype, 100, [(name.take 30, [])], 0⟩]) := by
    unfold parseValue
    rw [h1, parse_run]
    have h6 := h4.params
    rw [hp] at h6
    have ht : typeOk m.type = true := by simp [typeOk, hm.typeLen]
    have hc : copy p.pr (min p.prLen 30) = some [] := by rw [h3]; simp [copy]
    have hsl := hm.subLen
    simp [step, h2, stPend, h5, hc, stAdd, h4.qv, quality, h4.type, ht, h4.sub, show ¬ 30 < m.subtype.length by omega, stAfter, h4.acc, h6, h4.exts, run]
  refine ⟨⟨m.type, m.subtype, 100, [(name.take 30, [])], 0⟩, l.map fun x => toldOf x.1, ?_, rfl, rfl, rfl, rfl, ?_⟩
  · have := allTold_map (l.map (·.1)) (fun r hr => by
      obtain ⟨y, hy, rfl⟩ := List.mem_map.1 hr
      exact (hl y hy).1)
    simpa [Function.comp_def] using this
  · rw [accept_first _ hs hf, hpv]
    simp

example : accept [(b!"accept", b!"text/html;a=\"b c\"")] = .accepted [⟨b!"text", b!"html", 100, [(b!"a", [])], 0⟩] := by decide +kernel

/-- **C29** refuted: a quoted parameter followed by a comma is answered with 400. -/
theorem C29_quoted_comma_refuted (l : List (Range × Bytes)) (m : Media) (w name value rest : Bytes) (hl : PrefixOk l)
    (hm : m.Ok) (hp : m.params = []) (hw : Blanks w) (hname : ∀ c ∈ name, Visible c ∧ c ≠ 61) (hne : name ≠ []) (hq : name ≠ b!"q")
    (hv : ∀ c ∈ value, QText c) (hvne : value ≠ []) (hs : List (Bytes × Bytes))
    (hf : FirstAccept (prefixText l ++ m.text ++ 59 :: (w ++ name ++ b!"=\"" ++ value ++ b!"\"") ++ 44 :: rest) hs) :
    accept hs = .badRequest := by
  obtain ⟨p, h1, h2, h3, h4, h5⟩ := at_quoted l m w name value (44 :: (rest ++ [0])) hl hm hp hw hname hne hq hv hvne
  have hpv : parseValue (prefixText l ++ m.text ++ 59 :: (w ++ name ++ b!"=\"" ++ value ++ b!"\"") ++ 44 :: rest) = .perror := by
    unfold parseValue
    rw [List.append_assoc, List.cons_append, h1, parse_run]
    have hc : copy p.pr (min p.prLen 30) = some [] := by rw [h3]; simp [copy]
    simp [step, h2, stPend, h5, hc, space, run]
  rw [accept_first _ hs hf, hpv]

example : accept [(b!"accept", b!"text/html;a=\"b\",image/png")] = .badRequest := by decide +kernel

/-- **C29** refuted: a client that accepts a type with a weight of 0.001 to 0.009, and nothing else, is answered with 406. -/
theorem C29_small_weight_refuted (r : Range) (hr : r.Ok) (hq : 0 < r.quality ∧ r.quality < 10) (hs : List (Bytes × Bytes))
    (hf : FirstAccept r.text hs) : accept hs = .notAcceptable := by
  have := C29_understood_partial [] r [] (by intro x hx; simp at hx) hr (Or.inl rfl) hs (by simpa [prefixText] using hf)
  rw [if_neg] at this
  · exact this
  · rintro ⟨x, hx, hq2⟩
    simp at hx; subst hx; omega

example : accept [(b!"accept", b!"text/html;q=0.009")] = .notAcceptable := by decide +kernel

/-! ## C75: no Accept field harms the server -/

/-- **C75** (partial: no `"`, no 31 visible characters in a row, no semicolon behind a weight).  The field does neither
corrupt memory nor crash the server. -/
theorem C75_safe_partial (v : Bytes) (hn : NoLongName v) (hq : 34 ∉ v) (hx : NoExt v) (hs : List (Bytes × Bytes))
    (hf : FirstAccept v hs) : accept hs ≠ .crash ∧ accept hs ≠ .overflow ∧ accept hs ≠ .outside := by
  have h1 := parse_good (v ++ [0]) (noLong_nul v hn) (by simp [hq]) (noExt_nul v hx) (v ++ [0]) start [] rfl trivial (fun _ => rfl)
  have h2 := parse_inside v start []
  rw [accept_first v hs hf]
  unfold parseValue
  cases h : parse start (v ++ [0]) with
  | crash => exact absurd h h1.1
  | overflow => exact absurd h h1.2
  | outside => exact absurd h h2
  | perror => simp
  | ok l => simp only; repeat' split
            all_goals simp

/-- A value the theorem applies to. -/
example : NoLongName b!"text/html;level=1,image/png;q=0.5, */*" ∧ 34 ∉ b!"text/html;level=1,image/png;q=0.5, */*" := by
  refine ⟨?_, by decide⟩
  intro a w b e hl
  by_cases h : a.length ≤ 6
  · refine ⟨59, ?_, by simp [Visible]⟩
    have h1 : (a ++ (w ++ b))[9]? = some 59 := by rw [← List.append_assoc, ← e]; rfl
    rw [List.getElem?_append_right (by omega), List.getElem?_append_left (by omega)] at h1
    exact List.mem_of_getElem? h1
  · refine ⟨59, ?_, by simp [Visible]⟩
    have h2 := congrArg List.length e
    simp at h2
    have h1 : (a ++ (w ++ b))[27]? = some 59 := by rw [← List.append_assoc, ← e]; rfl
    rw [List.getElem?_append_right (by omega), List.getElem?_append_left (by omega)] at h1
    exact List.mem_of_getElem? h1

example : NoExt b!"text/html;level=1,image/png;q=0.5, */*" := by
  intro a b c e
  exfalso
  have h2 := congrArg List.length e
  simp at h2
  have h3 : ((b!"text/html;level=1,image/png;q=0.5, */*").drop a.length).take 3 = b!"=0." := by
    rw [e]; simp
  have hk : ∀ i : Fin 39, ((b!"text/html;level=1,image/png;q=0.5, */*").drop i).take 3 = b!"=0." → i.1 = 29 := by decide +kernel
  have h4 := hk ⟨a.length, by omega⟩ h3
  simp only at h4
  have h5 : (b!"text/html;level=1,image/png;q=0.5, */*").drop 32 = b ++ 59 :: c := by
    rw [e, show 32 = a.length + 3 by omega]; simp
  have h6 : 59 ∈ (b!"text/html;level=1,image/png;q=0.5, */*").drop 32 := by rw [h5]; simp
  revert h6
  decide +kernel

example : accept [(b!"accept", b!"text/html;level=1;q=0.5,;;==")] = .badRequest := by decide +kernel

/-- **C75**.  No field makes the server read past the end of the field. -/
theorem C75_reads_inside (hs : List (Bytes × Bytes)) : accept hs ≠ .outside := by
  unfold accept
  cases headerValue hs with
  | none => simp
  | some v =>
    have := parse_inside v start []
    simp only [parseValue]
    cases h : parse start (v ++ [0]) with
    | outside => exact absurd h this
    | perror => simp
    | crash => simp
    | overflow => simp
    | ok l => simp only; repeat' split
              all_goals simp

example : accept [(b!"accept", b!"text/html;a=\"x")] = .badRequest := by decide +kernel

theorem parse_el (n t : Bytes) (p : PS) (hp : p.st = .el) : (∀ c ∈ n, Visible c ∧ c ≠ 61) → parse p (n ++ t) = parse p t := by
  have e : ({ p with st := .el } : PS) = p := by rw [← hp]
  induction n with
  | nil => intro _; rfl
  | cons c n ih =>
    intro h
    have hc := h c (by simp)
    rw [List.cons_append, parse_go p p c, ih fun x hx => h x (by simp [hx])]
    simp [step, hp, stEl, hc.2, vis_token c hc.1, e]

theorem parse_er (n t : Bytes) (p : PS) (hp : p.st = .er) : (∀ c ∈ n, Visible c) → parse p (n ++ t) = parse p t := by
  have e : ({ p with st := .er } : PS) = p := by rw [← hp]
  induction n with
  | nil => intro _; rfl
  | cons c n ih =>
    intro h
    have hc := h c (by simp)
    have hc1 := hc
    simp only [Visible] at hc1
    rw [List.cons_append, parse_go p p c, ih fun x hx => h x (by simp [hx])]
    simp [step, hp, stEr, hc1, vis_token c hc, e]

/-- **C75** refuted: a weight followed by an extension (valid in RFC 7231) whose semicolon is followed by no blank crashes the
server: it copies the name of the extension from a null pointer. -/
theorem C75_extension_crashes_refuted (l : List (Range × Bytes)) (m : Media) (w : Weight) (name value rest : Bytes)
    (hl : PrefixOk l) (hm : m.Ok) (hw : w.Ok) (hname : ∀ c ∈ name, Visible c ∧ c ≠ 61) (hne : name ≠ []) (hv : ∀ c ∈ value, Visible c)
    (hvne : value ≠ []) (hvq : value.head? ≠ some 34) (hr : rest = [] ∨ ∃ c r, rest = c :: r ∧ ¬ Visible c) (hs : List (Bytes × Bytes))
    (hf : FirstAccept (prefixText l ++ m.text ++ w.text ++ 59 :: (name ++ 61 :: (value ++ rest))) hs) : accept hs = .crash := by
  have hpv : parseValue (prefixText l ++ m.text ++ w.text ++ 59 :: (name ++ 61 :: (value ++ rest))) = .crash := by
    unfold parseValue
    obtain ⟨c, r, er, hc⟩ : ∃ c r, rest ++ [0] = c :: r ∧ ¬ Visible c := by
      rcases hr with rfl | ⟨c, r, rfl, hc⟩
      · exact ⟨0, [], rfl, by simp [Visible]⟩
      · exact ⟨c, r ++ [0], rfl, hc⟩
    rw [show prefixText l ++ m.text ++ w.text ++ 59 :: (name ++ 61 :: (value ++ rest)) ++ [0] =
      prefixText l ++ (m.text ++ (w.text ++ 59 :: (name ++ 61 :: (value ++ c :: r)))) by rw [← er]; simp]
    obtain ⟨p1, h1, h2⟩ := parse_prefix (m.text ++ (w.text ++ 59 :: (name ++ 61 :: (value ++ c :: r)))) l start [] hl start_fresh
    obtain ⟨p2, h3, h4⟩ := parse_media m hm (w.text ++ 59 :: (name ++ 61 :: (value ++ c :: r))) p1 _ h2
    obtain ⟨p3, h5, h6, _, h7⟩ := parse_weight m _ w hw (59 :: (name ++ 61 :: (value ++ c :: r))) p2 h4
    rw [h1, h3, h5, parse_go p3 { p3 with st := .esemi } 59 _ (by simp [step, h6, digit, space])]
    cases name with
    | nil => exact absurd rfl hne
    | cons d name =>
      have hd := hname d (by simp)
      rw [List.cons_append, parse_go _ { p3 with st := .el } d _ (by simp [step, vis_space d hd.1, vis_token d hd.1, stEl, hd.2]),
        parse_el name _ _ rfl (fun x hx => hname x (by simp [hx])),
        parse_go _ { p3 with st := .eeq, elLen := none } 61 _ (by simp [step, stEl, h7.el, diff])]
      cases value with
      | nil => exact absurd rfl hvne
      | cons v value =>
        have hv1 := hv v (by simp)
        have hv2 := hv1
        simp only [Visible] at hv2
        have hv34 : v ≠ 34 := by simpa using hvq
        rw [List.cons_append, parse_go _ { p3 with st := .er, elLen := none, er := some (v :: (value ++ c :: r)) } v _
            (by simp [step, hv34, vis_token v hv1, stEr, hv2]),
          parse_er value _ _ rfl (fun x hx => hv x (by simp [hx])), parse_run]
        have hcond : (c != 44 && token c) = false := by
          simp only [Visible] at hc
          simp [token]
          omega
        simp [step, stEr, hcond, diff, stEend, h7.el, copy, run]
  rw [accept_first _ hs hf, hpv]

example : accept [(b!"accept", b!"text/html;q=0.5;a=b")] = .crash := by decide +kernel
example : accept [(b!"accept", b!"*/*,text/html;level=1; q=0.5;a=b,image/png")] = .crash := by decide +kernel

/-- **C75**: with a blank behind its semicolon, and followed by a comma, an extension is read and the range is told; at the
end of the field it is answered with 400. -/
theorem C75_extension_behind_blank (l : List (Range × Bytes)) (m : Media) (w : Weight) (b : Nat) (ws name value rest : Bytes)
    (hl : PrefixOk l) (hm : m.Ok) (hw : w.Ok) (hb : b = 32 ∨ b = 9) (hws : Blanks ws) (hname : ∀ c ∈ name, Visible c ∧ c ≠ 61) (hne : name ≠ []) (hv : ∀ c ∈ value, Visible c)
    (hvne : value ≠ []) (hvq : value.head? ≠ some 34) (hs : List (Bytes × Bytes))
    (hf : FirstAccept (prefixText l ++ m.text ++ w.text ++ 59 :: b :: (ws ++ name ++ 61 :: (value ++ rest))) hs) :
    (rest = [] → accept hs = .badRequest) ∧
    (rest = b!"," → if 10 ≤ w.val ∨ ∃ x ∈ l, 10 ≤ x.1.quality then
        ∃ told a, accept hs = .accepted (told ++ [a]) ∧ AllTold (l.map (·.1)) told ∧ Told ⟨m, some w⟩ { a with exts := 0 } ∧ a.exts = 1
      else accept hs = .notAcceptable) := by
  obtain ⟨c, r, er, hc, hcd⟩ : ∃ c r, rest ++ [0] = c :: r ∧ (rest = [] → c = 0) ∧ (rest = b!"," → c = 44 ∧ r = [0]) := by
    cases rest with
    | nil => exact ⟨0, [], rfl, by simp, by simp⟩
    | cons c r => exact ⟨c, r ++ [0], rfl, by simp, by simp⟩
  have hpv : ∃ p, p.st = .er ∧ p.er = some (value ++ c :: r) ∧ copy p.el (min (p.elLen.getD 30) 30) ≠ none ∧ p.exts = 0 ∧
      copy p.type p.typeLen = some m.type ∧ copy p.subtype p.subtypeLen = some m.subtype ∧ p.acc = l.map (fun x => toldOf x.1) ∧
      p.params = m.params.map tell ∧ quality p.qv = some (Fly.Encode.pct w.val) ∧
      parseValue (prefixText l ++ m.text ++ w.text ++ 59 :: b :: (ws ++ name ++ 61 :: (value ++ rest))) = parse p (c :: r) := by
    unfold parseValue
    rw [show prefixText l ++ m.text ++ w.text ++ 59 :: b :: (ws ++ name ++ 61 :: (value ++ rest)) ++ [0] =
      prefixText l ++ (m.text ++ (w.text ++ 59 :: b :: (ws ++ (name ++ 61 :: (value ++ c :: r))))) by rw [← er]; simp]
    obtain ⟨p1, h1, h2⟩ := parse_prefix (m.text ++ (w.text ++ 59 :: b :: (ws ++ (name ++ 61 :: (value ++ c :: r))))) l start [] hl start_fresh
    obtain ⟨p2, h3, h4⟩ := parse_media m hm (w.text ++ 59 :: b :: (ws ++ (name ++ 61 :: (value ++ c :: r)))) p1 _ h2
    obtain ⟨p3, h5, h6, _, h7⟩ := parse_weight m _ w hw (59 :: b :: (ws ++ (name ++ 61 :: (value ++ c :: r)))) p2 h4
    have hq := quality_weight w hw (59 :: b :: (ws ++ (name ++ 61 :: (value ++ c :: r)))) (by intro x y e; simp at e; rw [← e.1]; decide)
    have hbs : space b = true := by rcases hb with rfl | rfl <;> rfl
    have hblank : ∀ (w t : Bytes) (p : PS), p.st = .eows2 → Blanks w → parse p (w ++ t) = parse p t := by
      intro w t p hp
      induction w with
      | nil => intro _; rfl
      | cons c w ih =>
        intro h
        have hcs : space c = true := by rcases h c (by simp) with rfl | rfl <;> rfl
        rw [List.cons_append, parse_go p p c, ih fun x hx => h x (by simp [hx])]
        simp [step, hp, hcs]
    rw [h1, h3, h5, parse_go p3 { p3 with st := .esemi } 59 _ (by simp [step, h6, digit, space]),
      parse_go _ { p3 with st := .eows2 } b _ (by simp [step, hbs]), hblank ws _ _ rfl hws]
    have hname' := parse_el
    cases hn : name with
    | nil => exact absurd hn hne
    | cons d nm =>
      have hd := hname d (by rw [hn]; simp)
      have hdf := diff_pre (d :: nm) (61 :: (value ++ c :: r))
      rw [List.cons_append] at hdf ⊢
      rw [parse_go _ { p3 with st := .el, el := some (d :: (nm ++ 61 :: (value ++ c :: r))) } d _
          (by simp [step, vis_space d hd.1, vis_token d hd.1, stEl, hd.2]),
        parse_el nm _ _ rfl (fun x hx => hname x (by rw [hn]; simp [hx])),
        parse_go _ { p3 with st := .eeq, el := some (d :: (nm ++ 61 :: (value ++ c :: r))), elLen := some (d :: nm).length } 61 _
          (by simp only [step, stEl, hdf]; rfl)]
      cases hvv : value with
      | nil => exact absurd hvv hvne
      | cons v vs =>
        have hv1 := hv v (by rw [hvv]; simp)
        have hv2 := hv1
        simp only [Visible] at hv2
        have hv34 : v ≠ 34 := by rw [hvv] at hvq; simpa using hvq
        rw [List.cons_append, parse_go _ { p3 with st := .er, el := some (d :: (nm ++ 61 :: (v :: (vs ++ c :: r)))), elLen := some (d :: nm).length, er := some (v :: (vs ++ c :: r)) } v _
            (by simp [step, hv34, vis_token v hv1, stEr, hv2]),
          parse_er vs _ _ rfl (fun x hx => hv x (by rw [hvv]; simp [hx]))]
        refine ⟨{ p3 with st := .er, el := some (d :: (nm ++ 61 :: (v :: (vs ++ c :: r)))), elLen := some (d :: nm).length, er := some (v :: (vs ++ c :: r)) }, rfl, rfl, ?_, h7.exts, h7.type, h7.sub, by rw [h7.acc]; simp, h7.params, ?_, rfl⟩
        · have := copy_ne (d :: nm) (61 :: (v :: (vs ++ c :: r))) (min (d :: nm).length 30) (by omega)
          exact this
        · show quality p3.qv = _
          rw [h7.qv]; exact hq
  obtain ⟨p, h1, h2, h3, h4, h5, h6, h7, h8, h9, h10⟩ := hpv
  have hdf : diff p.er (c :: r) = some value.length := by rw [h2]; exact diff_pre _ _
  have hce : copy p.er (min value.length 30) = some (value.take 30) := by rw [h2]; exact copy_min _ _
  rw [accept_first _ hs hf, h10, parse_run]
  obtain ⟨z, hz⟩ := Option.ne_none_iff_exists'.1 h3
  have hall : ∀ x ∈ l.map (·.1), x.Ok := fun r hr => by
    obtain ⟨y, hy, rfl⟩ := List.mem_map.1 hr
    exact (hl y hy).1
  constructor
  · intro hr
    have := hc hr
    subst this
    simp [step, h1, stEr, token, hdf, stEend, hz, hce, stEows1, space, run]
  · intro hr
    obtain ⟨rfl, rfl⟩ := hcd hr
    have ht : typeOk m.type = true := by simp [typeOk, hm.typeLen]
    have hsl := hm.subLen
    have e : run (step p 44 [44, 0]) [0] =
        .ok (l.map (fun x => toldOf x.1) ++ [⟨m.type, m.subtype, Fly.Encode.pct w.val, m.params.map tell, 1⟩]) := by
      simp [step, h1, stEr, hdf, stEend, hz, hce, stAdd, h9, h5, ht, h6, show ¬ 30 < m.subtype.length by omega, stAfter, space, run, parse, h7, h8, h4]
    rw [e]
    have hpos := (toldOf_told ⟨m, some w⟩ ⟨hm, fun x hx => by simp at hx; rw [← hx]; exact hw⟩)
    have hwpos : 0 < Fly.Encode.pct w.val ↔ 10 ≤ w.val := told_pos ⟨m, some w⟩ ⟨hm, fun x hx => by simp at hx; rw [← hx]; exact hw⟩
    have hany : ((l.map (fun x => toldOf x.1) ++ [(⟨m.type, m.subtype, Fly.Encode.pct w.val, m.params.map tell, 1⟩ : Acc)]).any fun a => decide (a.q > 0)) = true ↔
        (10 ≤ w.val ∨ ∃ x ∈ l, 10 ≤ x.1.quality) := by
      rw [List.any_append, Bool.or_eq_true, List.any_eq_true]
      constructor
      · rintro (⟨a, ha, hq⟩ | h)
        · obtain ⟨x, hx, rfl⟩ := List.mem_map.1 ha
          exact Or.inr ⟨x, hx, (told_pos x.1 (hl x hx).1).1 (by simpa using hq)⟩
        · exact Or.inl (hwpos.1 (by simpa using h))
      · rintro (h | ⟨x, hx, h⟩)
        · right; simpa using hwpos.2 h
        · left; exact ⟨_, List.mem_map.2 ⟨x, hx, rfl⟩, by simpa using (told_pos x.1 (hl x hx).1).2 h⟩
    have hlen : ¬ (l.map (fun x => toldOf x.1) ++ [(⟨m.type, m.subtype, Fly.Encode.pct w.val, m.params.map tell, 1⟩ : Acc)]).length = 0 := by simp
    simp only [if_neg hlen]
    by_cases h : 10 ≤ w.val ∨ ∃ x ∈ l, 10 ≤ x.1.quality
    · rw [if_pos h, if_pos (hany.2 h)]
      refine ⟨l.map fun x => toldOf x.1, _, rfl, ?_, hpos, rfl⟩
      have := allTold_map (l.map (·.1)) hall
      simpa [Function.comp_def] using this
    · rw [if_neg h, if_neg fun x => h (hany.1 x)]

example : accept [(b!"accept", b!"text/html;q=0.5; a=b,")] = .accepted [⟨b!"text", b!"html", 50, [], 1⟩] := by decide +kernel
example : accept [(b!"accept", b!"text/html;q=0.5; a=b")] = .badRequest := by decide +kernel

/-- **C75** refuted: a subtype of more than 30 characters is written past the end of its field. -/
theorem C75_long_subtype_overflows_refuted (l : List (Range × Bytes)) (ty sub rest : Bytes) (hl : PrefixOk l) (htn : ty ≠ [])
    (hty : ∀ c ∈ ty, Visible c ∧ c ≠ 47) (htl : ty.length < 30) (hsub : ∀ c ∈ sub, Visible c) (hlen : 30 < sub.length)
    (hr : rest = [] ∨ ∃ r, rest = 44 :: r) (hs : List (Bytes × Bytes))
    (hf : FirstAccept (prefixText l ++ ty ++ 47 :: (sub ++ rest)) hs) : accept hs = .overflow := by
  have hpv : parseValue (prefixText l ++ ty ++ 47 :: (sub ++ rest)) = .overflow := by
    unfold parseValue
    rw [show prefixText l ++ ty ++ 47 :: (sub ++ rest) ++ [0] = prefixText l ++ (ty ++ 47 :: (sub ++ (rest ++ [0]))) by simp]
    obtain ⟨p1, h1, h2⟩ := parse_prefix (ty ++ 47 :: (sub ++ (rest ++ [0]))) l start [] hl start_fresh
    obtain ⟨p2, h3, h4⟩ := parse_bare ty sub (rest ++ [0]) htn hty (by intro e; rw [e] at hlen; simp at hlen) hsub p1 _ h2
    have hadd : ∀ (p : PS) (acc : List Acc) (c : Nat) (s : Bytes), Settled p ⟨ty, sub, []⟩ acc → stAdd p c s = .overflow := by
      intro p acc c s h
      have ht : typeOk ty = true := by simp [typeOk, htl]
      simp [stAdd, h.qv, quality, h.type, ht, h.sub, hlen]
    rw [h1, h3]
    rcases hr with rfl | ⟨r, rfl⟩
    · obtain ⟨p3, h5, h6⟩ := has_end p2 _ _ [] h4
      rw [List.nil_append, parse_run, h6, hadd p3 _ _ _ h5]
      rfl
    · obtain ⟨p3, h5, h6⟩ := has_comma p2 _ _ (r ++ [0]) h4 rfl
      rw [List.cons_append, parse_run, h6, hadd p3 _ _ _ h5]
      rfl
  rw [accept_first _ hs hf, hpv]

example : accept [(b!"accept", b!"application/vnd.openxmlformats-officedocument")] = .overflow := by decide +kernel

end Fly.Mime
