import Verif.Encode.Lemmas

/-! # C27, C28 content-coding negotiation; C73 safety of parsing Accept-Encoding -/

namespace Fly.Encode

theorem header_field (hs : List (Bytes × Bytes)) (es : List Elem) (h : Field hs es) (hne : es ≠ []) (hok : ∀ e ∈ es, e.Ok) :
    headerValue hs = some (text es) := by
  obtain ⟨pre, post, rfl, hpre⟩ := h
  obtain ⟨e, es, rfl⟩ := List.exists_cons_of_ne_nil hne
  have hv : 0 < (text (e :: es)).length := by
    have he := (hok e (by simp)).ne
    have : 0 < e.name.length := List.length_pos_iff.2 he
    cases es <;> simp [text] <;> omega
  unfold headerValue
  have h1 : pre.find? (fun h => decide (0 < h.1.length) && decide (0 < h.2.length) && (b!"accept-encoding").isPrefixOf h.1) = none := by
    rw [List.find?_eq_none]
    intro x hx
    have := hpre x hx
    simp only [Bool.and_eq_true, not_and]
    intro _ hp
    exact this (List.isPrefixOf_iff_prefix.1 hp)
  rw [List.find?_append, h1, Option.none_or, List.find?_cons_of_pos]
  · rfl
  · simp [hv, List.isPrefixOf]

theorem accept_field (hs : List (Bytes × Bytes)) (es : List Elem) (h : Field hs es) (hne : es ≠ []) (hok : ∀ e ∈ es, e.Ok) :
    accept hs = .choice (decide' (collect 100 es)) := by
  unfold accept
  rw [header_field hs es h hne hok]
  obtain ⟨e, es, rfl⟩ := List.exists_cons_of_ne_nil hne
  simp only
  rw [parseAe_text e es hok]

/-- **C27**: for every Accept-Encoding field (in which no element without weight follows an element with one): the chosen
coding was named with a quality of at least 0.01, or `*` was and the coding is gzip; the request is answered 406 exactly
if codings known to the server are named and all of them with a quality below 0.01.  The claim wants any quality above
zero, gzip only if it is not refused, and 406 only if identity is refused too. -/
theorem C27_choice_partial (hs : List (Bytes × Bytes)) (es : List Elem) (h : Field hs es) (hne : es ≠ [])
    (hok : ∀ e ∈ es, e.Ok) (hl : WeightsLast es) :
    ∃ ch, accept hs = .choice ch ∧
      (∀ k, ch = .use k → k ≠ .any ∧ ((∃ e ∈ es, Named e.name k ∧ 10 ≤ e.quality) ∨
        (k = .gzip ∧ ∃ e ∈ es, Named e.name .any ∧ 10 ≤ e.quality))) ∧
      (ch = .notAcceptable ↔ (∃ e ∈ es, ∃ k, Named e.name k) ∧ ∀ e ∈ es, ∀ k, Named e.name k → e.quality < 10) ∧
      (ch = .none ↔ ∀ e ∈ es, ∀ k, ¬ Named e.name k) := by
  refine ⟨_, accept_field hs es h hne hok, ?_⟩
  rw [collect_last es hl]
  have hmem := mem_keep es
  have hnil : es.filterMap keep = [] ↔ ∀ e ∈ es, ∀ k, ¬ Named e.name k := by
    constructor
    · intro hn e he k hk
      have : (⟨k, pct e.quality⟩ : Acc) ∈ es.filterMap keep := (hmem _).2 ⟨e, he, hk, rfl⟩
      rw [hn] at this
      simp at this
    · intro hn
      cases hx : es.filterMap keep with
      | nil => rfl
      | cons a l =>
        obtain ⟨e, he, h1, h2⟩ := (hmem a).1 (by rw [hx]; simp)
        exact absurd h1 (hn e he _)
  unfold decide'
  by_cases hempty : es.filterMap keep = []
  · rw [if_pos hempty]
    refine ⟨by simp, ?_, ⟨fun _ => hnil.1 hempty, fun _ => rfl⟩⟩
    simp only [reduceCtorEq, false_iff]
    rintro ⟨⟨e, he, k, hk⟩, _⟩
    exact hnil.1 hempty e he k hk
  · rw [if_neg hempty]
    cases hd : decideLoop (es.filterMap keep) none with
    | none =>
      have h0 := ((loop_none _ _).1 hd).2
      refine ⟨by simp, ?_, ?_⟩
      · simp only [true_iff]
        constructor
        · obtain ⟨a, l, hx⟩ := List.exists_cons_of_ne_nil hempty
          obtain ⟨e, he, h1, h2⟩ := (hmem a).1 (by rw [hx]; simp)
          exact ⟨e, he, _, h1⟩
        · intro e he k hk
          have := h0 ⟨k, pct e.quality⟩ ((hmem _).2 ⟨e, he, hk, rfl⟩)
          simp only at this
          have hp := pct_pos e.quality (quality_le e (hok e he))
          omega
      · simp only [reduceCtorEq, false_iff]
        exact fun hn => hempty (hnil.2 hn)
    | some a =>
      obtain ⟨h1, _, _⟩ := loop_some _ _ _ hd
      have h1 := h1.resolve_left (by simp)
      obtain ⟨e, he, hk, hq⟩ := (hmem a).1 h1.1
      have hp := pct_pos e.quality (quality_le e (hok e he))
      have h10 : 10 ≤ e.quality := by omega
      refine ⟨?_, ?_, ?_⟩
      · intro k
        simp only
        by_cases hany : a.coding = .any
        · rw [if_pos hany, mostPriority_gzip]
          intro hk'
          simp at hk'
          subst hk'
          exact ⟨by simp, Or.inr ⟨rfl, e, he, hany ▸ hk, h10⟩⟩
        · rw [if_neg hany]
          intro hk'
          simp at hk'
          subst hk'
          exact ⟨hany, Or.inl ⟨e, he, hk, h10⟩⟩
      · have : (if a.coding = .any then Choice.use mostPriority else .use a.coding) ≠ .notAcceptable := by split <;> simp
        simp only [this, false_iff]
        rintro ⟨_, hn⟩
        have := hn e he _ hk
        omega
      · have : (if a.coding = .any then Choice.use mostPriority else .use a.coding) ≠ .none := by split <;> simp
        simp only [this, false_iff]
        intro hn
        exact hn e he _ hk

/-- `gzip;q=0.2, Deflate; q=0.75 , foo;q=1` meets the hypotheses. -/
example : let es : List Elem := [⟨b!"gzip", some ⟨[], [], .zero [2], []⟩, [32]⟩, ⟨b!"Deflate", some ⟨[], [32], .zero [7, 5], [32]⟩, [32]⟩,
      ⟨b!"foo", some ⟨[], [], .one 0, []⟩, []⟩]
    text es = b!"gzip;q=0.2, Deflate; q=0.75 , foo;q=1" ∧ WeightsLast es ∧ Named b!"Deflate" .deflate ∧
    accept [(b!"host", b!"a"), (b!"accept-encoding", text es)] = .choice (.use .gzip) := by
  refine ⟨by decide, ?_, by simp [Named, nameOf, SameLetters, SameLetter], by decide +kernel⟩
  simp [WeightsLast]
example : Elem.Ok ⟨b!"Deflate", some ⟨[], [32], .zero [7, 5], [32]⟩, [32]⟩ :=
  ⟨by decide, by decide, by decide, by rintro w ⟨⟩; exact ⟨by simp [Blanks], by simp [Blanks], by simp [Q.Ok], by simp [Blanks]⟩, by simp [Blanks]⟩

/-- **C27 refuted**: `*` selects gzip even if gzip is refused: whenever every named coding but `*` has quality zero. -/
theorem C27_asterisk_selects_refused_refuted (hs : List (Bytes × Bytes)) (es : List Elem) (h : Field hs es)
    (hok : ∀ e ∈ es, e.Ok) (hl : WeightsLast es) (hstar : ∃ e ∈ es, Named e.name .any ∧ 10 ≤ e.quality)
    (hno : ∀ e ∈ es, ∀ k, k ≠ .any → Named e.name k → e.quality = 0) :
    accept hs = .choice (.use .gzip) := by
  obtain ⟨e, he, h1, h2⟩ := hstar
  obtain ⟨ch, h3, h4, h5, h6⟩ := C27_choice_partial hs es h (by rintro rfl; simp at he) hok hl
  rw [h3]
  cases ch with
  | none => exact absurd h1 (h6.1 rfl e he _)
  | notAcceptable => have := (h5.1 rfl).2 e he _ h1; omega
  | use k =>
    obtain ⟨hk, h7⟩ := h4 k rfl
    rcases h7 with ⟨x, hx, g1, g2⟩ | ⟨rfl, _⟩
    · have := hno x hx k hk g1
      omega
    · rfl

example : accept [(b!"accept-encoding", b!"*;q=0.5, gzip;q=0, br;q=0")] = .choice (.use .gzip) := by decide +kernel

/-- **C27 refuted**: an element without weight gets the weight of the element before it, so an accepted coding is taken
for refused. -/
theorem C27_weight_carried_over_refuted (hs : List (Bytes × Bytes)) (a b : Elem) (ha : a.Ok) (hb : b.Ok) (w : Weight)
    (hwa : a.weight = some w) (hwb : b.weight = none) (hq : w.q.val = 0) (k k' : Coding) (hka : Named a.name k)
    (hkb : Named b.name k') (h : Field hs [a, b]) : accept hs = .choice .notAcceptable := by
  rw [accept_field hs _ h (by simp) (by simp; exact ⟨ha, hb⟩)]
  have e : collect 100 [a, b] = [⟨k, 0⟩, ⟨k', 0⟩] := by
    simp [collect, hwa, hwb, hq, (fromName_iff _ _).2 hka, (fromName_iff _ _).2 hkb]
    decide
  rw [e]
  rfl

example : accept [(b!"accept-encoding", b!"gzip;q=0, br")] = .choice .notAcceptable := by decide +kernel

/-- **C27 refuted**: a quality between 0.001 and 0.009 is taken for zero, and 406 is sent although identity was not
refused. -/
theorem C27_small_quality_refused_refuted (hs : List (Bytes × Bytes)) (a : Elem) (ha : a.Ok) (k : Coding)
    (hka : Named a.name k) (hq : a.quality < 10) (h : Field hs [a]) : accept hs = .choice .notAcceptable := by
  obtain ⟨ch, h3, h4, h5, h6⟩ := C27_choice_partial hs [a] h (by simp) (by simp; exact ha) (by simp [WeightsLast])
  rw [h3, h5.2]
  refine ⟨⟨a, by simp, k, hka⟩, ?_⟩
  intro e he _ _
  simp at he
  subst he
  exact hq

example : accept [(b!"accept-encoding", b!"br;q=0.009")] = .choice .notAcceptable := by decide +kernel

/-- **C27 refuted**: content encoded in advance is sent whenever its coding is named, even if it is refused. -/
theorem C27_refused_precoded_sent_refuted (l : List Acc) (t : Coding) (q : Nat) (h : ⟨t, q⟩ ∈ l) (ht : t ≠ .any) (big : Bool) :
    responseCoding l (some t) big = some t := by
  have hm : matching l t = true := by
    unfold matching
    rw [List.any_eq_true]
    refine ⟨⟨t, q⟩, ?_, by simp⟩
    unfold settle
    split
    · split
      · rename_i a _ hc
        refine List.mem_map.2 ⟨⟨t, q⟩, h, ?_⟩
        rw [if_neg]
        rintro rfl
        exact ht hc
      · exact h
    · exact h
  unfold responseCoding
  simp only
  rw [if_pos hm]

example : parseAe b!"gzip;q=0, br;q=1" = .ok [⟨.gzip, 0⟩, ⟨.br, 100⟩] ∧
    responseCoding [⟨.gzip, 0⟩, ⟨.br, 100⟩] (some .gzip) true = some .gzip := by decide +kernel

/-- Without the field the server uses gzip. -/
theorem C27_no_field (hs : List (Bytes × Bytes)) (h : ∀ x ∈ hs, ¬ b!"accept-encoding" <+: x.1) :
    accept hs = .choice (.use .gzip) := by
  unfold accept headerValue
  have h1 : hs.find? (fun h => decide (0 < h.1.length) && decide (0 < h.2.length) && (b!"accept-encoding").isPrefixOf h.1) = none := by
    rw [List.find?_eq_none]
    intro x hx
    simp only [Bool.and_eq_true, not_and]
    intro _ hp
    exact h x hx (List.isPrefixOf_iff_prefix.1 hp)
  rw [h1]
  decide

/-! ## C28 -/

/-- **C28**, what holds: no other named coding has both a quality higher by at least 0.02 and a higher priority on the
server than the chosen one.  The claim wants the highest quality whatever the priority. -/
theorem C28_not_dominated_partial (hs : List (Bytes × Bytes)) (es : List Elem) (h : Field hs es) (hne : es ≠ [])
    (hok : ∀ e ∈ es, e.Ok) (hl : WeightsLast es) (k : Coding) (hk : accept hs = .choice (.use k))
    (hstar : ∀ e ∈ es, ¬ Named e.name .any) :
    ∃ e ∈ es, Named e.name k ∧ ∀ x ∈ es, ∀ k', Named x.name k' → prio k < prio k' → x.quality < e.quality + 20 := by
  rw [accept_field hs es h hne hok, collect_last es hl] at hk
  simp at hk
  unfold decide' at hk
  split at hk
  · simp at hk
  · cases hd : decideLoop (es.filterMap keep) none with
    | none => rw [hd] at hk; simp at hk
    | some a =>
      rw [hd] at hk
      obtain ⟨h1, _, h3⟩ := loop_some _ _ _ hd
      have h1 := h1.resolve_left (by simp)
      obtain ⟨e, he, hn, hq⟩ := (mem_keep es a).1 h1.1
      simp only at hk
      rw [if_neg (by intro hc; exact hstar e he (hc ▸ hn))] at hk
      simp at hk
      subst hk
      refine ⟨e, he, hn, ?_⟩
      intro x hx k' hx' hprio
      have h4 := h3 ⟨k', pct x.quality⟩ ((mem_keep es _).2 ⟨x, hx, hx', rfl⟩)
      rcases Nat.lt_or_ge x.quality (e.quality + 20) with hlt | hge
      · exact hlt
      · have := pct_far e.quality x.quality (quality_le x (hok x hx)) hge
        simp only at h4
        rw [hq] at h4
        exact absurd ⟨this, hprio⟩ h4

/-- **C28**: if codings the client prefers (by at least 0.02) are also preferred by the server, the chosen coding has the
highest quality up to 0.02. -/
theorem C28_agreeing_partial (hs : List (Bytes × Bytes)) (es : List Elem) (h : Field hs es) (hne : es ≠ [])
    (hok : ∀ e ∈ es, e.Ok) (hl : WeightsLast es) (k : Coding) (hk : accept hs = .choice (.use k))
    (hstar : ∀ e ∈ es, ¬ Named e.name .any)
    (hag : ∀ x ∈ es, ∀ y ∈ es, ∀ kx ky, Named x.name kx → Named y.name ky → x.quality + 20 ≤ y.quality → prio kx < prio ky) :
    ∃ e ∈ es, Named e.name k ∧ ∀ x ∈ es, (∃ k', Named x.name k') → x.quality < e.quality + 20 := by
  obtain ⟨e, he, h1, h2⟩ := C28_not_dominated_partial hs es h hne hok hl k hk hstar
  refine ⟨e, he, h1, ?_⟩
  rintro x hx ⟨k', hk'⟩
  rcases Nat.lt_or_ge x.quality (e.quality + 20) with hlt | hge
  · exact hlt
  · exact h2 x hx k' hk' (hag e he x hx k k' h1 hk' hge)

example : accept [(b!"accept-encoding", b!"br;q=0.5, deflate;q=0.7, gzip;q=0.9, identity;q=0.1")] = .choice (.use .gzip) ∧
    accept [(b!"accept-encoding", b!"br;q=0.5, deflate;q=0.7, identity;q=0.1")] = .choice (.use .deflate) := by decide +kernel

/-- **C28 refuted**: a first element `gzip` with any quality of at least 0.01 wins, whatever the qualities of the others. -/
theorem C28_gzip_first_wins_refuted (hs : List (Bytes × Bytes)) (e : Elem) (es : List Elem) (h : Field hs (e :: es))
    (hok : ∀ x ∈ e :: es, x.Ok) (hn : Named e.name .gzip) (hq : 10 ≤ e.quality) :
    accept hs = .choice (.use .gzip) := by
  rw [accept_field hs _ h (by simp) hok]
  have h100 : pct 1000 = 100 := by decide +kernel
  have hp := (pct_pos e.quality (quality_le e (hok e (by simp)))).2 hq
  have e1 : ∃ l, collect 100 (e :: es) = ⟨.gzip, pct e.quality⟩ :: l := by
    rw [collect, (fromName_iff _ _).2 hn]
    unfold Elem.quality
    cases e.weight <;> simp [h100]
  obtain ⟨l, e1⟩ := e1
  rw [e1]
  unfold decide'
  rw [if_neg (by simp), loop_cons, if_pos (by simp [better, hp]), loop_gzip l _ rfl]
  rfl

example : accept [(b!"accept-encoding", b!"gzip;q=0.01, br;q=1.0")] = .choice (.use .gzip) := by decide +kernel

/-! ## C73 -/

/-- **C73**: parsing never reads behind the value, whatever it contains. -/
theorem C73_reads_stay_inside (v : Bytes) : parseAe v ≠ .outside := parse_inside v start

/-- **C73**: no well formed value makes the parser write outside its buffers or is rejected.  (Elements of exactly 20
characters are excluded by `Elem.Ok`.) -/
theorem C73_wellformed_parsed_partial (es : List Elem) (hne : es ≠ []) (hok : ∀ e ∈ es, e.Ok) :
    ∃ l, parseAe (text es) = .ok l := by
  obtain ⟨e, es, rfl⟩ := List.exists_cons_of_ne_nil hne
  exact ⟨_, parseAe_text e es hok⟩

/-- **C73 refuted**: a name of exactly 20 characters makes the parser write behind its name buffer. -/
theorem C73_name_overflow_refuted (n : Bytes) (hn : n.length = 20) (hc : ∀ c ∈ n, 33 ≤ c ∧ c ≤ 126 ∧ c ≠ 44 ∧ c ≠ 59) :
    parseAe n = .overflow := by
  have hne : n ≠ [] := by rintro rfl; simp at hn
  obtain ⟨c, m, hm⟩ := List.exists_cons_of_ne_nil hne
  have hnc : nchar c := hc c (by rw [hm]; simp)
  have hnc' := hnc
  simp only [nchar] at hnc'
  unfold parseAe
  rw [show n ++ [0] = c :: (m ++ [0]) by rw [hm]; rfl, parse_go start { start with st := .name, name := some (n ++ [0]) } c,
    parse_names _ rfl _ m fun x hx => hc x (by rw [hm]; simp [hx]), parse, step_end _ (Or.inl rfl)]
  · unfold finish add
    simp only [Option.getD_some]
    rw [copyName_spec n 0 0 [] (by omega) hne (fun x hx => nchar_sep x (hc x hx)) (by decide), if_neg (by omega), if_pos (by omega)]
  · unfold step
    simp only [nchar_tchar c hnc, start]
    rw [if_neg (by simp), if_neg (by simp; omega)]
    unfold begin
    rw [if_pos (nchar_tchar c hnc), if_neg (by simp; omega), hm]
    rfl

/-- **C73 refuted**: a quality of six or more zeros makes it write behind the buffer for the quality. -/
theorem C73_quality_overflow_refuted (k : Nat) : parseAe (b!"gzip;q=" ++ List.replicate (k + 6) 48) = .overflow := by
  have hz : ∀ (j : Nat) (p : PS) (t : Bytes), p.st = .zeroInt → parse p (List.replicate j 48 ++ t) = parse p t := by
    intro j
    induction j with
    | zero => intro p t _; rfl
    | succ j ih =>
      intro p t hp
      rw [List.replicate_succ, List.cons_append, parse_go p p 48, ih p t hp]
      unfold step
      simp [hp, show tchar 48 = true by decide]
  have hall : (List.replicate (k + 6) 48 ++ [0]).takeWhile (fun c => c == 46 || number c) = List.replicate (k + 6) 48 := by
    rw [List.takeWhile_append, takeWhile_all _ _ (by intro c hc; rw [List.eq_of_mem_replicate hc]; decide)]
    simp [show number 0 = false by decide]
  have hq : quality (some (List.replicate (k + 6) 48 ++ [0])) = none := by
    rw [quality]
    simp only [hall]
    rw [if_neg (by simp [List.replicate_succ]), if_neg (by simp)]
  unfold parseAe
  have e : b!"gzip;q=" ++ List.replicate (k + 6) 48 ++ [0] = 103 :: 122 :: 105 :: 112 :: 59 :: 113 :: 61 :: 48 :: (List.replicate (k + 5) 48 ++ [0]) := by
    simp [List.replicate_succ]
  have e2 : (48 :: (List.replicate (k + 5) 48 ++ [0]) : Bytes) = List.replicate (k + 6) 48 ++ [0] := rfl
  rw [e]
  have hs : ∀ X : Bytes, parse start (103 :: 122 :: 105 :: 112 :: 59 :: 113 :: 61 :: 48 :: X)
      = parse ⟨.zeroInt, some (103 :: 122 :: 105 :: 112 :: 59 :: 113 :: 61 :: 48 :: X), some (48 :: X), 0, []⟩ X := by
    intro X; rfl
  rw [hs, hz _ _ _ rfl, e2, parse, step_end _ (by simp [Ended])]
  unfold finish add
  simp only [hq]
  split <;> simp_all

/-- **C73 refuted**: a blank between a coding and the comma behind it, which the syntax of the field allows, makes the
whole field a syntax error. -/
theorem C73_blank_before_comma_rejected_refuted (n w rest : Bytes) (hne : n ≠ []) (hc : ∀ c ∈ n, 33 ≤ c ∧ c ≤ 126 ∧ c ≠ 44 ∧ c ≠ 59)
    (hw : Blanks w) (hw' : w ≠ []) : parseAe (n ++ w ++ 44 :: rest) = .err := by
  obtain ⟨c, m, hm⟩ := List.exists_cons_of_ne_nil hne
  obtain ⟨b, w, rfl⟩ := List.exists_cons_of_ne_nil hw'
  have hnc : nchar c := hc c (by rw [hm]; simp)
  have hnc' := hnc
  simp only [nchar] at hnc'
  have hb := blank_ok b (hw b (by simp))
  unfold parseAe
  have e : n ++ b :: w ++ 44 :: rest ++ [0] = c :: (m ++ b :: (w ++ 44 :: (rest ++ [0]))) := by rw [hm]; simp
  rw [e, parse_go start { start with st := .name, name := some (n ++ b :: w ++ 44 :: rest ++ [0]) } c,
    parse_names _ rfl _ m fun x hx => hc x (by rw [hm]; simp [hx]),
    parse_go _ { start with st := .wspace, name := some (n ++ b :: w ++ 44 :: rest ++ [0]) } b,
    parse_blanks _ (by simp) _ w (fun x hx => hw x (by simp [hx])), parse]
  · unfold step
    simp [show tchar 44 = true by decide, show space 44 = false by decide]
  · unfold step
    simp [hb]
  · unfold step
    simp only [nchar_tchar c hnc, start]
    rw [if_neg (by simp), if_neg (by simp; omega)]
    unfold begin
    rw [if_pos (nchar_tchar c hnc), if_neg (by simp; omega), ← e]

example : accept [(b!"accept-encoding", b!"gzip , br")] = .syntaxError := by decide +kernel

end Fly.Encode
