import Verif.Conf.Lemmas

/-! # C41: the configuration file

`parse e (some s)` runs `fly_parse_config_file` on a file with the bytes `s` in the environment `e`. -/

namespace Fly.Conf

/-! ## Auxiliary facts -/

theorem means_of_applied {e e' : Env} {ls : List Line} (h : Applied (setDefaults configs e) e' ls) : Means e e' ls := by
  constructor
  · intro n env d k hm
    obtain ⟨c, hc, e1, e2, e3, _⟩ := documented_mem hm
    rw [← e2, h.1 c hc, e1, setDefaults_mem configs e c hc envs_nodup, e3]
    cases lastValue n ls <;> rfl
  · intro x hx
    have hx' : ∀ c ∈ configs, c.env ≠ x := fun c hc => hx _ _ _ _ (mem_documented hc)
    rw [h.2 x hx', setDefaults_other configs e x hx']

theorem parse_good (e : Env) (ls : List Line) (rest : Bytes) (hw : ∀ l ∈ ls, l.WF) (hg : ∀ l ∈ ls, l.Good) :
    ∃ e', Means e e' ls ∧ parse e (some (fileBytes ls ++ rest)) = run e' rest := by
  obtain ⟨e', ha, hr⟩ := run_good ls (setDefaults configs e) rest hw hg
  exact ⟨e', means_of_applied ha, by rw [parse_run]; exact hr⟩

theorem shape_scan {s n v : Bytes} (last : Bool) (h : ItemShape s n v) : sInit last s = .pair n v := by
  obtain ⟨w1, w2, w3, c, r, rfl, h1, hn0, hn, h2, h3, hv0, hv, hc⟩ := h
  refine sInit_item last w1 n w2 w3 v c r ?_ hn0 (fun x hx => (name_iff x).2 (hn x hx))
    (fun x hx => (blank_iff x).2 (h2 x hx)) (fun x hx => (blank_iff x).2 (h3 x hx)) hv0
    (fun x hx => (value_iff x).2 (hv x hx)) ?_
  · intro x hx
    rcases h1 x hx with h | h
    · exact Or.inl ((blank_iff x).2 h)
    · exact Or.inr h
  · rcases hc with h | rfl | rfl
    · exact Or.inl ((blank_iff c).2 h)
    · exact Or.inr rfl
    · exact Or.inr rfl

theorem scan_shape {s n v : Bytes} {last : Bool} (h : sInit last s = .pair n v) : ItemShape s n v := by
  obtain ⟨w1, w2, w3, c, r, e, h1, hn0, hn, h2, h3, hv0, hv, hc⟩ := sInit_inv last s n v h
  refine ⟨w1, w2, w3, c, r, e, ?_, hn0, fun x hx => (name_iff x).1 (hn x hx),
    fun x hx => (blank_iff x).1 (h2 x hx), fun x hx => (blank_iff x).1 (h3 x hx), hv0,
    fun x hx => (value_iff x).1 (hv x hx), ?_⟩
  · intro x hx
    rcases h1 x hx with h | h
    · exact Or.inl ((blank_iff x).1 h)
    · exact Or.inr h
  · rcases hc with h | h
    · exact Or.inl ((blank_iff c).1 h)
    · right; simpa [isEol] using h

theorem ignored_scan {s : Bytes} (last : Bool) : sInit last s = .skip ↔ IgnoredShape s := by
  rw [sInit_skip]
  constructor
  · rintro ⟨w, c, r, e, hw, hc⟩
    exact ⟨w, c, r, e, fun x hx => (hw x hx).imp (blank_iff x).1 id, hc⟩
  · rintro ⟨w, c, r, e, hw, hc⟩
    exact ⟨w, c, r, e, fun x hx => (hw x hx).imp (blank_iff x).2 id, hc⟩

/-- A line of the form `name = value` followed by anything. -/
theorem line_shape (e : Env) (body n v : Bytes) (h : ItemShape (body ++ [10]) n v) :
    line e (body ++ [10]) = (match search configs n with | some c => setValue e c v | none => .stop .error e) := by
  rw [line_lf, shape_scan _ h]
  simp only
  cases search configs n <;> rfl

/-! ## The property -/

/-- **C41** (partial: lines shorter than 1024 bytes, every line ended by a line feed, numbers below 2^31).
For every list of correct lines that name documented items and give them correct values, the parser succeeds
and the last line of every item wins; items without a line get their default; comments and empty lines change
nothing; no other environment variable is touched. -/
theorem C41_partial (e : Env) (ls : List Line) (hw : ∀ l ∈ ls, l.WF) (hg : ∀ l ∈ ls, l.Good) :
    ∃ e', parse e (some (fileBytes ls)) = (.success, e') ∧ Means e e' ls := by
  obtain ⟨e', hm, hp⟩ := parse_good e ls [] hw hg
  rw [List.append_nil, run_nil] at hp
  exact ⟨e', hp, hm⟩

/-- A file with a comment, an empty line and two lines for the same item. -/
def sample : List Line :=
  [.comment [] b!" the port", .item [] b!"port" b!" " b!" " b!"80" [] .lf, .blank b!" " .crlf,
   .item b!" " b!"ssl" [] [] b!"True" b!" " .crlf, .item [] b!"port" [] b!" " b!"8080" [] .lf]

theorem sample_wf : ∀ l ∈ sample, l.WF := by
  intro l hl
  simp only [sample, List.mem_cons, List.not_mem_nil, or_false] at hl
  rcases hl with rfl | rfl | rfl | rfl | rfl <;> simp [Line.WF, BlankChar, NameChar, ValueChar, Line.bytes, Eol.bytes]

theorem sample_good : ∀ l ∈ sample, l.Good := by
  intro l hl
  simp only [sample, List.mem_cons, List.not_mem_nil, or_false] at hl
  rcases hl with rfl | rfl | rfl | rfl | rfl
  · trivial
  · exact ⟨_, _, .number, (by decide : (b!"port", b!"FLY_PORT", some b!"1234", Kind.number) ∈ documented), by
      refine ⟨by decide, by decide, by decide⟩⟩
  · trivial
  · exact ⟨_, _, .truth, (by decide : (b!"ssl", b!"FLY_SSL", some b!"false", Kind.truth) ∈ documented), Or.inr (Or.inl rfl)⟩
  · exact ⟨_, _, .number, (by decide : (b!"port", b!"FLY_PORT", some b!"1234", Kind.number) ∈ documented), by
      refine ⟨by decide, by decide, by decide⟩⟩

example : (∀ l ∈ sample, l.WF) ∧ (∀ l ∈ sample, l.Good) ∧ lastValue b!"port" sample = some b!"8080" ∧
    lastValue b!"workers" sample = none := ⟨sample_wf, sample_good, by decide, by decide⟩

/-- What the server reads afterwards: for an item set to a correct number, that number. -/
theorem C41_number (e : Env) (env v : Bytes) (h : GoodValue .number v) (hv : e env = some v) :
    valueLong e env = some (decimal v : Int) := by
  obtain ⟨_, hd, hl⟩ := h
  simp only [valueLong, hv, atoll_digits v hd]
  have h1 : clamp64 (decimal v : Int) = decimal v := by
    unfold clamp64
    rw [if_neg (by omega), if_neg (by omega)]
  rw [if_pos h1]

/-- … and for an item set to a correct truth value, that truth value. -/
theorem C41_truth (e : Env) (env v : Bytes) (h : GoodValue .truth v) (hv : e env = some v) :
    valueBool e env = some (decide (v = b!"true" ∨ v = b!"True")) := by
  simp only [valueBool, hv]
  rcases h with rfl | rfl | rfl | rfl <;> decide

example : GoodValue .number b!"8080" ∧ GoodValue .truth b!"False" ∧ decimal b!"8080" = 8080 :=
  ⟨⟨by decide, by decide, by decide⟩, Or.inr (Or.inr (Or.inr rfl)), by decide⟩

/-- An unknown item is refused, whatever follows: the result is the error that makes the server raise
`ValueError`. -/
theorem C41_unknown (e : Env) (ls : List Line) (hw : ∀ l ∈ ls, l.WF) (hg : ∀ l ∈ ls, l.Good)
    (body n v rest : Bytes) (h10 : 10 ∉ body) (hl : body.length < 1023) (hs : ItemShape (body ++ [10]) n v)
    (hu : Unknown n) : (parse e (some (fileBytes ls ++ (body ++ 10 :: rest)))).1 = .error := by
  obtain ⟨e', _, hp⟩ := parse_good e ls (body ++ 10 :: rest) hw hg
  rw [hp, run_line e' body rest h10 hl, line_shape e' body n v hs, search_unknown n hu]

/-- A line that is neither empty, nor a comment, nor of the form `name = value` is refused. -/
theorem C41_malformed (e : Env) (ls : List Line) (hw : ∀ l ∈ ls, l.WF) (hg : ∀ l ∈ ls, l.Good)
    (body rest : Bytes) (h10 : 10 ∉ body) (hl : body.length < 1023) (hi : ¬ IgnoredShape (body ++ [10]))
    (hs : ∀ n v, ¬ ItemShape (body ++ [10]) n v) :
    (parse e (some (fileBytes ls ++ (body ++ 10 :: rest)))).1 = .error := by
  obtain ⟨e', _, hp⟩ := parse_good e ls (body ++ 10 :: rest) hw hg
  rw [hp, run_line e' body rest h10 hl, line_lf]
  cases h : sInit ((body ++ [10]).length == 1023) (body ++ [10]) with
  | skip => exact absurd ((ignored_scan _).1 h) hi
  | bad => rfl
  | full => rfl
  | pair n v => exact absurd (scan_shape h) (hs n v)

/-- In particular a line without `=` that is not empty and not a comment. -/
theorem C41_no_equals (e : Env) (ls : List Line) (hw : ∀ l ∈ ls, l.WF) (hg : ∀ l ∈ ls, l.Good)
    (body rest : Bytes) (h10 : 10 ∉ body) (hl : body.length < 1023) (h61 : 61 ∉ body) (h35 : 35 ∉ body)
    (hne : ∃ c ∈ body, c ≠ 32 ∧ c ≠ 9 ∧ c ≠ 13) :
    (parse e (some (fileBytes ls ++ (body ++ 10 :: rest)))).1 = .error := by
  refine C41_malformed e ls hw hg body rest h10 hl ?_ ?_
  · rintro ⟨w, c, r, es, hww, hc⟩
    have hmem : ∀ x, x ∈ body ++ [10] → x = 35 → False := by
      intro x hx e
      rcases List.mem_append.1 hx with hx | hx
      · exact h35 (e ▸ hx)
      · simp at hx; omega
    rcases hc with hc | hc
    · exact hmem c (by rw [es]; simp) hc
    · subst hc
      have hr : r = [] ∧ body = w := by
        rcases List.eq_nil_or_concat r with hr | ⟨r', x, hr⟩
        · subst hr; exact ⟨rfl, (List.append_inj' es rfl).1⟩
        · exfalso
          have : body ++ [10] = (w ++ 10 :: r') ++ [x] := by rw [es, hr]; simp
          have := (List.append_inj' this rfl).1
          exact h10 (by rw [this]; simp)
      obtain ⟨d, hd, hd1, hd2, hd3⟩ := hne
      rw [hr.2] at hd
      rcases hww d hd with h | h
      · unfold BlankChar at h; omega
      · omega
  · rintro n v ⟨w1, w2, w3, c, r, es, _⟩
    have : 61 ∈ body ++ [10] := by rw [es]; simp
    rcases List.mem_append.1 this with h | h
    · exact h61 h
    · simp at h

example : ItemShape (b!"prot = 80" ++ [10]) b!"prot" b!"80" ∧ Unknown b!"prot" := by
  refine ⟨⟨[], [32], [32], 10, [], rfl, by simp, by simp, by simp [NameChar], by simp [BlankChar], by simp [BlankChar],
    by simp, by simp [ValueChar], Or.inr (Or.inr rfl)⟩, ?_⟩
  intro env d k h
  simp [documented] at h

example : (∃ c ∈ b!"port 80", c ≠ 32 ∧ c ≠ 9 ∧ c ≠ 13) ∧ 61 ∉ b!"port 80" := by decide

/-! ## Where the property does not hold -/

/-- A last line without a line feed is refused, although it is a correct line. -/
theorem C41_last_line_refuted (e : Env) (ls : List Line) (hw : ∀ l ∈ ls, l.WF) (hg : ∀ l ∈ ls, l.Good)
    (n v : Bytes) (hn0 : n ≠ []) (hn : ∀ x ∈ n, NameChar x) (hv0 : v ≠ []) (hv : ∀ x ∈ v, ValueChar x)
    (hl : n.length + v.length < 1022) :
    (parse e (some (fileBytes ls ++ (n ++ 61 :: v)))).1 = .error := by
  obtain ⟨e', _, hp⟩ := parse_good e ls (n ++ 61 :: v) hw hg
  have h10 : 10 ∉ n ++ 61 :: v := by
    intro h
    rcases List.mem_append.1 h with h | h
    · have := hn _ h; unfold NameChar at this; omega
    · rcases List.mem_cons.1 h with h | h
      · omega
      · have := hv _ h; unfold ValueChar at this; omega
  have hlen : (n ++ 61 :: v).length < 1023 := by simp; omega
  rw [hp, run_chunk e' _ _ _ (by simp) (fgets_last (n ++ 61 :: v) 1023 h10 (by omega))]
  have hf : ((n ++ 61 :: v).length == 1023) = false := by simp; omega
  have hbad : sInit false (n ++ 61 :: v) = .bad := by
    cases n with
    | nil => exact absurd rfl hn0
    | cons a n' =>
      have hn' : ∀ x ∈ a :: n', nameC x = true := fun x hx => (name_iff x).2 (hn x hx)
      have ha := hn' a (by simp)
      rw [List.cons_append, sInit, if_neg (by simp [(name_not_blank ha).1]), if_pos ha, ← List.cons_append,
        sName_run false _ hn']
      cases v with
      | nil => exact absurd rfl hv0
      | cons b v' =>
        have hv' : ∀ x ∈ b :: v', valueC x = true := fun x hx => (value_iff x).2 (hv x hx)
        have hb := hv' b (by simp)
        have h1 : sValue false ([] ++ a :: n') [] (b :: v') = .bad := by
          have := sValue_run false ([] ++ a :: n') (b :: v') hv' [] []
          rw [List.append_nil] at this
          rw [this]; rfl
        have h2 : sEqual false ([] ++ a :: n') (b :: v') = .bad := by
          rw [sEqual, if_neg (by simp [(value_not_blank hb).1]), if_pos hb]; exact h1
        simpa [sName, isBlank] using h2
  have : line e' (n ++ 61 :: v) = .stop .error e' := by
    unfold line
    rw [hf, hbad]
  rw [this]

example : (∀ x ∈ b!"port", NameChar x) ∧ (∀ x ∈ b!"80", ValueChar x) := by simp [NameChar, ValueChar]

/-- A last line without a line feed whose value is followed by a blank makes the parser read and write
outside its line buffer. -/
theorem C41_last_blank_refuted (e : Env) (ls : List Line) (hw : ∀ l ∈ ls, l.WF) (hg : ∀ l ∈ ls, l.Good)
    (n v text : Bytes) (hn0 : n ≠ []) (hn : ∀ x ∈ n, NameChar x) (hv0 : v ≠ []) (hv : ∀ x ∈ v, ValueChar x)
    (ht : 10 ∉ text ∧ 13 ∉ text) (hl : n.length + v.length + text.length ≤ 1021) :
    (parse e (some (fileBytes ls ++ (n ++ 61 :: (v ++ 32 :: text))))).1 = .crash := by
  obtain ⟨e', _, hp⟩ := parse_good e ls (n ++ 61 :: (v ++ 32 :: text)) hw hg
  have hno : ∀ x ∈ n ++ 61 :: (v ++ 32 :: text), x ≠ 10 ∧ x ≠ 13 := by
    intro x h
    rcases List.mem_append.1 h with h | h
    · have := hn _ h; unfold NameChar at this; omega
    · rcases List.mem_cons.1 h with h | h
      · omega
      · rcases List.mem_append.1 h with h | h
        · have := hv _ h; unfold ValueChar at this; omega
        · rcases List.mem_cons.1 h with h | h
          · omega
          · exact ⟨fun e => ht.1 (e ▸ h), fun e => ht.2 (e ▸ h)⟩
  have hlen : (n ++ 61 :: (v ++ 32 :: text)).length ≤ 1023 := by simp; omega
  rw [hp, run_chunk e' _ _ _ (by simp) (fgets_last _ 1023 (fun h => (hno 10 h).1 rfl) hlen)]
  have hs : ItemShape (n ++ 61 :: (v ++ 32 :: text)) n v :=
    ⟨[], [], [], 32, text, by simp, by simp, hn0, hn, by simp, by simp, hv0, hv, Or.inl (Or.inl rfl)⟩
  have hany : (n ++ 61 :: (v ++ 32 :: text)).any isEol = false := by
    rw [List.any_eq_false]
    intro x hx
    have := hno x hx
    simp [isEol, this]
  have : line e' (n ++ 61 :: (v ++ 32 :: text)) = .stop .crash e' := by
    unfold line
    rw [shape_scan _ hs, hany]
    rfl
  rw [this]

/-- The same for a line in the middle of a file that is longer than the buffer. -/
theorem C41_long_line_refuted (e : Env) (ls : List Line) (hw : ∀ l ∈ ls, l.WF) (hg : ∀ l ∈ ls, l.Good)
    (n v text rest : Bytes) (hn0 : n ≠ []) (hn : ∀ x ∈ n, NameChar x) (hv0 : v ≠ []) (hv : ∀ x ∈ v, ValueChar x)
    (ht : 10 ∉ text ∧ 13 ∉ text) (hl : n.length + v.length + text.length = 1021) :
    (parse e (some (fileBytes ls ++ (n ++ 61 :: (v ++ 32 :: text)) ++ rest))).1 = .crash := by
  rw [List.append_assoc]
  obtain ⟨e', _, hp⟩ := parse_good e ls ((n ++ 61 :: (v ++ 32 :: text)) ++ rest) hw hg
  have hno : ∀ x ∈ n ++ 61 :: (v ++ 32 :: text), x ≠ 10 ∧ x ≠ 13 := by
    intro x h
    rcases List.mem_append.1 h with h | h
    · have := hn _ h; unfold NameChar at this; omega
    · rcases List.mem_cons.1 h with h | h
      · omega
      · rcases List.mem_append.1 h with h | h
        · have := hv _ h; unfold ValueChar at this; omega
        · rcases List.mem_cons.1 h with h | h
          · omega
          · exact ⟨fun e => ht.1 (e ▸ h), fun e => ht.2 (e ▸ h)⟩
  have hlen : (n ++ 61 :: (v ++ 32 :: text)).length = 1023 := by simp; omega
  have hfg := fgets_full (n ++ 61 :: (v ++ 32 :: text)) rest (fun h => (hno 10 h).1 rfl)
  rw [hlen] at hfg
  rw [hp, run_chunk e' _ _ _ (by simp) hfg]
  have hs : ItemShape (n ++ 61 :: (v ++ 32 :: text)) n v :=
    ⟨[], [], [], 32, text, by simp, by simp, hn0, hn, by simp, by simp, hv0, hv, Or.inl (Or.inl rfl)⟩
  have hany : (n ++ 61 :: (v ++ 32 :: text)).any isEol = false := by
    rw [List.any_eq_false]
    intro x hx
    have := hno x hx
    simp [isEol, this]
  have : line e' (n ++ 61 :: (v ++ 32 :: text)) = .stop .crash e' := by
    unfold line
    rw [shape_scan _ hs, hany]
    rfl
  rw [this]

example : b!"port".length + b!"80".length + (List.replicate 1015 32).length = 1021 := by decide +kernel

/-- The rest of a comment line after its first 1023 bytes is read as a line of its own: the result is that of
the file with only that rest. -/
theorem C41_long_comment_refuted (e : Env) (text rest : Bytes) (h10 : 10 ∉ text) (hl : text.length = 1022) :
    parse e (some (35 :: text ++ rest)) = parse e (some rest) := by
  have hfg := fgets_full (35 :: text) rest (by simp [h10])
  rw [show (35 :: text).length = 1023 by simp [hl]] at hfg
  rw [parse_run, run_chunk _ _ _ _ (by simp) hfg, parse_run]
  have : line (setDefaults configs e) (35 :: text) = .next (setDefaults configs e) := by
    have hi : IgnoredShape (35 :: text) := ⟨[], 35, text, rfl, by simp, Or.inl rfl⟩
    unfold line
    rw [(ignored_scan _).2 hi]
  rw [this]

/-- So a comment can set an item. -/
example (e : Env) : ∃ e', parse e (some (35 :: List.replicate 1022 32 ++ (b!"port=80" ++ [10]))) = (.success, e') ∧
    e' b!"FLY_PORT" = some b!"80" := by
  rw [C41_long_comment_refuted e (List.replicate 1022 32) _ (fun h => by have := List.eq_of_mem_replicate h; omega)
    List.length_replicate]
  have h := C41_partial e [.item [] b!"port" [] [] b!"80" [] .lf]
    (by simp [Line.WF, NameChar, ValueChar, Line.bytes, Eol.bytes])
    (by
      intro l hl
      simp only [List.mem_singleton] at hl
      subst hl
      exact ⟨_, _, .number, (by decide : (b!"port", b!"FLY_PORT", some b!"1234", Kind.number) ∈ documented),
        by refine ⟨by decide, by decide, by decide⟩⟩)
  obtain ⟨e', hp, hm⟩ := h
  exact ⟨e', hp, hm.1 b!"port" b!"FLY_PORT" (some b!"1234") .number (by decide)⟩

/-- Text after the value and a blank is ignored: the line is not refused but means the same as without it. -/
theorem C41_trailing_text_refuted (e : Env) (ls : List Line) (hw : ∀ l ∈ ls, l.WF) (hg : ∀ l ∈ ls, l.Good)
    (n v text rest : Bytes) (hn0 : n ≠ []) (hn : ∀ x ∈ n, NameChar x) (hv0 : v ≠ []) (hv : ∀ x ∈ v, ValueChar x)
    (ht : 10 ∉ text) (hl : n.length + v.length + text.length < 1021) :
    parse e (some (fileBytes ls ++ ((n ++ 61 :: (v ++ 32 :: text)) ++ 10 :: rest))) =
      parse e (some (fileBytes ls ++ ((n ++ 61 :: v) ++ 10 :: rest))) := by
  obtain ⟨e', ha, hr⟩ := run_good ls (setDefaults configs e) [] hw hg
  have key : ∀ t, parse e (some (fileBytes ls ++ t)) = run ((run (setDefaults configs e) (fileBytes ls ++ [])).2) t := by
    intro t
    rw [parse_run, hr, run_nil]
    exact run_good_env ls (setDefaults configs e) e' t hw hg hr
  have h10 : 10 ∉ n ++ 61 :: v := by
    intro h
    rcases List.mem_append.1 h with h | h
    · have := hn _ h; unfold NameChar at this; omega
    · rcases List.mem_cons.1 h with h | h
      · omega
      · have := hv _ h; unfold ValueChar at this; omega
  have h10' : 10 ∉ n ++ 61 :: (v ++ 32 :: text) := by
    intro h
    apply h10
    simp only [List.mem_append, List.mem_cons] at h ⊢
    rcases h with h | h | h | h | h
    · exact Or.inl h
    · exact Or.inr (Or.inl h)
    · exact Or.inr (Or.inr h)
    · omega
    · exact absurd h ht
  rw [key, key, run_line _ _ rest h10' (by simp; omega), run_line _ _ rest h10 (by simp; omega)]
  rw [line_shape _ _ n v ⟨[], [], [], 32, text ++ [10], by simp, by simp, hn0, hn, by simp, by simp, hv0, hv, Or.inl (Or.inl rfl)⟩]
  rw [line_shape _ _ n v ⟨[], [], [], 10, [], by simp, by simp, hn0, hn, by simp, by simp, hv0, hv, Or.inr (Or.inr rfl)⟩]

example (e : Env) : parse e (some (fileBytes [] ++ ((b!"port" ++ 61 :: (b!"80" ++ 32 :: b!"= 90 %")) ++ 10 :: []))) =
    parse e (some (fileBytes [] ++ ((b!"port" ++ 61 :: b!"80") ++ 10 :: []))) :=
  C41_trailing_text_refuted e [] (by simp) (by simp) _ _ _ _ (by decide) (by simp [NameChar]) (by decide)
    (by simp [ValueChar]) (by decide) (by decide)

/-- A number followed by other value characters is not refused: the item is set and the server uses the
digits in front. -/
theorem C41_lax_number_refuted (e : Env) (n env v : Bytes) (d : Option Bytes) (x : Nat) (tail : Bytes)
    (hd : (n, env, d, .number) ∈ documented) (hv : GoodValue .number v) (hx : ValueChar x ∧ ¬ (48 ≤ x ∧ x ≤ 57))
    (ht : ∀ y ∈ tail, ValueChar y) (hl : n.length + v.length + tail.length < 1020) :
    ∃ e', parse e (some ((n ++ 61 :: (v ++ x :: tail)) ++ [10])) = (.success, e') ∧
      valueLong e' env = some (decimal v : Int) := by
  obtain ⟨c, hc, e1, e2, e3, e4⟩ := documented_mem hd
  obtain ⟨hv0, hvd, hvl⟩ := hv
  have hnn := documented_names n env d _ hd
  have hval : ∀ y ∈ v ++ x :: tail, ValueChar y := by
    intro y hy
    rcases List.mem_append.1 hy with h | h
    · have := hvd y h; unfold ValueChar; omega
    · rcases List.mem_cons.1 h with h | h
      · rw [h]; exact hx.1
      · exact ht y h
  have h10 : 10 ∉ n ++ 61 :: (v ++ x :: tail) := by
    intro h
    rcases List.mem_append.1 h with h | h
    · have := hnn.2 _ h; unfold NameChar at this; omega
    · rcases List.mem_cons.1 h with h | h
      · omega
      · have := hval _ h; unfold ValueChar at this; omega
  have hat := atoll_front v x tail hv0 hvd hx.2
  have hflag : c.flag = .integer := by
    cases hf : c.flag <;> simp [hf, kindOf] at e4 <;> rfl
  have hacc : accepts c.flag (v ++ x :: tail) = true := by
    have hg := accepts_good .integer v ⟨hv0, hvd, hvl⟩
    rw [hflag]
    simp only [accepts] at hg ⊢
    have : atoi (v ++ x :: tail) = atoi v := by
      rw [atoi, atoi, hat, atoll_digits v hvd]
    rw [this]
    cases v with
    | nil => exact absurd rfl hv0
    | cons a v' => exact hg
  refine ⟨(setDefaults configs e).put c.env (some (v ++ x :: tail)), ?_, ?_⟩
  · rw [parse_run, show (n ++ 61 :: (v ++ x :: tail)) ++ [10] = (n ++ 61 :: (v ++ x :: tail)) ++ 10 :: [] from rfl,
      run_line _ _ [] h10 (by simp; omega)]
    rw [line_shape _ _ n (v ++ x :: tail) ⟨[], [], [], 10, [], by simp, by simp, hnn.1, hnn.2, by simp, by simp, by simp, hval, Or.inr (Or.inr rfl)⟩]
    rw [← e1, search_some _ _ hc names_nodup]
    simp only [setValue, hacc, if_true]
    exact run_nil _
  · rw [← e2]
    simp only [valueLong, put_same, hat]
    have h1 : clamp64 (decimal v : Int) = decimal v := by
      unfold clamp64
      rw [if_neg (by omega), if_neg (by omega)]
    rw [if_pos h1]

/-- `port = 80x` is accepted. -/
example (e : Env) : ∃ e', parse e (some ((b!"port" ++ 61 :: (b!"80" ++ 120 :: [])) ++ [10])) = (.success, e') ∧
    valueLong e' b!"FLY_PORT" = some 80 :=
  C41_lax_number_refuted e b!"port" b!"FLY_PORT" b!"80" (some b!"1234") 120 [] (by decide)
    ⟨by decide, by decide, by decide⟩ (by simp [ValueChar]) (by simp) (by decide)

/-- A value for a number item that starts with a letter ends the whole process, with the exit status of
success. -/
theorem C41_exit_refuted (e : Env) (n env : Bytes) (d : Option Bytes) (a : Nat) (tail rest : Bytes)
    (hd : (n, env, d, .number) ∈ documented) (ha : (65 ≤ a ∧ a ≤ 90) ∨ (97 ≤ a ∧ a ≤ 122))
    (ht : ∀ y ∈ tail, ValueChar y) (hl : n.length + tail.length < 1021) :
    (parse e (some ((n ++ 61 :: (a :: tail)) ++ 10 :: rest))).1 = .exit 0 := by
  obtain ⟨c, hc, e1, e2, e3, e4⟩ := documented_mem hd
  have hnn := documented_names n env d _ hd
  have hval : ∀ y ∈ a :: tail, ValueChar y := by
    intro y h
    rcases List.mem_cons.1 h with h | h
    · rw [h]; unfold ValueChar; omega
    · exact ht y h
  have h10 : 10 ∉ n ++ 61 :: (a :: tail) := by
    intro h
    rcases List.mem_append.1 h with h | h
    · have := hnn.2 _ h; unfold NameChar at this; omega
    · rcases List.mem_cons.1 h with h | h
      · omega
      · have := hval _ h; unfold ValueChar at this; omega
  have hflag : c.flag = .integer := by
    cases hf : c.flag <;> simp [hf, kindOf] at e4 <;> rfl
  have hat : atoll (a :: tail) = 0 := by
    have h1 : isSpace a = false := by simp [isSpace]; omega
    rw [atoll, List.dropWhile_cons_of_neg (by simp [h1])]
    have hdg : isDigit a = false := by simp [isDigit]; omega
    split
    · rename_i e; simp at e; omega
    · rename_i e; simp at e; omega
    · rw [digitsVal, if_neg (by simp [hdg])]; rfl
  have hacc : accepts c.flag (a :: tail) = false := by
    rw [hflag]
    have : a ≠ 48 := by omega
    simp [accepts, atoi, hat, clamp64, wrap32, this]
  rw [parse_run, run_line _ _ rest h10 (by simp; omega)]
  rw [line_shape _ _ n (a :: tail) ⟨[], [], [], 10, [], by simp, by simp, hnn.1, hnn.2, by simp, by simp, by simp, hval, Or.inr (Or.inr rfl)⟩]
  rw [← e1, search_some _ _ hc names_nodup]
  simp only [setValue, hacc]
  rfl

example (e : Env) : (parse e (some ((b!"workers" ++ 61 :: (97 :: b!"uto")) ++ 10 :: []))).1 = .exit 0 :=
  C41_exit_refuted e b!"workers" b!"FLY_WORKER" (some b!"1") 97 b!"uto" [] (by decide) (by omega) (by simp [ValueChar]) (by decide)

/-- A refused file has already changed the items of the lines in front of the bad line. -/
theorem C41_half_applied_refuted (e : Env) (ls : List Line) (hw : ∀ l ∈ ls, l.WF) (hg : ∀ l ∈ ls, l.Good)
    (n v rest : Bytes) (hn0 : n ≠ []) (hn : ∀ x ∈ n, NameChar x) (hv0 : v ≠ []) (hv : ∀ x ∈ v, ValueChar x)
    (hu : Unknown n) (hl : n.length + v.length < 1022) :
    ∃ e', parse e (some (fileBytes ls ++ ((n ++ 61 :: v) ++ 10 :: rest))) = (.error, e') ∧ Means e e' ls := by
  obtain ⟨e', hm, hp⟩ := parse_good e ls ((n ++ 61 :: v) ++ 10 :: rest) hw hg
  have h10 : 10 ∉ n ++ 61 :: v := by
    intro h
    rcases List.mem_append.1 h with h | h
    · have := hn _ h; unfold NameChar at this; omega
    · rcases List.mem_cons.1 h with h | h
      · omega
      · have := hv _ h; unfold ValueChar at this; omega
  refine ⟨e', ?_, hm⟩
  rw [hp, run_line e' _ rest h10 (by simp; omega), line_shape e' _ n v
    ⟨[], [], [], 10, [], by simp, by simp, hn0, hn, by simp, by simp, hv0, hv, Or.inr (Or.inr rfl)⟩, search_unknown n hu]

end Fly.Conf
