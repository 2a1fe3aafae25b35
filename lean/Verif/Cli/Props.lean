import Verif.Cli.Model
import Verif.Conf.Props

/-! # C92, C93: command line options and configuration files -/

namespace Fly.Cli
open Fly.Conf

/-- The configuration items that have a command line option, as `fly --help` names them. -/
def optionItems : List Bytes := [
  b!"mount_max", b!"workers", b!"encode_threshold", b!"host", b!"port", b!"ssl", b!"ssl_crt_path",
  b!"ssl_key_path", b!"pidfile_path", b!"index_path", b!"log_path", b!"log_stdout", b!"log_stderr",
  b!"backlog", b!"max_response_content_length", b!"max_request_content_length", b!"request_timeout"]

/-- A correct option value: text of configuration characters, of the kind of the item, not too long. -/
def GoodOption (n v : Bytes) : Prop :=
  v ≠ [] ∧ (∀ c ∈ v, ValueChar c) ∧ v.length < 990 ∧
    ∀ env d k, (n, env, d, k) ∈ documented → GoodValue k v

/-- The value an item has: the option's, else the last one in the file, else the default. -/
def chosen (opt : Bytes → Option Bytes) (ls : List Line) (n : Bytes) (d : Option Bytes) : Option Bytes :=
  match (if n ∈ optionItems then opt n else none) with
  | some v => some v
  | none => match lastValue n ls with | some v => some v | none => d

def optLine (n v : Bytes) : Line := .item [] n b!" " b!" " v [] .lf

def optLines (opt : Bytes → Option Bytes) (ns : List Bytes) : List Line :=
  ns.filterMap (fun n => (opt n).map (optLine n))

theorem optionText_eq (opt : Bytes → Option Bytes) :
    optionText opt = fileBytes (optLines opt optionItems) := by
  have e : kwargsKeys.filter (· ∈ confParameters) = optionItems := by decide +kernel
  have key : ∀ ns : List Bytes, ns.flatMap (fun k => if k ∈ confParameters then
      (match opt k with | some v => k ++ b!" = " ++ v ++ [10] | none => []) else []) =
      fileBytes (optLines opt (ns.filter (· ∈ confParameters))) := by
    intro ns
    induction ns with
    | nil => rfl
    | cons n ns ih =>
      rw [List.flatMap_cons, ih, List.filter_cons]
      by_cases h : n ∈ confParameters
      · simp only [h, if_true, decide_true]
        cases ho : opt n with
        | none => simp [optLines, ho, fileBytes]
        | some v => simp [optLines, ho, fileBytes, optLine, Line.bytes, Eol.bytes]
      · simp [h]
  exact (key kwargsKeys).trans (by rw [e])

theorem lastValue_append (n : Bytes) (a b : List Line) :
    lastValue n (a ++ b) = (match lastValue n b with | some v => some v | none => lastValue n a) := by
  induction a with
  | nil => cases h : lastValue n b <;> simp [lastValue, h]
  | cons l a ih =>
    rw [List.cons_append, lastValue_cons, ih, lastValue_cons]
    cases lastValue n b <;> rfl

theorem lastValue_opt (opt : Bytes → Option Bytes) (n : Bytes) : ∀ ns : List Bytes,
    lastValue n (optLines opt ns) = if n ∈ ns then opt n else none := by
  intro ns
  induction ns with
  | nil => rfl
  | cons m ns ih =>
    have hstep : optLines opt (m :: ns) = ((opt m).map (optLine m)).toList ++ optLines opt ns := by
      simp only [optLines, List.filterMap_cons]
      cases opt m <;> rfl
    rw [hstep, lastValue_append, ih]
    by_cases hm : m = n
    · subst hm
      cases ho : opt m with
      | none => simp [lastValue]
      | some v => by_cases hn : m ∈ ns <;> simp [hn, lastValue, optLine]
    · have hnm : n ≠ m := fun e => hm e.symm
      have : lastValue n ((opt m).map (optLine m)).toList = none := by
        cases opt m with
        | none => rfl
        | some v => simp [lastValue, optLine, hm]
      rw [this]
      by_cases hn : n ∈ ns
      · simp only [hn, if_true, List.mem_cons, or_true]
        cases opt n <;> rfl
      · simp [hn, hnm]

theorem optionItems_documented : ∀ n ∈ optionItems, ∃ x ∈ documented, x.1 = n := by decide +kernel
theorem optionItems_short : ∀ n ∈ optionItems, n ≠ [] ∧ (∀ c ∈ n, NameChar c) ∧ n.length < 29 := by
  have h : optionItems.all (fun n => !n.isEmpty && n.all nameC && decide (n.length < 29)) = true := by
    decide +kernel
  intro n hn
  have := List.all_eq_true.1 h n hn
  simp only [Bool.and_eq_true, List.all_eq_true, decide_eq_true_eq, Bool.not_eq_true'] at this
  refine ⟨?_, fun c hc => (name_iff c).1 (this.1.2 c hc), this.2⟩
  intro e; rw [e] at this; simp at this

/-- **C92_partial.**  For every configuration file of correct lines, all ended by a line feed, and
every set of correct option values, the server reads the configuration without error, and every item
has the value of its option if one was given, else that of the last line naming it, else the
default.  Missing: files whose last line is not ended (`C92_last_line_refuted`) and values with other
characters (`C92_space_refuted`). -/
theorem C92_partial (e : Env) (p : Bytes) (ls : List Line) (opt : Bytes → Option Bytes)
    (hw : ∀ l ∈ ls, l.WF) (hg : ∀ l ∈ ls, l.Good)
    (ho : ∀ n ∈ optionItems, ∀ v, opt n = some v → GoodOption n v) :
    ∃ text e', effective none (some ⟨p, fileBytes ls⟩) opt = some text ∧
      parse e (some text) = (.success, e') ∧
      ∀ n env d k, (n, env, d, k) ∈ documented → e' env = chosen opt ls n d := by
  have hb : fileBytes ls ++ optionText opt = fileBytes (ls ++ optLines opt optionItems) := by
    rw [optionText_eq]; simp [fileBytes]
  have hl : ∀ l ∈ optLines opt optionItems, l.WF ∧ l.Good := by
    intro l hl
    obtain ⟨n, hn, hv⟩ := List.mem_filterMap.1 hl
    cases hov : opt n with
    | none => rw [hov] at hv; cases hv
    | some v =>
      rw [hov] at hv
      simp only [Option.map_some, Option.some.injEq] at hv
      subst hv
      obtain ⟨h1, h2, h3, h4⟩ := ho n hn v hov
      obtain ⟨s1, s2, s3⟩ := optionItems_short n hn
      refine ⟨?_, ?_⟩
      · refine ⟨by simp, by simp [BlankChar], by simp [BlankChar], by simp, s1, s2, h1, h2, ?_⟩
        simp [Line.bytes, Eol.bytes]; omega
      · obtain ⟨x, hx, rfl⟩ := optionItems_documented n hn
        exact ⟨x.2.1, x.2.2.1, x.2.2.2, hx, h4 _ _ _ hx⟩
  obtain ⟨e', hp, hm⟩ := C41_partial e (ls ++ optLines opt optionItems)
    (fun l h => (List.mem_append.1 h).elim (hw l) (fun h => (hl l h).1))
    (fun l h => (List.mem_append.1 h).elim (hg l) (fun h => (hl l h).2))
  refine ⟨_, e', rfl, by simpa [tempFile, hb] using hp, ?_⟩
  intro n env d k hd
  rw [hm.1 n env d k hd, lastValue_append, lastValue_opt, chosen]
  cases (if n ∈ optionItems then opt n else none) <;> rfl

def demoOpt : Bytes → Option Bytes := fun k => if k = b!"port" then some b!"8080" else none

example : (∀ l ∈ sample, l.WF) ∧ (∀ l ∈ sample, l.Good) := ⟨sample_wf, sample_good⟩

example : ∀ n ∈ optionItems, ∀ v, demoOpt n = some v → GoodOption n v := by
  intro n _ v h
  unfold demoOpt at h
  split at h
  · rename_i e
    subst e
    simp only [Option.some.injEq] at h
    subst h
    refine ⟨by decide, by simp [ValueChar], by decide, ?_⟩
    intro env d k hm
    obtain ⟨c, hc, e1, e2, e3, e4⟩ := documented_mem hm
    have : k = .number := by
      have hall : ∀ x ∈ documented, x.1 = b!"port" → x.2.2.2 = .number := by decide +kernel
      exact hall _ hm rfl
    subst this
    exact ⟨by decide, by decide, by decide⟩
  · cases h

example : chosen demoOpt sample b!"port" (some b!"1234") = some b!"8080" ∧
    chosen demoOpt sample b!"ssl" (some b!"false") = some b!"True" := by decide +kernel

theorem optionText_single (k w : Bytes) (hk : k ∈ optionItems) :
    optionText (fun x => if x = k then some w else none) = k ++ b!" = " ++ w ++ [10] := by
  rw [optionText_eq]
  have key : ∀ ns : List Bytes, ns.Nodup → k ∈ ns →
      optLines (fun x => if x = k then some w else none) ns = [optLine k w] := by
    intro ns
    induction ns with
    | nil => intro _ h; simp at h
    | cons m ns ih =>
      intro hnd hm
      rw [List.nodup_cons] at hnd
      by_cases hmk : m = k
      · subst hmk
        have : optLines (fun x => if x = m then some w else none) ns = [] := by
          rw [optLines, List.filterMap_eq_nil_iff]
          intro x hx
          have : x ≠ m := fun e => hnd.1 (e ▸ hx)
          simp [this]
        simp only [optLines, List.filterMap_cons, if_true, Option.map_some]
        rw [show ns.filterMap _ = _ from this]
      · have hm' : k ∈ ns := by
          rcases List.mem_cons.1 hm with h | h
          · exact absurd h.symm hmk
          · exact h
        have := ih hnd.2 hm'
        simp only [optLines, List.filterMap_cons, if_neg hmk, Option.map_none]
        exact this
  rw [key optionItems (by decide +kernel) hk]
  simp [fileBytes, optLine, Line.bytes, Eol.bytes]

/-- **C92_last_line_refuted.**  When the file does not end with a line feed, the first option is glued
to the file's last line: for every file ending in `n=v` with a numeric item and every single option
`k`, reading succeeds, and the option has no effect: `k` keeps the file's value or default. -/
theorem C92_last_line_refuted (e : Env) (p : Bytes) (ls : List Line) (hw : ∀ l ∈ ls, l.WF)
    (hg : ∀ l ∈ ls, l.Good) (n env v : Bytes) (d : Option Bytes)
    (hn : (n, env, d, .number) ∈ documented) (hv : GoodValue .number v) (hvl : v.length < 12)
    (k w : Bytes) (hk : k ∈ optionItems) (hkn : k ≠ n) (hwl : 10 ∉ w) (hwlen : w.length < 900) :
    ∃ text e', effective none (some ⟨p, fileBytes ls ++ (n ++ 61 :: v)⟩)
        (fun x => if x = k then some w else none) = some text ∧
      parse e (some text) = (.success, e') ∧
      ∀ env' d' kd, (k, env', d', kd) ∈ documented →
        e' env' = (match lastValue k ls with | some u => some u | none => d') := by
  have hot : optionText (fun x => if x = k then some w else none) = k ++ b!" = " ++ w ++ [10] := by
    exact optionText_single k w hk
  obtain ⟨kn0, knc, klen⟩ := optionItems_short k hk
  obtain ⟨hv0, hvd, hvlt⟩ := hv
  obtain ⟨c, hc, e1, e2, e3, e4⟩ := documented_mem hn
  have hnn := documented_names n env d _ hn
  have hnlen : n.length < 29 := by
    have : ∀ x ∈ documented, x.1.length < 29 := by decide +kernel
    exact this _ hn
  obtain ⟨k0, kr, rfl⟩ := List.exists_cons_of_ne_nil kn0
  have hval : ∀ y ∈ v ++ k0 :: kr, ValueChar y := by
    intro y hy
    rcases List.mem_append.1 hy with hy | hy
    · have := hvd y hy; unfold ValueChar; omega
    · have := knc y hy; unfold NameChar at this; unfold ValueChar; omega
  -- the glued line
  have hbody : 10 ∉ n ++ 61 :: (v ++ k0 :: kr ++ 32 :: (b!"= " ++ w)) := by
    intro h
    rcases List.mem_append.1 h with h | h
    · have := hnn.2 _ h
      unfold NameChar at this; omega
    · rcases List.mem_cons.1 h with h | h
      · omega
      · rcases List.mem_append.1 h with h | h
        · have := hval _ h; unfold ValueChar at this; omega
        · rcases List.mem_cons.1 h with h | h
          · omega
          · rcases List.mem_append.1 h with h | h
            · simp at h
            · exact hwl h
  have hshape : ItemShape ((n ++ 61 :: (v ++ k0 :: kr ++ 32 :: (b!"= " ++ w))) ++ [10]) n (v ++ k0 :: kr) :=
    ⟨[], [], [], 32, b!"= " ++ w ++ [10], by simp, by simp, hnn.1, hnn.2, by simp, by simp, by simp,
      hval, Or.inl (Or.inl rfl)⟩
  obtain ⟨e0, hm0, hp0⟩ := parse_good e ls (n ++ 61 :: v ++ (k0 :: kr ++ b!" = " ++ w ++ [10])) hw hg
  have hlen : (n ++ 61 :: (v ++ k0 :: kr ++ 32 :: (b!"= " ++ w))).length < 1023 := by
    simp only [List.length_append, List.length_cons, List.length_nil] at klen ⊢
    omega
  have hsplit : n ++ 61 :: v ++ (k0 :: kr ++ b!" = " ++ w ++ [10]) =
      (n ++ 61 :: (v ++ k0 :: kr ++ 32 :: (b!"= " ++ w))) ++ 10 :: [] := by
    simp
  have hacc : accepts c.flag (v ++ k0 :: kr) = true := by
    have hfl : c.flag = .integer := by
      cases hf : c.flag <;> rw [hf] at e4 <;> simp [kindOf] at e4 ⊢
    have hx : ¬ (48 ≤ k0 ∧ k0 ≤ 57) := by
      have := knc k0 (by simp)
      unfold NameChar at this; omega
    rw [hfl, accepts]
    have hat : atoi (v ++ k0 :: kr) = decimal v := by
      have h := atoi_digits v hvd hvlt
      rw [atoi, atoll_digits v hvd] at h
      rw [atoi, atoll_front v k0 kr hv0 hvd hx, h]
    rw [hat]
    have hhead : (v ++ k0 :: kr).head? = v.head? := by
      cases v with
      | nil => exact absurd rfl hv0
      | cons => rfl
    rw [hhead]
    have := accepts_good .integer v ⟨hv0, hvd, hvlt⟩
    rw [accepts, atoi_digits v hvd hvlt] at this
    exact this
  have hsearch : search configs n = some c := by
    have := search_some configs c hc names_nodup
    rwa [e1] at this
  have hrun : parse e (some (fileBytes ls ++ (n ++ 61 :: v ++ (k0 :: kr ++ b!" = " ++ w ++ [10])))) =
      (.success, Env.put e0 env (some (v ++ k0 :: kr))) := by
    rw [hp0, hsplit, run_line e0 _ _ hbody hlen, line_shape e0 _ n _ hshape, hsearch]
    simp only [setValue, hacc, if_true, run_nil, e2]
  refine ⟨_, Env.put e0 env (some (v ++ k0 :: kr)), rfl, ?_, ?_⟩
  · simp only [tempFile, Option.getD_some, hot]
    rw [List.append_assoc (fileBytes ls)]
    exact hrun
  · intro env' d' kd hd'
    have hne : env' ≠ env := by
      intro he
      obtain ⟨c', hc', f1, f2, f3, f4⟩ := documented_mem hd'
      have : c' = c := env_inj hc' hc (by rw [f2, e2, he])
      subst this
      exact hkn (by rw [← f1, ← e1])
    rw [put_other _ _ _ _ hne, hm0.1 _ env' d' kd hd']
    cases lastValue (k0 :: kr) ls <;> rfl

/-- Non-vacuity: a file ending in `workers=4` and the option `--port 80`. -/
example : (b!"workers", b!"FLY_WORKER", some b!"1", Kind.number) ∈ documented ∧
    GoodValue .number b!"4" ∧ b!"port" ∈ optionItems := by
  refine ⟨by decide, ⟨by decide, by decide, by decide⟩, by decide⟩

/-- **C92_space_refuted.**  A path with a space in it is cut there: for every text item with an option,
the value in force is the part before the space. -/
theorem C92_space_refuted (e : Env) (n env a b : Bytes) (d : Option Bytes)
    (hd : (n, env, d, .text) ∈ documented) (hn : n ∈ optionItems)
    (ha : a ≠ [] ∧ ∀ c ∈ a, ValueChar c) (hb : 10 ∉ b) (hl : a.length + b.length < 900) :
    ∃ text e', effective none none (fun x => if x = n then some (a ++ 32 :: b) else none) = some text ∧
      parse e (some text) = (.success, e') ∧ e' env = some a := by
  obtain ⟨c, hc, e1, e2, e3, e4⟩ := documented_mem hd
  have hnn := documented_names n env d _ hd
  have hnlen := (optionItems_short n hn).2.2
  have hot : optionText (fun x => if x = n then some (a ++ 32 :: b) else none) =
      n ++ b!" = " ++ (a ++ 32 :: b) ++ [10] := by
    exact optionText_single n _ hn
  have hbody : 10 ∉ n ++ 32 :: 61 :: 32 :: (a ++ 32 :: b) := by
    intro h
    rcases List.mem_append.1 h with h | h
    · have := hnn.2 _ h; unfold NameChar at this; omega
    · simp only [List.mem_cons, List.mem_append] at h
      rcases h with h | h | h | h | h | h
      · omega
      · omega
      · omega
      · have := ha.2 _ h; unfold ValueChar at this; omega
      · omega
      · exact hb h
  have hshape : ItemShape ((n ++ 32 :: 61 :: 32 :: (a ++ 32 :: b)) ++ [10]) n a :=
    ⟨[], [32], [32], 32, b ++ [10], by simp, by simp, hnn.1, hnn.2, by simp [BlankChar],
      by simp [BlankChar], ha.1, ha.2, Or.inl (Or.inl rfl)⟩
  have hlen : (n ++ 32 :: 61 :: 32 :: (a ++ 32 :: b)).length < 1023 := by
    simp only [List.length_append, List.length_cons]; omega
  have hacc : accepts c.flag a = true := by
    have hfl : c.flag = .string := by
      cases hf : c.flag <;> rw [hf] at e4 <;> simp [kindOf] at e4 ⊢
    rw [hfl]; rfl
  have hsearch : search configs n = some c := by
    have := search_some configs c hc names_nodup
    rwa [e1] at this
  refine ⟨_, (setDefaults configs e).put env (some a), rfl, ?_, put_same _ _ _⟩
  simp only [tempFile, Option.getD_none, List.nil_append, hot]
  have hsplit : n ++ b!" = " ++ (a ++ 32 :: b) ++ [10] =
      (n ++ 32 :: 61 :: 32 :: (a ++ 32 :: b)) ++ 10 :: [] := by simp
  rw [hsplit, parse_run, run_line _ _ _ hbody hlen, line_shape _ _ n a hshape, hsearch]
  simp only [setValue, hacc, if_true, run_nil, e2]

example : (b!"ssl_crt_path", b!"FLY_SSL_CRT_PATH", some b!"conf/server.crt", Kind.text) ∈ documented ∧
    b!"ssl_crt_path" ∈ optionItems := by decide

/-! ## C93 -/

/-- **C93_partial.**  When the file the application was made with is also named with `-c`, it is the
one that is read. -/
theorem C93_partial (e : Env) (p : Bytes) (ls : List Line) (hw : ∀ l ∈ ls, l.WF) (hg : ∀ l ∈ ls, l.Good) :
    ∃ text e', effective (some ⟨p, fileBytes ls⟩) (some ⟨p, fileBytes ls⟩) (fun _ => none) = some text ∧
      parse e (some text) = (.success, e') ∧ Means e e' ls := by
  obtain ⟨e', hp, hm⟩ := C41_partial e ls hw hg
  have h0 : optionText (fun _ => none) = [] := by decide +kernel
  refine ⟨fileBytes ls, e', ?_, hp, hm⟩
  simp [effective, tempFile, h0]

/-- **C93_refuted.**  Without `-c` the application's own configuration file is never read: for every
file and all options the configuration is the one without any file, so every item without an option
has its default value. -/
theorem C93_refuted (e : Env) (p : Bytes) (ls : List Line) :
    (∀ opt, effective (some ⟨p, fileBytes ls⟩) none opt = effective none none opt) ∧
    ∃ text e', effective (some ⟨p, fileBytes ls⟩) none (fun _ => none) = some text ∧
      parse e (some text) = (.success, e') ∧ Means e e' [] := by
  refine ⟨fun _ => rfl, ?_⟩
  obtain ⟨e', hp, hm⟩ := C41_partial e [] (by simp) (by simp)
  have h0 : optionText (fun _ => none) = [] := by decide +kernel
  refine ⟨[], e', ?_, hp, hm⟩
  simp [effective, tempFile, h0]

/-- A file with `port = 8080` that changes the configuration when it is read. -/
example : lastValue b!"port" sample = some b!"8080" := by decide +kernel

end Fly.Cli
