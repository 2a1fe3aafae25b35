import Verif.Points.Spec
import Verif.Mount.Props

/-! # Lemmas about paths, mounting and unmounting -/

namespace Fly.Points

open Fly.Mount Fly.Scan

/-! ## Paths -/

theorem split_mem : ∀ (b : Bytes) (c : Bytes), c ∈ split b → 47 ∉ c := by
  intro b
  induction b with
  | nil => intro c h; simp [split] at h; simp [h]
  | cons x r ih =>
    intro c h
    unfold split at h
    split at h
    · rcases List.mem_cons.1 h with h | h
      · simp [h]
      · exact ih c h
    · rename_i hx
      split at h
      · simp only [List.mem_singleton] at h
        subst h
        simpa using fun h => hx h.symm
      · rename_i hd tl heq
        rcases List.mem_cons.1 h with h | h
        · subst h
          have := ih hd (by rw [heq]; simp)
          simp only [List.mem_cons, not_or]
          exact ⟨fun h => hx h.symm, this⟩
        · exact ih c (by rw [heq]; simp [h])

theorem split_ne_nil (b : Bytes) : split b ≠ [] := by
  cases b with
  | nil => simp [split]
  | cons x r =>
    unfold split
    split
    · simp
    · split <;> simp

theorem split_plain : ∀ (c : Bytes), 47 ∉ c → split c = [c] := by
  intro c
  induction c with
  | nil => intro _; rfl
  | cons x r ih =>
    intro h
    simp only [List.mem_cons, not_or] at h
    unfold split
    rw [if_neg (fun hx => h.1 hx.symm), ih h.2]

theorem split_append : ∀ (c : Bytes) (r : Bytes), 47 ∉ c → split (c ++ 47 :: r) = c :: split r := by
  intro c
  induction c with
  | nil => intro r _; simp [split]
  | cons x c ih =>
    intro r h
    simp only [List.mem_cons, not_or] at h
    rw [List.cons_append, split, if_neg (fun hx => h.1 hx.symm), ih r h.2]

theorem split_flat : ∀ (p : Path), (∀ c ∈ p, 47 ∉ c) → p ≠ [] → split (p.flatMap (fun c => 47 :: c)) = [] :: p := by
  intro p
  induction p with
  | nil => intro _ h; exact absurd rfl h
  | cons c p ih =>
    intro h _
    rw [List.flatMap_cons, List.cons_append]
    unfold split
    rw [if_pos rfl]
    cases p with
    | nil =>
      simp only [List.flatMap_nil, List.append_nil]
      rw [split_plain c (h c (by simp))]
    | cons d p =>
      have := ih (fun x hx => h x (by simp [hx])) (by simp)
      rw [List.flatMap_cons, List.cons_append] at this ⊢
      rw [split_append c _ (h c (by simp))]
      unfold split at this
      rw [if_pos rfl] at this
      rw [List.cons.injEq] at this
      rw [this.2]

theorem render_cons (c : Bytes) (p : Path) : render (c :: p) = 47 :: c ++ p.flatMap (fun c => 47 :: c) := by
  simp [render]

theorem render_head (p : Path) : (render p).head? = some 47 := by
  cases p with
  | nil => rfl
  | cons c p => simp [render_cons]

theorem render_ne (p : Path) : render p ≠ [] := by
  intro h
  have := render_head p
  rw [h] at this
  cases this

/-- Where `split` of a rendered path leads. -/
theorem split_render (p : Path) (h : ∀ c ∈ p, 47 ∉ c) :
    split (render p) = if p = [] then [[], []] else [] :: p := by
  cases p with
  | nil => rfl
  | cons c p =>
    rw [if_neg (by simp)]
    exact split_flat (c :: p) h (by simp)

theorem render_inj {p q : Path} (hp : ∀ c ∈ p, Comp c) (hq : ∀ c ∈ q, Comp c) (h : render p = render q) : p = q := by
  have h1 := split_render p (fun c hc => (hp c hc).2.1)
  have h2 := split_render q (fun c hc => (hq c hc).2.1)
  rw [h, h2] at h1
  by_cases e1 : p = []
  · by_cases e2 : q = []
    · rw [e1, e2]
    · rw [if_pos e1, if_neg e2] at h1
      simp only [List.cons.injEq, true_and] at h1
      have := hq [] (by rw [h1]; simp)
      exact absurd rfl this.1
  · by_cases e2 : q = []
    · rw [if_neg e1, if_pos e2] at h1
      simp only [List.cons.injEq, true_and] at h1
      have := hp [] (by rw [← h1]; simp)
      exact absurd rfl this.1
    · rw [if_neg e1, if_neg e2] at h1
      simpa using h1.symm

theorem norm_go : ∀ (cs : List Bytes) (acc : Path), (∀ c ∈ cs, 47 ∉ c) → (∀ c ∈ acc, Comp c) →
    ∀ c ∈ cs.foldl (fun acc c => if c = [] ∨ c = dot then acc else if c = dotdot then acc.dropLast else acc ++ [c]) acc,
      Comp c := by
  intro cs
  induction cs with
  | nil => intro acc _ h; exact h
  | cons x cs ih =>
    intro acc h1 h2
    rw [List.foldl_cons]
    refine ih _ (fun c hc => h1 c (by simp [hc])) ?_
    split
    · exact h2
    · rename_i hx
      split
      · intro c hc
        exact h2 c ((List.dropLast_sublist _).mem hc)
      · rename_i hx2
        intro c hc
        rcases List.mem_append.1 hc with hc | hc
        · exact h2 c hc
        · simp only [List.mem_singleton] at hc
          subst hc
          exact ⟨fun h => hx (Or.inl h), h1 c (by simp), fun h => hx (Or.inr h), hx2⟩

theorem lexical_comp (cwd : Path) (p : Bytes) : ∀ c ∈ lexical cwd p, Comp c :=
  norm_go _ [] (split_mem _) (by simp)

theorem allDirs_dropLast {fs : Fs} {p : Path} (h : AllDirs fs p) : AllDirs fs p.dropLast :=
  fun q h1 h2 => h q h1 (List.IsPrefix.trans h2 (List.dropLast_prefix p))

theorem allDirs_nil (fs : Fs) : AllDirs fs [] := by
  intro q h1 h2
  exact absurd (List.prefix_nil.1 h2) h1

theorem allDirs_snoc {fs : Fs} {p : Path} {c : Bytes} (h : AllDirs fs p) (hc : fs (p ++ [c]) = some .dir) :
    AllDirs fs (p ++ [c]) := by
  intro q h1 h2
  rcases List.prefix_concat_iff.1 h2 with h3 | h3
  · rw [h3]; exact hc
  · exact h q h1 h3

/-- Path resolution in one recursion. -/
def realW (fs : Fs) : Nat → Path → List Bytes → Option Path
  | _, cur, [] => some cur
  | k, cur, c :: cs =>
    if c = [] ∨ c = dot then realW fs k cur cs
    else if c = dotdot then realW fs k cur.dropLast cs
    else
      match fs (cur ++ [c]) with
      | none => none
      | some .dir => realW fs k (cur ++ [c]) cs
      | some .file => if cs = [] then some (cur ++ [c]) else none
      | some (.link t) =>
        match k with
        | 0 => none
        | k + 1 => realW fs k (if t.head? = some 47 then [] else cur) (split t ++ cs)
termination_by k _ cs => (k, cs.length)

theorem walk_realW (fs : Fs) (k : Nat) (follow : Path → List Bytes → Option Path)
    (hf : ∀ cur cs, follow cur cs = match k with | 0 => none | k + 1 => realW fs k cur cs) :
    ∀ (cs : List Bytes) (cur : Path), walk fs follow cur cs = realW fs k cur cs := by
  intro cs
  induction cs with
  | nil => intro cur; rw [realW, walk]
  | cons c cs ih =>
    intro cur
    rw [realW, walk, ih, ih]
    split
    · rfl
    · split
      · rfl
      · cases fs (cur ++ [c]) with
        | none => rfl
        | some x =>
          cases x with
          | dir => exact ih _
          | file => rfl
          | link t =>
            dsimp only
            rw [hf]

theorem real_eq (fs : Fs) : ∀ k cur cs, real fs k cur cs = realW fs k cur cs := by
  intro k
  induction k with
  | zero => intro cur cs; exact walk_realW fs 0 _ (fun _ _ => rfl) cs cur
  | succ k ih => intro cur cs; exact walk_realW fs (k + 1) _ (fun a b => ih a b) cs cur

/-- Resolution ends at a place that no link leads to. -/
theorem real_clean (fs : Fs) (k : Nat) (cur : Path) (cs : List Bytes) (r : Path) (h : realW fs k cur cs = some r)
    (hd : AllDirs fs cur) (hc : ∀ c ∈ cur, Comp c) (hs : ∀ c ∈ cs, 47 ∉ c) :
    ¬ LinkOn fs r ∧ (∀ c ∈ r, Comp c) ∧ (dirAt fs r = true → AllDirs fs r) := by
  induction k, cur, cs using realW.induct fs with
  | case1 k cur =>
    rw [realW] at h
    cases h
    refine ⟨?_, hc, fun _ => hd⟩
    rintro ⟨q, t, h1, h2, h3⟩
    rw [hd q h1 h2] at h3
    cases h3
  | case2 k cur c cs hx ih =>
    rw [realW, if_pos hx] at h
    exact ih h hd hc (fun x hx => hs x (by simp [hx]))
  | case3 k cur cs hx ih =>
    rw [realW, if_neg hx, if_pos rfl] at h
    exact ih h (allDirs_dropLast hd) (fun c hm => hc c ((List.dropLast_sublist _).mem hm))
      (fun x hx => hs x (by simp [hx]))
  | case4 k cur c cs hx hx2 hf =>
    rw [realW, if_neg hx, if_neg hx2, hf] at h
    cases h
  | case5 k cur c cs hx hx2 hf ih =>
    rw [realW, if_neg hx, if_neg hx2, hf] at h
    refine ih h (allDirs_snoc hd hf) ?_ (fun x hx => hs x (by simp [hx]))
    intro x hm
    rcases List.mem_append.1 hm with hm | hm
    · exact hc x hm
    · simp only [List.mem_singleton] at hm
      subst hm
      exact ⟨fun h => hx (Or.inl h), hs x (by simp), fun h => hx (Or.inr h), hx2⟩
  | case6 k cur c hx hx2 hf =>
    rw [realW, if_neg hx, if_neg hx2, hf] at h
    simp only [if_true, Option.some.injEq] at h
    subst h
    refine ⟨?_, ?_, ?_⟩
    · rintro ⟨q, t, h1, h2, h3⟩
      rcases List.prefix_concat_iff.1 h2 with h4 | h4
      · rw [h4, hf] at h3; cases h3
      · rw [hd q h1 h4] at h3; cases h3
    · intro x hm
      rcases List.mem_append.1 hm with hm | hm
      · exact hc x hm
      · simp only [List.mem_singleton] at hm
        subst hm
        exact ⟨fun h => hx (Or.inl h), hs x (by simp), fun h => hx (Or.inr h), hx2⟩
    · intro h
      unfold dirAt at h
      rw [hf] at h
      simp at h
  | case7 k cur c cs hx hx2 hf hne =>
    rw [realW, if_neg hx, if_neg hx2, hf] at h
    simp only [hne, if_false] at h
    cases h
  | case8 cur c cs hx hx2 t hf =>
    rw [realW, if_neg hx, if_neg hx2, hf] at h
    cases h
  | case9 cur c cs hx hx2 t hf k ih =>
    rw [realW, if_neg hx, if_neg hx2, hf] at h
    refine ih h ?_ ?_ ?_
    · split
      · exact allDirs_nil fs
      · exact hd
    · split
      · simp
      · exact hc
    · intro x hm
      rcases List.mem_append.1 hm with hm | hm
      · exact split_mem _ _ hm
      · exact hs x (by simp [hm])

/-- A path of directories resolves to itself. -/
theorem real_plain (fs : Fs) (k : Nat) : ∀ (cs : List Bytes) (cur : Path), AllDirs fs (cur ++ cs) → (∀ c ∈ cs, Comp c) →
    realW fs k cur cs = some (cur ++ cs) := by
  intro cs
  induction cs with
  | nil => intro cur _ _; rw [realW]; simp
  | cons c cs ih =>
    intro cur h hc
    obtain ⟨c1, _, c3, c4⟩ := hc c (by simp)
    have : fs (cur ++ [c]) = some .dir := h _ (by simp) ⟨cs, by simp⟩
    rw [realW, if_neg (by simp [c1, c3]), if_neg c4, this]
    have := ih (cur ++ [c]) (by simpa using h) (fun x hx => hc x (by simp [hx]))
    simpa using this

theorem resolve_render (fs : Fs) (cwd p : Path) (h : AllDirs fs p) (hc : ∀ c ∈ p, Comp c) :
    resolve fs cwd (render p) = some p := by
  unfold resolve
  rw [if_neg (render_ne p), render_head, if_pos rfl, split_render p (fun c hm => (hc c hm).2.1)]
  split
  · rename_i hp
    subst hp
    rw [real_eq, realW, if_pos (Or.inl rfl), realW, if_pos (Or.inl rfl), realW]
  · rw [real_eq, realW, if_pos (Or.inl rfl), real_plain fs 40 p [] (by simpa using h) hc]
    rfl

/-- What a path resolves to has no link on it. -/
theorem resolve_clean {e : Env} (hw : CwdOk e) {p : Bytes} {q : Path} (h : resolve e.fs e.cwd p = some q) :
    ¬ LinkOn e.fs q ∧ (∀ c ∈ q, Comp c) ∧ (dirAt e.fs q = true → AllDirs e.fs q) := by
  unfold resolve at h
  split at h
  · cases h
  · refine real_clean e.fs 40 _ _ q ((real_eq ..).symm.trans h) ?_ ?_ (split_mem p)
    · split
      · exact allDirs_nil _
      · exact hw.1
    · split
      · simp
      · exact hw.2

theorem abspath_cases (cwd : Path) (p : Bytes) :
    abspath cwd p = render (lexical cwd p) ∨
      abspath cwd p = 47 :: render (lexical cwd p) := by
  unfold abspath lexical
  split
  · exact Or.inr rfl
  · exact Or.inl rfl

/-- Two slashes are kept. -/
theorem abspath_two (cwd : Path) (p : Bytes) (h : TwoSlashes p) : abspath cwd p = 47 :: render (lexical cwd p) := by
  obtain ⟨r, rfl, hr⟩ := h
  have hj : joined cwd (47 :: 47 :: r) = 47 :: 47 :: r := by unfold joined; rw [if_pos (by rfl)]
  unfold abspath lexical
  rw [hj, if_pos]
  constructor
  · rfl
  · cases r with
    | nil => simp
    | cons a r => simp at hr; simpa using hr

theorem joined_not_two (cwd : Path) (p : Bytes) (hw : ∀ c ∈ cwd, Comp c) (hp : p ≠ []) (h : ¬ TwoSlashes p) :
    ¬ ((joined cwd p).take 2 = [47, 47] ∧ (joined cwd p).take 3 ≠ [47, 47, 47]) := by
  unfold joined
  split
  · rintro ⟨h1, h2⟩
    apply h
    match p, h1, h2 with
    | a :: b :: r, h1, h2 =>
      simp only [List.take_succ_cons, List.take_zero, List.cons.injEq, and_true] at h1
      obtain ⟨rfl, rfl⟩ := h1
      refine ⟨r, rfl, ?_⟩
      intro hr
      cases r with
      | nil => cases hr
      | cons x r =>
        simp only [List.head?_cons, Option.some.injEq] at hr
        subst hr
        simp at h2
  · rename_i hh
    split
    · rintro ⟨h1, _⟩
      cases p with
      | nil => exact hp rfl
      | cons a r =>
        simp at h1 hh
        exact hh h1
    · rename_i hc
      rintro ⟨h1, _⟩
      match cwd, hc with
      | c :: cwd, _ =>
        obtain ⟨c1, c2, _⟩ := hw c (by simp)
        rw [render_cons] at h1
        cases c with
        | nil => exact c1 rfl
        | cons a c =>
          simp at h1 c2
          exact c2.1 h1.symm

theorem abspath_one {e : Env} (hw : CwdOk e) {p : Bytes} (hp : p ≠ []) (h : ¬ TwoSlashes p) :
    abspath e.cwd p = render (lexical e.cwd p) := by
  unfold abspath lexical
  rw [if_neg (joined_not_two e.cwd p hw.2 hp h)]

theorem two_ne_render (x : Path) (q : Path) (hq : ∀ c ∈ q, Comp c) : 47 :: render x ≠ render q := by
  intro h
  cases q with
  | nil =>
    have := render_ne x
    simp [render] at h
    exact this h
  | cons c q =>
    obtain ⟨c1, c2, _⟩ := hq c (by simp)
    rw [render_cons] at h
    have hh := render_head x
    simp only [List.cons_append, List.cons.injEq, true_and] at h
    rw [h] at hh
    cases c with
    | nil => exact c1 rfl
    | cons a c =>
      simp at hh c2
      exact c2.1 hh.symm

/-! ## Mounting -/

/-- A scan that succeeds has registered everything below the directory. -/
theorem scan_ok (mp : Bytes) (max : Nat) (f : Forest) : ∀ (path pre : Bytes) (acc acc' : Acc),
    (∀ x, path ++ 47 :: x = mp ++ 47 :: (pre ++ x)) → pre.head? ≠ some 47 → Proper f →
    Fits path.length f → (∀ e ∈ entries pre f, e.1 ∉ acc.out.map (·.1)) →
    scan mp max path f acc = .ok acc' → acc' = ⟨acc.count + size f, acc.out ++ entries pre f⟩ := by
  induction f with
  | nil =>
    intro path pre acc acc' _ _ _ _ _ h
    simp only [scan, Res.ok.injEq] at h
    rw [← h]
    simp [size, entries]
  | dangling n rest ih =>
    intro path pre acc acc' hpath hpre hp hf hd h
    have hlen : ¬ pathMax < (path ++ 47 :: n).length := by
      simp only [List.length_append, List.length_cons, pathMax]; have := hf.2.1; omega
    unfold scan at h
    rw [if_neg hlen] at h
    exact ih path pre acc acc' hpath hpre hp.2.2 hf.2.2 hd h
  | file n r rest ih =>
    intro path pre acc acc' hpath hpre hp hf hd h
    have hl : (path ++ 47 :: n).length < 4096 := by
      simp only [List.length_append, List.length_cons]; have := hf.2.1; omega
    have hhead : (pre ++ n).head? ≠ some 47 :=
      head_append hpre ((has_ok (.file n r .nil) ⟨hp.1, by simp [names], trivial⟩ (Or.inl ⟨rfl, rfl⟩)).2.2)
    have hnd := entries_nodup (.file n r rest) pre hp
    simp only [entries, List.map_cons, List.nodup_cons] at hnd
    unfold scan at h
    rw [if_neg (by unfold pathMax; omega), if_neg (by unfold pathMax nameMax; have := hf.1; omega), hpath,
      register_new mp _ false acc hhead (hd (pre ++ n, false) (by simp [entries]))] at h
    simp only at h
    rw [ih path pre _ acc' hpath hpre hp.2.2 hf.2.2 ?_ h]
    · simp only [size, entries, List.append_assoc, List.singleton_append]
      rw [Nat.add_assoc]
    · intro e he
      simp only [List.map_append, List.map_cons, List.map_nil, List.mem_append, List.mem_singleton, not_or]
      refine ⟨hd e (by simp [entries, he]), ?_⟩
      intro h
      exact hnd.1 (by rw [← h]; exact List.mem_map_of_mem he)
  | dir n r ch rest ih1 ih2 =>
    intro path pre acc acc' hpath hpre hp hf hd h
    have hl : (path ++ 47 :: n).length < 4096 := by
      simp only [List.length_append, List.length_cons]; have := hf.2.1; omega
    have hhead : (pre ++ n).head? ≠ some 47 :=
      head_append hpre ((has_ok (.file n r .nil) ⟨hp.1, by simp [names], trivial⟩ (Or.inl ⟨rfl, rfl⟩)).2.2)
    have hnd := entries_nodup (.dir n r ch rest) pre hp
    simp only [entries, List.map_append, List.map_cons, List.map_nil] at hnd
    rw [List.nodup_append, List.nodup_append] at hnd
    obtain ⟨⟨d1, _, d2⟩, d3, d4⟩ := hnd
    unfold scan at h
    rw [if_neg (by unfold pathMax; omega), if_neg (by unfold pathMax nameMax; have := hf.1; omega)] at h
    split at h
    · cases h
    cases hs : scan mp max (path ++ 47 :: n) ch acc with
    | fail => rw [hs] at h; cases h
    | hang => rw [hs] at h; cases h
    | wild => rw [hs] at h; cases h
    | ok acc1 =>
      rw [hs] at h
      have e1 := ih1 (path ++ 47 :: n) (pre ++ n ++ [47]) acc acc1 ?_ ?_ hp.2.2.1 ?_ ?_ hs
      · subst e1
        simp only at h
        rw [hpath n, register_new mp _ true _ hhead] at h
        · simp only at h
          rw [ih2 path pre _ acc' hpath hpre hp.2.2.2 hf.2.2.2 ?_ h]
          · simp only [size, entries, List.append_assoc, List.singleton_append]
            congr 1
            omega
          · intro e he
            simp only [List.map_append, List.map_cons, List.map_nil, List.mem_append, List.mem_singleton, not_or]
            refine ⟨⟨hd e (by simp [entries, he]), ?_⟩, ?_⟩
            · intro h
              exact d4 e.1 (List.mem_append_left _ h) e.1 (List.mem_map_of_mem he) rfl
            · intro h
              exact d4 e.1 (by simp [h]) e.1 (List.mem_map_of_mem he) rfl
        · simp only [List.map_append, List.mem_append, not_or]
          refine ⟨hd (pre ++ n, true) (by simp [entries]), ?_⟩
          intro h
          exact d2 _ h _ (by simp) rfl
      · intro x
        rw [hpath n]
        have := hpath (n ++ 47 :: x)
        simp
      · cases hpn : pre with
        | nil =>
          cases hnn : n with
          | nil => exact absurd hnn hp.1.1
          | cons a n' =>
            have := hp.1.2.2
            rw [hnn] at this
            simp only [List.mem_cons, not_or] at this
            simpa using fun h => this.1 h.symm
        | cons a pre' => rw [hpn] at hpre; simpa using hpre
      · have := hf.2.2.1
        have e : (path ++ 47 :: n).length = path.length + 1 + n.length := by
          simp only [List.length_append, List.length_cons]; omega
        rw [e]; exact this
      · intro e he
        exact hd e (List.mem_append_left _ (List.mem_append_left _ he))

theorem mountDir_ok {max count : Nat} {mp : Bytes} {f : Forest} {es : List (Bytes × Bool)} (hp : Proper f)
    (hf : Fits mp.length f) (h : mountDir max count mp f = .ok es) : es = entries [] f := by
  unfold mountDir at h
  split at h
  · cases h
  · cases hs : scan mp max mp f ⟨count, []⟩ with
    | fail => rw [hs] at h; cases h
    | hang => rw [hs] at h; cases h
    | wild => rw [hs] at h; cases h
    | ok acc =>
      rw [hs] at h
      have := scan_ok mp max f mp [] ⟨count, []⟩ acc (fun x => rfl) (by simp) hp hf (by simp) hs
      subst this
      simpa using h.symm

/-- What a successful `fly_mount` has done. -/
theorem cMount_ok {e : Env} {m m' : Mnt} {p : Bytes} (h : cMount e m p = .ok m') :
    (e.mountMax % 2 ^ 64).toNat ≠ m.pts.length ∧ ∃ q es, resolve e.fs e.cwd p = some q ∧ dirAt e.fs q = true ∧
      mountDir e.fileMax m.fileCount (render q) (e.tree q) = .ok es ∧
      m' = ⟨m.pts ++ [⟨m.pts.length, render q, es⟩], m.fileCount + es.length⟩ := by
  unfold cMount at h
  split at h
  · cases h
  · rename_i hl
    refine ⟨hl, ?_⟩
    cases hr : resolve e.fs e.cwd p with
    | none => rw [hr] at h; cases h
    | some q =>
      rw [hr] at h
      dsimp only at h
      split at h
      · cases h
      · rename_i hd
        split at h
        · cases h
        · cases hm : mountDir e.fileMax m.fileCount (render q) (e.tree q) with
          | ok es =>
            rw [hm] at h
            cases h
            exact ⟨q, es, rfl, by simpa using hd, hm, rfl⟩
          | fail => rw [hm] at h; cases h
          | hang => rw [hm] at h; cases h
          | wild => rw [hm] at h; cases h

/-- What the mount points look like while they are set up: numbered from 0, each the real directory it was
resolved to, with what the scan has found. -/
def Laid (e : Env) (m : Mnt) : Prop :=
  ∀ (i : Nat) (pt : Pt), m.pts[i]? = some pt → pt.number = i ∧ ∃ q c, dirAt e.fs q = true ∧ ¬ LinkOn e.fs q ∧ (∀ c ∈ q, Comp c) ∧
    pt.path = render q ∧ mountDir e.fileMax c (render q) (e.tree q) = .ok pt.files

theorem cMount_laid {e : Env} (hw : CwdOk e) {m m' : Mnt} {p : Bytes} (h : cMount e m p = .ok m') (hm : Laid e m) :
    Laid e m' := by
  obtain ⟨_, q, es, h1, h2, h3, h4⟩ := cMount_ok h
  subst h4
  intro i pt hi
  simp only [List.getElem?_append] at hi
  split at hi
  · exact hm i pt hi
  · rename_i hlt
    have : i = m.pts.length := by
      have := List.getElem?_eq_some_iff.1 hi
      obtain ⟨hlt2, _⟩ := this
      simp only [List.length_singleton] at hlt2
      omega
    subst this
    simp only [Nat.sub_self, List.getElem?_cons_zero, Option.some.injEq] at hi
    subst hi
    obtain ⟨c1, c2, _⟩ := resolve_clean hw h1
    exact ⟨rfl, q, m.fileCount, h2, c1, c2, rfl, h3⟩

theorem cMounts_laid {e : Env} (hw : CwdOk e) : ∀ (ps : List Bytes) (m m' : Mnt), cMounts e m ps = .ok m' → Laid e m →
    Laid e m' ∧ ∀ (i : Nat) (pt : Pt), m.pts[i]? = some pt → m'.pts[i]? = some pt := by
  intro ps
  induction ps with
  | nil => intro m m' h hm; cases h; exact ⟨hm, fun i pt h => h⟩
  | cons p ps ih =>
    intro m m' h hm
    unfold cMounts at h
    cases hc : cMount e m p with
    | ok m1 =>
      rw [hc] at h
      obtain ⟨h1, h2⟩ := ih m1 m' h (cMount_laid hw hc hm)
      refine ⟨h1, fun i pt hi => h2 i pt ?_⟩
      obtain ⟨_, q, es, _, _, _, h4⟩ := cMount_ok hc
      subst h4
      have := List.getElem?_eq_some_iff.1 hi
      obtain ⟨hlt, _⟩ := this
      rw [List.getElem?_append_left hlt]
      exact hi
    | limit => rw [hc] at h; exact ih m m' h hm
    | err => rw [hc] at h; cases h
    | wild => rw [hc] at h; cases h

theorem cMounts_bound {e : Env} : ∀ (ps : List Bytes) (m m' : Mnt), cMounts e m ps = .ok m' →
    m.pts.length ≤ (e.mountMax % 2 ^ 64).toNat → m'.pts.length ≤ (e.mountMax % 2 ^ 64).toNat := by
  intro ps
  induction ps with
  | nil => intro m m' h hm; cases h; exact hm
  | cons p ps ih =>
    intro m m' h hm
    unfold cMounts at h
    cases hc : cMount e m p with
    | ok m1 =>
      rw [hc] at h
      refine ih m1 m' h ?_
      obtain ⟨hl, q, es, _, _, _, h4⟩ := cMount_ok hc
      subst h4
      simp only [List.length_append, List.length_singleton]
      omega
    | limit => rw [hc] at h; exact ih m m' h hm
    | err => rw [hc] at h; cases h
    | wild => rw [hc] at h; cases h

/-- Every mount point comes from one of the paths, in their order. -/
theorem cMounts_from {e : Env} : ∀ (ps : List Bytes) (m m' : Mnt), cMounts e m ps = .ok m' →
    ∃ ps', List.Sublist ps' ps ∧ m'.pts.map (fun pt => some pt.path) =
      m.pts.map (fun pt => some pt.path) ++ ps'.map (fun p => (resolve e.fs e.cwd p).map render) := by
  intro ps
  induction ps with
  | nil => intro m m' h; cases h; exact ⟨[], List.Sublist.refl _, by simp⟩
  | cons p ps ih =>
    intro m m' h
    unfold cMounts at h
    cases hc : cMount e m p with
    | ok m1 =>
      rw [hc] at h
      obtain ⟨ps', h1, h2⟩ := ih m1 m' h
      obtain ⟨_, q, es, hr, _, _, h4⟩ := cMount_ok hc
      refine ⟨p :: ps', List.Sublist.cons_cons p h1, ?_⟩
      rw [h2, h4]
      simp [hr]
    | limit =>
      rw [hc] at h
      obtain ⟨ps', h1, h2⟩ := ih m m' h
      exact ⟨ps', List.Sublist.cons p h1, h2⟩
    | err => rw [hc] at h; cases h
    | wild => rw [hc] at h; cases h

theorem find_first {α : Type} (p : α → Bool) : ∀ (l : List α) (x : α), l.find? p = some x →
    ∃ i : Nat, l[i]? = some x ∧ p x = true ∧ ∀ j y, j < i → l[j]? = some y → p y = false := by
  intro l
  induction l with
  | nil => intro x h; cases h
  | cons a l ih =>
    intro x h
    rw [List.find?_cons] at h
    split at h
    · rename_i ha
      cases h
      exact ⟨0, rfl, ha, fun j y hj => absurd hj (Nat.not_lt_zero j)⟩
    · rename_i ha
      obtain ⟨i, h1, h2, h3⟩ := ih x h
      refine ⟨i + 1, h1, h2, ?_⟩
      intro j y hj hy
      cases j with
      | zero =>
        simp only [List.getElem?_cons_zero, Option.some.injEq] at hy
        subst hy
        simpa using ha
      | succ j => exact h3 j y (by omega) (by simpa using hy)

/-- The mount point with number `i` is the one at place `i`. -/
theorem filesCount_laid {e : Env} {m : Mnt} (hm : Laid e m) {i : Nat} {pt : Pt} (h : m.pts[i]? = some pt) :
    filesCount m (i : Int) = some pt.files.length := by
  unfold filesCount
  have hn := (hm i pt h).1
  cases hf : m.pts.find? (fun p => decide ((p.number : Int) = (i : Int))) with
  | none =>
    rw [List.find?_eq_none] at hf
    have := hf pt (List.mem_of_getElem? h)
    simp [hn] at this
  | some x =>
    obtain ⟨j, h1, h2, _⟩ := find_first _ _ _ hf
    have hj := (hm j x h1).1
    simp only [decide_eq_true_eq] at h2
    have : j = i := by omega
    subst this
    rw [h] at h1
    cases h1
    rfl

/-- What is displayed: for every path the first mount point with it. -/
theorem display_spec {e : Env} {m : Mnt} (hm : Laid e m) : ∀ (ps : List Bytes) (d : List (Bytes × Nat × Nat)),
    display m ps = some d → d.map (·.1) = ps ∧ ∀ x ∈ d, ∃ pt, m.pts[x.2.1]? = some pt ∧ pt.path = x.1 ∧
      pt.files.length = x.2.2 ∧ ∀ j y, j < x.2.1 → m.pts[j]? = some y → y.path ≠ x.1 := by
  intro ps
  induction ps with
  | nil => intro d h; cases h; exact ⟨rfl, by simp⟩
  | cons p ps ih =>
    intro d h
    unfold display at h
    unfold mountNumber at h
    split at h
    · cases h
    · rename_i n hn
      split at hn
      · rename_i hnil
        have hf : filesCount m n = none := by unfold filesCount; rw [hnil]; rfl
        rw [hf] at h
        cases h
      · cases hfind : m.pts.find? (fun q => decide (q.path = p)) with
        | none => rw [hfind] at hn; cases hn
        | some x =>
          rw [hfind] at hn
          simp only [Option.map_some, Option.some.injEq] at hn
          obtain ⟨i, h1, h2, h3⟩ := find_first _ _ _ hfind
          have hi := (hm i x h1).1
          have hfc := filesCount_laid hm h1
          rw [hi] at hn
          rw [← hn, hfc] at h
          dsimp only at h
          cases hd : display m ps with
          | none => rw [hd] at h; cases h
          | some d' =>
            rw [hd] at h
            simp only [Option.map_some, Option.some.injEq] at h
            obtain ⟨g1, g2⟩ := ih d' hd
            subst h
            refine ⟨by simp [g1], ?_⟩
            intro y hy
            rcases List.mem_cons.1 hy with hy | hy
            · subst hy
              simp only [Int.toNat_natCast]
              refine ⟨x, h1, by simpa using h2, rfl, ?_⟩
              intro j z hj hz
              simpa using h3 j z hj hz
            · exact g2 y hy

theorem pyMounts_ok {e : Env} : ∀ (ps ms ms' : List Bytes), pyMounts e ms ps = some ms' →
    ms' = ms ++ ps.map (abspath e.cwd) ∧ ∀ p ∈ ps, isDir e.fs e.cwd p = true ∧ isDir e.fs e.cwd (abspath e.cwd p) = true := by
  intro ps
  induction ps with
  | nil => intro ms ms' h; cases h; simp
  | cons p ps ih =>
    intro ms ms' h
    unfold pyMounts at h
    cases hp : pyMount e ms p with
    | none => rw [hp] at h; cases h
    | some ms1 =>
      rw [hp] at h
      obtain ⟨h1, h2⟩ := ih ms1 ms' h
      unfold pyMount at hp
      split at hp
      · cases hp
      · rename_i a1
        split at hp
        · cases hp
        · rename_i a2
          cases hp
          refine ⟨by rw [h1]; simp, ?_⟩
          intro x hx
          rcases List.mem_cons.1 hx with hx | hx
          · subst hx; exact ⟨by simpa using a1, by simpa using a2⟩
          · exact h2 x hx

/-- A start that succeeds, taken apart. -/
theorem launch_running {e : Env} {paths : List Bytes} {m : Mnt} {d : List (Bytes × Nat × Nat)}
    (h : launch e paths = .running m d) :
    pyMounts e [] paths = some (paths.map (abspath e.cwd)) ∧ cMounts e ⟨[], 0⟩ (paths.map (abspath e.cwd)) = .ok m ∧
      display m (paths.map (abspath e.cwd)) = some d := by
  unfold launch at h
  cases hp : pyMounts e [] paths with
  | none => rw [hp] at h; cases h
  | some ms =>
    rw [hp] at h
    obtain ⟨h1, _⟩ := pyMounts_ok paths [] ms hp
    simp only [List.nil_append] at h1
    subst h1
    refine ⟨rfl, ?_⟩
    dsimp only at h
    unfold startServer at h
    cases hc : cMounts e ⟨[], 0⟩ (paths.map (abspath e.cwd)) with
    | ok m' =>
      rw [hc] at h
      dsimp only at h
      cases hd : display m' (paths.map (abspath e.cwd)) with
      | none => rw [hd] at h; cases h
      | some d' =>
        rw [hd] at h
        cases h
        exact ⟨rfl, hd⟩
    | limit => rw [hc] at h; cases h
    | err => rw [hc] at h; cases h
    | wild => rw [hc] at h; cases h

theorem laid_nil (e : Env) : Laid e ⟨[], 0⟩ := by
  intro i pt h
  simp at h

end Fly.Points
