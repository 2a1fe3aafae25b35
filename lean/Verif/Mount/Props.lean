import Verif.Mount.Lemmas

/-! # C31–C33: the index of mounted files -/

namespace Fly.Mount

open Fly.RB (State)

/-! ## C32: the comparison of file names -/

/-- **C32.** On names without NUL bytes, compared with their own length, the comparison of the index says
"equal" exactly for identical names, "smaller" exactly when the first comes lexicographically before the
second, and "bigger" exactly in the converse case. -/
theorem C32_lexicographic (a b : Bytes) (ha : 0 ∉ a) (hb : 0 ∉ b) :
    (searchCmp a a.length b = .eq ↔ a = b) ∧ (searchCmp a a.length b = .lt ↔ Before a b) ∧
      (searchCmp a a.length b = .gt ↔ Before b a) :=
  searchCmp_spec a b ha hb

/-- **C32.** Hence it is a total order on file names. -/
theorem C32_total_order (a b c : Bytes) (ha : 0 ∉ a) (hb : 0 ∉ b) (hc : 0 ∉ c) :
    (searchCmp a a.length b = .lt ↔ searchCmp b b.length a = .gt) ∧
    (searchCmp a a.length b = .lt → searchCmp b b.length c = .lt → searchCmp a a.length c = .lt) ∧
    (searchCmp a a.length b = .lt ∨ a = b ∨ searchCmp b b.length a = .lt) := by
  obtain ⟨h1, h2, h3⟩ := searchCmp_spec a b ha hb
  obtain ⟨i1, i2, i3⟩ := searchCmp_spec b a hb ha
  refine ⟨by rw [h2, i3], ?_, ?_⟩
  · rw [h2, (searchCmp_spec b c hb hc).2.1, (searchCmp_spec a c ha hc).2.1]
    exact Before.trans
  · cases hs : searchCmp a a.length b with
    | lt => exact Or.inl rfl
    | eq => exact Or.inr (Or.inl (h1.1 hs))
    | gt => exact Or.inr (Or.inr (i2.2 (h3.1 hs)))

example : searchCmp b!"img" 3 b!"img/a.png" = .lt ∧ searchCmp b!"index.html" 10 b!"img/a.png" = .gt ∧
    searchCmp b!"a" 1 b!"a" = .eq ∧ (0 : Nat) ∉ b!"img/a.png" := by decide +kernel

/-- **C32 refuted** where the master registers a file that was created in or moved to a mount point: it
passes the padded length of the event, so a name compares as "bigger" than itself unless its length
happens to leave the remainder 15 modulo 16. -/
theorem C32_watched_name_refuted (a : Bytes) (ha : 0 ∉ a) (hl : a.length % 16 ≠ 15) :
    searchCmp a (inotifyLen a) a = .gt := by
  have hlt : a.length < inotifyLen a := by unfold inotifyLen; omega
  have h := (strncmp_prefix a.length a a ha rfl).2 (by simp)
  unfold searchCmp
  rw [if_pos hlt, h]
  simp only
  rw [if_neg (by omega), if_pos hlt]

example : (0 : Nat) ∉ b!"index.html" ∧ (b!"index.html").length % 16 ≠ 15 ∧
    searchCmp b!"index.html" (inotifyLen b!"index.html") b!"index.html" = .gt := by decide +kernel

/-! ## C31: lookups -/

theorem wanted_skip (index path name : Bytes) :
    Wanted index path name ↔ name = if skipSlashes path = [] then index else skipSlashes path := by
  constructor
  · rintro ⟨p, hp, h⟩
    have := stripped_unique hp
    subst this
    rcases h with ⟨h1, h2⟩ | ⟨h1, h2⟩
    · rw [if_neg h1]; exact h2
    · rw [if_pos h1]; exact h2
  · intro h
    refine ⟨_, skipSlashes_stripped path, ?_⟩
    by_cases hp : skipSlashes path = []
    · rw [if_pos hp] at h; exact Or.inr ⟨hp, h⟩
    · rw [if_neg hp] at h; exact Or.inl ⟨hp, h⟩

theorem lookup_sound {w : World} {m : List (RB.Item Name Nat)} (hs : Sound w m) (index : Name)
    (path rest : Bytes) :
    foundContent index w path rest ≠ .wild ∧
      ∀ pf, foundContent index w path rest = .found pf → pf ∈ w.files ∧ Wanted index.1 path pf.name.1 := by
  unfold foundContent
  by_cases hf : w.files = []
  · rw [if_pos hf]
    exact ⟨by simp, fun pf h => by cases h⟩
  · rw [if_neg hf]
    simp only
    cases hk : findKey w (if skipSlashes path = [] then index.1 else skipSlashes path) with
    | none => exact ⟨by simp, fun pf h => by cases h⟩
    | some q =>
      obtain ⟨f, h1, h2, h3⟩ := hs.found hk
      simp only
      subst h2
      rw [find_pf hs.addrs h1]
      simp only
      have hw : Wanted index.1 path f.name.1 := (wanted_skip _ _ _).2 h3
      by_cases hd : f.dir = true
      · rw [if_pos hd]
        have key : ∀ (b : Bytes), (∀ l : Look, l = (if pathMax ≤ b.length then .notFound else
            match findKey w b with | none => .notFound | some _ => .found f) →
            l ≠ .wild ∧ ∀ pf, l = .found pf → pf ∈ w.files ∧ Wanted index.1 path pf.name.1) := by
          intro b l hl
          subst hl
          split
          · exact ⟨by simp, fun pf h => by cases h⟩
          · cases findKey w b with
            | none => exact ⟨by simp, fun pf h => by cases h⟩
            | some x => exact ⟨by simp, fun pf h => by cases h; exact ⟨h1, hw⟩⟩
        split
        · exact key _ _ rfl
        · exact key _ _ rfl
      · rw [if_neg hd]
        exact ⟨by simp, fun pf h => by cases h; exact ⟨h1, hw⟩⟩

/-- **C31.** After every history of mounting and removing files — of any number of mount points, with or
without equal names — that did not run into freed memory: a request is answered with a file only if this
file is mounted now and its path relative to its mount point is the request path without leading
slashes, or the configured index if nothing else is left of the request path. -/
theorem C31_only_wanted (index : Name) (ops : List Change) (hfair : Fair World.init ops) (w : World)
    (h : changes World.init ops = some w) (path rest : Bytes) :
    foundContent index w path rest ≠ .wild ∧
      ∀ pf, foundContent index w path rest = .found pf →
        pf ∈ mounted [] ops ∧ Wanted index.1 path pf.name.1 := by
  obtain ⟨h1, m', h2⟩ := changes_sound ops World.init w [] sound_init hfair h
  have := lookup_sound h2 index path rest
  rw [h1] at this
  exact this

theorem lookup_exact {w : World} {m : List (RB.Item Name Nat)} (hg : Good w m) (index : Name)
    (path rest : Bytes) :
    (∀ pf ∈ w.files, pf.dir = false → Wanted index.1 path pf.name.1 →
        foundContent index w path rest = .found pf) ∧
    ((∀ pf ∈ w.files, ¬ Wanted index.1 path pf.name.1) → foundContent index w path rest = .notFound) := by
  constructor
  · intro pf hp hd hw
    rw [wanted_skip] at hw
    unfold foundContent
    rw [if_neg (by intro h; rw [h] at hp; cases hp)]
    simp only
    rw [← hw, hg.find hp]
    simp only
    rw [find_pf hg.sound.addrs hp]
    simp [hd]
  · intro hno
    cases hr : foundContent index w path rest with
    | notFound => rfl
    | wild => exact absurd hr (lookup_sound hg.sound index path rest).1
    | found pf =>
      obtain ⟨h1, h2⟩ := (lookup_sound hg.sound index path rest).2 pf hr
      exact absurd h2 (hno pf h1)

/-- **C31** (partial: for the converse, no two mounted files may have the same relative path, and
directories are excluded). Every such history is free of undefined behaviour; afterwards every mounted
regular file is served under its path, and a path that no mounted file has is not found. -/
theorem C31_exact_partial (index : Name) (ops : List Change) (hfair : Fair World.init ops)
    (hn : NoDup [] ops) :
    ∃ w, changes World.init ops = some w ∧ ∀ path rest,
      (∀ pf ∈ mounted [] ops, pf.dir = false → Wanted index.1 path pf.name.1 →
        foundContent index w path rest = .found pf) ∧
      ((∀ pf ∈ mounted [] ops, ¬ Wanted index.1 path pf.name.1) →
        foundContent index w path rest = .notFound) := by
  obtain ⟨w, m, h1, h2, h3⟩ := changes_good ops World.init [] good_init hfair hn
  refine ⟨w, h1, ?_⟩
  have : mounted [] ops = w.files := h2.symm
  rw [this]
  exact fun path rest => lookup_exact h3 index path rest

/-- **C31 refuted** for directories: if directory `d` and the index file below it are mounted, a request
for `d` is answered with the directory's own entry, not with the index file; and with a query the same
request finds nothing (unless a file has the query in its name). -/
theorem C31_directory_refuted (index : Name) (ops : List Change) (hfair : Fair World.init ops)
    (hn : NoDup [] ops) (d i : PF) (hd : d ∈ mounted [] ops) (hi : i ∈ mounted [] ops)
    (hdir : d.dir = true) (hname : i.name.1 = d.name.1 ++ 47 :: index.1) (hlen : i.name.1.length < 4096)
    (hd0 : d.name.1 ≠ []) (hd1 : d.name.1.head? ≠ some 47) :
    ∃ w, changes World.init ops = some w ∧
      foundContent index w (47 :: d.name.1) [] = .found d ∧
      ∀ q, (∀ f ∈ mounted [] ops, f.name.1 ≠ d.name.1 ++ q ++ 47 :: index.1) →
        foundContent index w (47 :: d.name.1) q = .notFound := by
  obtain ⟨w, m, h1, h2, h3⟩ := changes_good ops World.init [] good_init hfair hn
  have e : mounted [] ops = w.files := h2.symm
  rw [e] at hd hi ⊢
  have hs : skipSlashes (47 :: d.name.1) = d.name.1 := by
    symm; apply stripped_unique
    exact ⟨1, rfl, hd1⟩
  have hne : w.files ≠ [] := by intro h; rw [h] at hd; cases hd
  refine ⟨w, h1, ?_, ?_⟩
  · unfold foundContent
    rw [if_neg hne]
    simp only [hs, if_neg hd0]
    rw [h3.find hd]
    simp only
    rw [find_pf h3.sound.addrs hd]
    simp only [hdir, if_true, List.append_nil]
    rw [← hname, if_neg (by unfold pathMax; omega), h3.find hi]
  · intro q hq
    unfold foundContent
    rw [if_neg hne]
    simp only [hs, if_neg hd0]
    rw [h3.find hd]
    simp only
    rw [find_pf h3.sound.addrs hd]
    simp only [hdir, if_true]
    split
    · rfl
    · cases hk : findKey w (d.name.1 ++ q ++ 47 :: index.1) with
      | none => rfl
      | some x =>
        obtain ⟨f, f1, _, f3⟩ := h3.sound.found hk
        exact absurd f3 (hq f f1)

/-- **C31's converse refuted** for equal names: a second mount point brings a file with the same relative
path as a mounted one; when the second file is removed, the first — still mounted — is not served any
more. -/
theorem C31_equal_names_refuted (index : Name) (ops : List Change) (hfair : Fair World.init ops)
    (hn : NoDup [] ops) (f g : PF) (a : Nat) (hf : f ∈ mounted [] ops) (hname : g.name = f.name)
    (hg : ∀ x ∈ mounted [] ops, x.addr ≠ g.addr) (hf0 : f.name.1 ≠ []) (hf1 : f.name.1.head? ≠ some 47)
    (w : World) (hw : changes World.init ops = some w) (ha : ∀ e ∈ w.idx.tree.toList, e.addr ≠ a) :
    ∃ w', changes World.init (ops ++ [.add g a, .remove g.addr]) = some w' ∧ f ∈ w'.files ∧
      foundContent index w' (47 :: f.name.1) [] = .notFound := by
  obtain ⟨w0, m, h1, h2, h3⟩ := changes_good ops World.init [] good_init hfair hn
  rw [hw] at h1
  cases h1
  have e : mounted [] ops = w.files := h2.symm
  rw [e] at hf hg
  obtain ⟨ent, he, hk, hdat, hh⟩ := h3.entry hf
  obtain ⟨w1, a1, a2, a3, a4, a5⟩ := add_sound w m h3.sound g a hg ha
  have hm : ∃ i ∈ m, i.key = g.name := ⟨_, h3.all f hf, hname.symm⟩
  obtain ⟨t1, t2⟩ := a5 hm
  have he1 : ent ∈ w1.idx.tree.toList := by rw [t1]; exact he
  have hh1 := a4 ent he1 (by rw [hk, hname])
  have hspec : RB.specStep m (.insert a g.name g.addr (some g.addr)) = m := by
    simp only [RB.specStep, if_pos hm]
  rw [hspec] at a3
  obtain ⟨s2, d1, d2⟩ := RB.delete_inv nameCmp nameCmp_lawful w1.idx m a3.inv ent he1
    (fun i => decide (i ≠ ent.item)) (by simp) (by
      intro x hx hne
      simp only [decide_eq_true_eq]
      intro h
      exact hne (RB.key_inj nameCmp_lawful a3.inv.sorted hx he1 (congrArg RB.Item.key h)))
  have hgin : g ∈ w1.files := by rw [a2]; simp
  have hrem : removeFile w1 g = some ⟨w1.files.filter (fun f => f.addr != g.addr), s2⟩ := by
    unfold removeFile
    rw [if_pos (by rw [List.any_eq_true]; exact ⟨g, hgin, by simp⟩), hh1]
    simp only [d1]
  refine ⟨⟨w1.files.filter (fun f => f.addr != g.addr), s2⟩, ?_, ?_, ?_⟩
  · have hap : ∀ (xs ys : List Change) (w : World), changes w (xs ++ ys) =
        match changes w xs with | none => none | some w' => changes w' ys := by
      intro xs
      induction xs with
      | nil => intro ys w; rfl
      | cons x xs ih =>
        intro ys w
        rw [List.cons_append]
        simp only [changes]
        cases change w x with
        | none => rfl
        | some w' => exact ih ys w'
    rw [hap, hw]
    have c1 : change w (.add g a) = some w1 := a1
    have c2 : change w1 (.remove g.addr) = some ⟨w1.files.filter (fun f => f.addr != g.addr), s2⟩ := by
      simp only [change]
      rw [find_pf a3.addrs hgin]
      exact hrem
    simp only [changes, c1, c2]
  · simp only [filter_addr_mem]
    rw [a2]
    exact ⟨by simp [hf], hg f hf⟩
  · have hs : skipSlashes (47 :: f.name.1) = f.name.1 := by
      symm; apply stripped_unique
      exact ⟨1, rfl, hf1⟩
    unfold foundContent
    split
    · rfl
    · simp only [hs, if_neg hf0]
      have : findKey ⟨w1.files.filter (fun f => f.addr != g.addr), s2⟩ f.name.1 = none := by
        unfold findKey
        rw [dif_neg f.name.2]
        cases hfd : RB.find nameCmp ⟨f.name.1, f.name.2⟩ s2.tree with
        | none => rfl
        | some x =>
          exfalso
          obtain ⟨x1, x2⟩ := RB.find_some nameCmp_lawful hfd
          have := (d2.abs.mem_iff).1 (List.mem_map_of_mem x1)
          rw [List.mem_filter] at this
          obtain ⟨y1, y2⟩ := this
          simp only [decide_eq_true_eq] at y2
          have z := (a3.inv.abs.mem_iff).2 y1
          rw [List.mem_map] at z
          obtain ⟨z, z1, z2⟩ := z
          have zk : z.key = ent.key := by
            have : z.key = x.key := congrArg RB.Item.key z2
            rw [this, x2, hk]
          have := RB.key_inj nameCmp_lawful a3.inv.sorted z1 he1 zk
          rw [this] at z2
          exact y2 z2.symm
      rw [this]

/-! A concrete site: two files and a directory at one mount point. -/

/-- `index.html`, `img`, `img/a.png` and `style.css` of mount point 0. -/
def siteFiles : List PF :=
  [⟨1, 0, ⟨b!"index.html", by decide⟩, false, false⟩, ⟨2, 0, ⟨b!"img/a.png", by decide⟩, false, false⟩,
   ⟨3, 0, ⟨b!"img", by decide⟩, true, false⟩, ⟨4, 0, ⟨b!"style.css", by decide⟩, false, false⟩,
   ⟨5, 0, ⟨b!"img/index.html", by decide⟩, false, false⟩]

/-- The site is mounted; then the style sheet disappears. -/
def siteOps : List Change := siteFiles.map (fun f => .add f (100 + f.addr)) ++ [.remove 4]

def siteIndex : Name := ⟨b!"index.html", by decide⟩

/-- Decidable form of `Fair`. -/
def fairB : World → List Change → Bool
  | _, [] => true
  | w, c :: cs =>
    (match c with
      | .add pf a => w.files.all (fun f => f.addr != pf.addr) && w.idx.tree.toList.all (fun e => e.addr != a)
      | .remove p => w.files.any (fun f => f.addr == p)) &&
    (match change w c with
      | none => true
      | some w' => fairB w' cs)

theorem fairB_sound : ∀ (cs : List Change) (w : World), fairB w cs = true → Fair w cs := by
  intro cs
  induction cs with
  | nil => intro w _; trivial
  | cons c cs ih =>
    intro w h
    unfold fairB at h
    rw [Bool.and_eq_true] at h
    refine ⟨?_, ?_⟩
    · cases c with
      | add pf a => simpa using h.1
      | remove p => simpa using h.1
    · intro w' hw
      rw [hw] at h
      exact ih w' h.2

/-- Decidable form of `NoDup`. -/
def noDupB : List (Bytes × Nat) → List Change → Bool
  | _, [] => true
  | live, .add pf _ :: cs =>
    live.all (fun x => decide (x.1 ≠ pf.name.1)) && noDupB (live ++ [(pf.name.1, pf.addr)]) cs
  | live, .remove p :: cs => noDupB (live.filter (fun x => x.2 != p)) cs

theorem noDupB_sound : ∀ (cs : List Change) (live : List (Bytes × Nat)), noDupB live cs = true →
    NoDup live cs := by
  intro cs
  induction cs with
  | nil => intro live _; trivial
  | cons c cs ih =>
    intro live h
    cases c with
    | add pf a =>
      simp only [noDupB, Bool.and_eq_true] at h
      exact ⟨by simpa using h.1, ih _ h.2⟩
    | remove p => exact ih _ h

theorem site_fair : Fair World.init siteOps := fairB_sound _ _ (by decide +kernel)
theorem site_noDup : NoDup [] siteOps := noDupB_sound _ _ (by decide +kernel)

/-- Hypotheses of the theorems above hold of the site, and the answers are the expected ones. -/
example : (changes World.init siteOps).map (fun w =>
    [foundContent siteIndex w b!"//img/a.png" [], foundContent siteIndex w b!"/" b!"?x=1",
     foundContent siteIndex w b!"/style.css" [], foundContent siteIndex w b!"/img" []]) =
    some [.found ⟨2, 0, ⟨b!"img/a.png", by decide⟩, false, false⟩,
      .found ⟨1, 0, ⟨b!"index.html", by decide⟩, false, false⟩, .notFound,
      .found ⟨3, 0, ⟨b!"img", by decide⟩, true, false⟩] := by decide +kernel

example : (⟨3, 0, ⟨b!"img", by decide⟩, true, false⟩ : PF) ∈ mounted [] siteOps ∧
    (⟨5, 0, ⟨b!"img/index.html", by decide⟩, false, false⟩ : PF) ∈ mounted [] siteOps := by decide +kernel

/-- `b` and `b` again from a second mount point, `a`, `c` and `d`; then both `b` disappear. -/
def twinOps : List Change :=
  [.add ⟨1, 0, ⟨b!"b", by decide⟩, false, false⟩ 101, .add ⟨2, 0, ⟨b!"a", by decide⟩, false, false⟩ 102,
   .add ⟨3, 0, ⟨b!"c", by decide⟩, false, false⟩ 103, .add ⟨4, 0, ⟨b!"d", by decide⟩, false, false⟩ 104,
   .add ⟨5, 1, ⟨b!"b", by decide⟩, false, false⟩ 105, .remove 1, .remove 5]

/-- **C31's converse refuted** once more: when two files with the same relative path disappear one after the
other, a third file with another name stops being served, although it is still mounted. -/
theorem C31_third_file_lost_refuted : ∃ (ops : List Change) (w : World) (f : PF),
    Fair World.init ops ∧ changes World.init ops = some w ∧ f ∈ mounted [] ops ∧ f.dir = false ∧
    (∀ g ∈ mounted [] ops, g.name.1 = f.name.1 → g = f) ∧
    (∀ q, Change.remove q ∈ ops → q ≠ f.addr) ∧
    foundContent siteIndex w (47 :: f.name.1) [] = .notFound := by
  have hw : (changes World.init twinOps).isSome = true := by decide +kernel
  obtain ⟨w, h⟩ := Option.isSome_iff_exists.1 hw
  refine ⟨twinOps, w, ⟨3, 0, ⟨b!"c", by decide⟩, false, false⟩, fairB_sound _ _ (by decide +kernel), h,
    by decide +kernel, rfl, by decide +kernel, ?_, ?_⟩
  · intro q hq
    simp [twinOps] at hq
    rcases hq with rfl | rfl <;> decide
  · have : (changes World.init twinOps).map
        (fun w => foundContent siteIndex w (47 :: b!"c") []) = some .notFound := by decide +kernel
    rw [h] at this
    exact Option.some.inj this

/-! ## C33: removal of a directory in the master -/

/-- Exact effect for a top-level directory none of whose name's extensions is a directory: the directory
and every file of the mount point whose name begins with the directory's name are removed. -/
theorem C33_exact (kern : PF → Bool) (index : Name) (ops : List Change) (hfair : Fair World.init ops)
    (hn : NoDup [] ops) (d : PF) (hd : d ∈ mounted [] ops) (hdir : d.dir = true) (hs : 47 ∉ d.name.1)
    (hk : ∀ f ∈ mounted [] ops, f.deleted = true ∨ kern f = true)
    (hnd : ∀ f ∈ mounted [] ops, f.mount = d.mount → f ≠ d → f.name.1.take d.name.1.length = d.name.1 →
      f.dir = false) :
    ∃ w n w', changes World.init ops = some w ∧ rmWatch kern n w d = .ok w' ∧
      (∀ f, f ∈ w'.files ↔ f ∈ mounted [] ops ∧ f ≠ d ∧
        ¬ (f.mount = d.mount ∧ f.name.1.take d.name.1.length = d.name.1)) ∧
      ∀ f ∈ mounted [] ops, f.dir = false → f.name.1 ≠ [] → f.name.1.head? ≠ some 47 →
        foundContent index w' (47 :: f.name.1) [] =
          if f.mount = d.mount ∧ f.name.1.take d.name.1.length = d.name.1 then .notFound else .found f := by
  obtain ⟨w, m, h1, h2, h3⟩ := changes_good ops World.init [] good_init hfair hn
  have e : mounted [] ops = w.files := h2.symm
  rw [e] at hd hk hnd ⊢
  -- names are unique
  have huniq : ∀ f ∈ w.files, f.name = d.name → f = d := by
    intro f hf hfd
    have x1 := h3.find hf
    have x2 := h3.find hd
    rw [hfd, x2] at x1
    exact pf_inj h3.sound.addrs hf hd (by injection x1 with x; exact x.symm)
  have hsd : ∀ f ∈ w.files, (sameDir d f = true ↔ f ≠ d ∧ f.name.1.take d.name.1.length = d.name.1) := by
    intro f hf
    rw [sameDir_iff]
    constructor
    · rintro ⟨l1, l2⟩
      exact ⟨fun h => l1 (by rw [h]), l2⟩
    · rintro ⟨l1, l2⟩
      refine ⟨fun h => ?_, l2⟩
      rw [h, List.take_length] at l2
      exact l1 (huniq f hf (Subtype.ext l2))
  obtain ⟨w1, m1, r1, r2, r3⟩ := rmLoop_spec kern d (mountFiles w d.mount).length (mountFiles w d.mount) [] w m
    ((mountFiles w d.mount).length + 1) h3 rfl (by omega) (by
      intro f hf hsf
      unfold mountFiles at hf
      rw [List.mem_filter] at hf
      have hm : f.mount = d.mount := by simpa using hf.2
      obtain ⟨s1, s2⟩ := (hsd f hf.1).1 hsf
      exact ⟨hnd f hf.1 hm s1 s2, hk f hf.1⟩)
  have hd1 : d ∈ w1.files := by
    rw [r3, List.mem_filter]
    refine ⟨hd, ?_⟩
    have : sameDir d d = false := by
      cases h : sameDir d d with
      | false => rfl
      | true => exact absurd rfl ((hsd d hd).1 h).1
    simp [this]
  obtain ⟨w2, m2, q1, q2, q3⟩ := remove_good w1 m1 r2 d hd1
  have hfiles : ∀ f, f ∈ w2.files ↔ f ∈ w.files ∧ f ≠ d ∧
      ¬ (f.mount = d.mount ∧ f.name.1.take d.name.1.length = d.name.1) := by
    intro f
    rw [q2, filter_addr_mem, r3, List.mem_filter]
    constructor
    · rintro ⟨⟨f1, f2⟩, f3⟩
      have hfd : f ≠ d := fun h => f3 (by rw [h])
      refine ⟨f1, hfd, ?_⟩
      rintro ⟨g1, g2⟩
      have hin : f ∈ mountFiles w d.mount := by
        unfold mountFiles
        rw [List.mem_filter]
        exact ⟨f1, by simpa using g1⟩
      have := (hsd f f1).2 ⟨hfd, g2⟩
      simp [hin, this] at f2
    · rintro ⟨f1, f2, f3⟩
      refine ⟨⟨f1, ?_⟩, fun h => f2 (pf_inj h3.sound.addrs f1 hd h)⟩
      by_cases hin : f ∈ mountFiles w d.mount
      · have hm : f.mount = d.mount := by
          unfold mountFiles at hin
          simpa using (List.mem_filter.1 hin).2
        have : sameDir d f = false := by
          cases h : sameDir d f with
          | false => rfl
          | true => exact absurd ⟨hm, ((hsd f f1).1 h).2⟩ f3
        simp [this]
      · simp [hin]
  refine ⟨w, (mountFiles w d.mount).length + 2, w2, h1, ?_, hfiles, ?_⟩
  · unfold rmWatch
    rw [if_pos hdir, if_neg hs, r1]
    simp only
    unfold rmSelf
    rw [if_neg (by rcases hk d hd with h | h <;> simp [h]), q1]
  · intro f hf hfd hf0 hf1
    have hskip : Wanted index.1 (47 :: f.name.1) f.name.1 :=
      ⟨f.name.1, ⟨1, rfl, hf1⟩, Or.inl ⟨hf0, rfl⟩⟩
    have hnd : f ≠ d := fun h => by rw [h, hdir] at hfd; cases hfd
    by_cases hc : f.mount = d.mount ∧ f.name.1.take d.name.1.length = d.name.1
    · rw [if_pos hc]
      refine (lookup_exact q3 index _ []).2 ?_
      intro g hg hw
      rw [wanted_skip] at hw
      rw [wanted_skip] at hskip
      have hgf : g.name = f.name := Subtype.ext (by rw [hw, ← hskip])
      obtain ⟨g1, g2, g3⟩ := (hfiles g).1 hg
      have x1 := h3.find g1
      have x2 := h3.find hf
      rw [hgf, x2] at x1
      have : g = f := pf_inj h3.sound.addrs g1 hf (by injection x1 with x; exact x.symm)
      rw [this] at g3
      exact g3 hc
    · rw [if_neg hc]
      exact (lookup_exact q3 index _ []).1 f ((hfiles f).2 ⟨hf, hnd, hc⟩) hfd hskip

/-- **C33** (partial: a top-level directory without subdirectories, no other name of the mount point
begins with the directory's name, and the kernel drops the watches). The master removes the directory
and exactly the files below it, and these are not found any more while every other file still is. -/
theorem C33_partial (kern : PF → Bool) (index : Name) (ops : List Change) (hfair : Fair World.init ops)
    (hn : NoDup [] ops) (d : PF) (hd : d ∈ mounted [] ops) (hdir : d.dir = true) (hs : 47 ∉ d.name.1)
    (hk : ∀ f ∈ mounted [] ops, f.deleted = true ∨ kern f = true)
    (hsub : ∀ f ∈ mounted [] ops, Below d f → f.dir = false)
    (hsib : ∀ f ∈ mounted [] ops, f.mount = d.mount → f ≠ d →
      f.name.1.take d.name.1.length = d.name.1 → Below d f) :
    ∃ w n w', changes World.init ops = some w ∧ rmWatch kern n w d = .ok w' ∧
      (∀ f, f ∈ w'.files ↔ f ∈ mounted [] ops ∧ f ≠ d ∧ ¬ Below d f) ∧
      (∀ f ∈ mounted [] ops, Below d f → f.name.1.head? ≠ some 47 →
        foundContent index w' (47 :: f.name.1) [] = .notFound) ∧
      (∀ f ∈ mounted [] ops, f.dir = false → ¬ Below d f → f.name.1 ≠ [] → f.name.1.head? ≠ some 47 →
        foundContent index w' (47 :: f.name.1) [] = .found f) := by
  have hb : ∀ f, Below d f → f.mount = d.mount ∧ f.name.1.take d.name.1.length = d.name.1 := by
    rintro f ⟨b1, r, b2⟩
    exact ⟨b1, by rw [b2]; simp⟩
  obtain ⟨w, n, w', h1, h2, h3, h4⟩ := C33_exact kern index ops hfair hn d hd hdir hs hk
    (fun f hf hm hne hp => hsub f hf (hsib f hf hm hne hp))
  refine ⟨w, n, w', h1, h2, ?_, ?_, ?_⟩
  · intro f
    rw [h3]
    constructor
    · rintro ⟨a, b, c⟩; exact ⟨a, b, fun hB => c (hb f hB)⟩
    · rintro ⟨a, b, c⟩; exact ⟨a, b, fun hB => c (hsib f a hB.1 b hB.2)⟩
  · intro f hf hB hf1
    have hf0 : f.name.1 ≠ [] := by
      obtain ⟨_, r, hr⟩ := hB
      rw [hr]; simp
    rw [h4 f hf (hsub f hf hB) hf0 hf1, if_pos (hb f hB)]
  · intro f hf hfd hB hf0 hf1
    have hne : f ≠ d := fun h => by rw [h, hdir] at hfd; cases hfd
    rw [h4 f hf hfd hf0 hf1, if_neg (fun h => hB (hsib f hf h.1 hne h.2))]

/-- The site of above meets the hypotheses for its directory `img`. -/
example : (⟨3, 0, ⟨b!"img", by decide⟩, true, false⟩ : PF) ∈ mounted [] siteOps ∧
    (mounted [] siteOps).map (fun f => (f.name.1, f.dir)) =
      [(b!"index.html", false), (b!"img/a.png", false), (b!"img", true), (b!"img/index.html", false)] := by
  decide +kernel

/-- **C33 refuted**: when a directory below another directory disappears, the master never gets out of
the removal. -/
theorem C33_nested_refuted (kern : PF → Bool) (w : World) (d : PF) (hdir : d.dir = true)
    (hs : 47 ∈ d.name.1) (n : Nat) : rmWatch kern n w d = .hang := by
  cases n with
  | zero => rfl
  | succ n =>
    unfold rmWatch
    rw [if_pos hdir, if_pos hs]

/-- **C33 refuted**: a file beside the directory whose name begins with the directory's name is removed
with it, although it is not below it. -/
theorem C33_sibling_refuted (kern : PF → Bool) (index : Name) (ops : List Change) (hfair : Fair World.init ops)
    (hn : NoDup [] ops) (d f : PF) (hd : d ∈ mounted [] ops) (hdir : d.dir = true) (hs : 47 ∉ d.name.1)
    (hk : ∀ f ∈ mounted [] ops, f.deleted = true ∨ kern f = true)
    (hnd : ∀ f ∈ mounted [] ops, f.mount = d.mount → f ≠ d → f.name.1.take d.name.1.length = d.name.1 →
      f.dir = false)
    (hf : f ∈ mounted [] ops) (hm : f.mount = d.mount) (c : Nat) (r : Bytes) (hc : c ≠ 47)
    (hname : f.name.1 = d.name.1 ++ c :: r) (hd0 : d.name.1 ≠ []) :
    ¬ Below d f ∧ ∃ w n w', changes World.init ops = some w ∧ rmWatch kern n w d = .ok w' ∧ f ∉ w'.files ∧
      foundContent index w' (47 :: f.name.1) [] = .notFound := by
  have hhead : f.name.1.head? ≠ some 47 := by
    rw [hname]
    cases hn : d.name.1 with
    | nil => exact absurd hn hd0
    | cons x xs =>
      simp only [List.cons_append, List.head?_cons]
      intro h
      injection h with h
      exact hs (by rw [hn, h]; simp)
  have htake : f.name.1.take d.name.1.length = d.name.1 := by rw [hname]; simp
  have hne : f ≠ d := fun h => by
    have := congrArg (fun x : PF => x.name.1.length) h
    simp only [hname, List.length_append, List.length_cons] at this
    omega
  refine ⟨?_, ?_⟩
  · rintro ⟨_, r', hr⟩
    rw [hname] at hr
    have := List.append_cancel_left hr
    injection this with h _
    exact hc h
  · obtain ⟨w, n, w', h1, h2, h3, h4⟩ := C33_exact kern index ops hfair hn d hd hdir hs hk hnd
    refine ⟨w, n, w', h1, h2, ?_, ?_⟩
    · intro h
      exact ((h3 f).1 h).2.2 ⟨hm, htake⟩
    · rw [h4 f hf (hnd f hf hm hne htake) (by rw [hname]; simp) hhead, if_pos ⟨hm, htake⟩]

/-- A site with the directory `img` and, beside it, the file `img2.png`. -/
def sibOps : List Change :=
  [.add ⟨1, 0, ⟨b!"img", by decide⟩, true, false⟩ 101, .add ⟨2, 0, ⟨b!"img2.png", by decide⟩, false, false⟩ 102,
   .add ⟨3, 0, ⟨b!"img/a.png", by decide⟩, false, false⟩ 103]

example : Fair World.init sibOps ∧ NoDup [] sibOps :=
  ⟨fairB_sound _ _ (by decide +kernel), noDupB_sound _ _ (by decide +kernel)⟩

example : (changes World.init sibOps).map (fun w =>
    match rmWatch (fun _ => true) 10 w ⟨1, 0, ⟨b!"img", by decide⟩, true, false⟩ with
    | .ok w' => w'.files
    | _ => w.files) = some [] := by decide +kernel

/-- **C33 refuted**: a top-level directory with a subdirectory is never removed either (the master loops
for ever or gives up; siblings that are directories are excluded here only to keep the statement short). -/
theorem C33_subdirectory_refuted (kern : PF → Bool) (ops : List Change) (hfair : Fair World.init ops)
    (hn : NoDup [] ops) (d s : PF) (hs : 47 ∉ d.name.1) (hdir : d.dir = true)
    (hsin : s ∈ mounted [] ops) (hsdir : s.dir = true) (hsb : Below d s)
    (hsib : ∀ f ∈ mounted [] ops, f.mount = d.mount → f.name.1.length ≠ d.name.1.length →
      f.name.1.take d.name.1.length = d.name.1 → Below d f) :
    ∃ w, changes World.init ops = some w ∧ ∀ n w', rmWatch kern n w d ≠ .ok w' := by
  obtain ⟨w, m, h1, h2, h3⟩ := changes_good ops World.init [] good_init hfair hn
  have e : mounted [] ops = w.files := h2.symm
  rw [e] at hsin hsib
  refine ⟨w, h1, ?_⟩
  intro n w'
  have hbs : ∀ f, Below d f → 47 ∈ f.name.1 ∧ sameDir d f = true ∧ f.mount = d.mount := by
    rintro f ⟨b1, r, b2⟩
    refine ⟨by rw [b2]; simp, ?_, b1⟩
    rw [sameDir_iff, b2]
    simp
  cases n with
  | zero => simp [rmWatch]
  | succ n =>
    unfold rmWatch
    rw [if_pos hdir, if_neg hs]
    have key := rmLoop_never kern d s n (hbs s hsb).2.1 hsdir (hbs s hsb).1 (mountFiles w d.mount) [] w m n h3 rfl
      (by
        unfold mountFiles
        rw [List.mem_filter]
        exact ⟨hsin, by simp [(hbs s hsb).2.2]⟩)
      (by
        intro f hf hsd _
        unfold mountFiles at hf
        rw [List.mem_filter] at hf
        rw [sameDir_iff] at hsd
        exact (hbs f (hsib f hf.1 (by simpa using hf.2) (fun h => hsd.1 h.symm) hsd.2)).1)
    cases hr : rmLoop (rmWatch kern n) d n w ((mountFiles w d.mount).head?.map (·.addr)) with
    | ok w1 => exact absurd hr (key w1)
    | fail => simp
    | hang => simp
    | wild => simp

/-- The directory `a` with the subdirectory `a/b`. -/
def subOps : List Change :=
  [.add ⟨1, 0, ⟨b!"a", by decide⟩, true, false⟩ 101, .add ⟨2, 0, ⟨b!"a/b", by decide⟩, true, false⟩ 102]

example : Fair World.init subOps ∧ NoDup [] subOps ∧
    (mounted [] subOps).map (fun f => (f.name.1, f.dir)) = [(b!"a", true), (b!"a/b", true)] :=
  ⟨fairB_sound _ _ (by decide +kernel), noDupB_sound _ _ (by decide +kernel), by decide +kernel⟩

end Fly.Mount
