import Verif.Scan.Lemmas
import Verif.Mount.Props

/-! # C78–C81: mounting a directory, the limit, the update after a change, and what is said about a file -/

namespace Fly.Scan

open Fly.Mount

/-! ## C78: mounting -/

/-- **C78** (partial: names below 255 bytes, paths below 4096, readable directories, enough room below the
limit). Mounting a directory registers exactly the files and directories below it, each once, under its path
relative to the directory; afterwards every regular file is served under that path, and a path that nothing
below the directory has is not found. -/
theorem C78_partial (index : Name) (max m : Nat) (mp : Bytes) (f : Forest) (hp : Proper f) (ho : DirsOpen f)
    (hf : Fits mp.length f) (hc : size f ≤ max) :
    ∃ es, mountDir max 0 mp f = .ok es ∧ (∀ p d, (p, d) ∈ es ↔ Has f p d) ∧ (es.map (·.1)).Nodup ∧
      ∀ ops, Registers m es ops → Fair World.init ops →
        ∃ w, changes World.init ops = some w ∧
          (∀ p, Has f p false → ∃ pf, pf.name.1 = p ∧ pf.dir = false ∧
            ∀ rest, foundContent index w (47 :: p) rest = .found pf) ∧
          (∀ p rest, p ≠ [] → p.head? ≠ some 47 → (∀ d, ¬ Has f p d) →
            foundContent index w (47 :: p) rest = .notFound) := by
  have hmem : ∀ p d, (p, d) ∈ entries [] f ↔ Has f p d := by
    intro p d
    rw [entries_has]
    simp
  refine ⟨entries [] f, mountDir_spec max 0 mp f hp ho hf (by omega), hmem, entries_nodup f [] hp, ?_⟩
  intro ops hr hfair
  obtain ⟨w, h1, h2⟩ := C31_exact_partial index ops hfair (registers_noDup m _ ops [] hr (entries_nodup f [] hp) (by simp))
  obtain ⟨new, g1, g2, g3⟩ := registers_mounted m _ ops [] hr
  simp only [List.nil_append] at g1
  refine ⟨w, h1, ?_, ?_⟩
  · intro p hh
    have := (hmem p false).2 hh
    rw [← g2, List.mem_map] at this
    obtain ⟨pf, k1, k2⟩ := this
    simp only [Prod.mk.injEq] at k2
    obtain ⟨ok1, ok2, ok3⟩ := has_ok f hp hh
    refine ⟨pf, k2.1, k2.2, fun rest => (h2 _ rest).1 pf (by rw [g1]; exact k1) k2.2 ?_⟩
    rw [k2.1]
    exact ⟨p, ⟨1, rfl, ok3⟩, Or.inl ⟨ok1, rfl⟩⟩
  · intro p rest hp0 hp1 hno
    refine (h2 _ rest).2 ?_
    intro pf hpf hw
    rw [wanted_skip] at hw
    have hs : skipSlashes (47 :: p) = p := by
      simp only [skipSlashes, if_true]
      exact skipSlashes_self hp1
    rw [hs, if_neg hp0] at hw
    rw [g1] at hpf
    have : (pf.name.1, pf.dir) ∈ entries [] f := by rw [← g2]; exact List.mem_map_of_mem hpf
    rw [hw] at this
    exact hno pf.dir ((hmem p pf.dir).1 this)

/-- A directory with two files and a subdirectory. -/
def site : Forest :=
  .file b!"index.html" true (.dir b!"img" true (.file b!"a.png" true (.dangling b!"old" .nil)) (.file b!"b" false .nil))

example : Proper site ∧ DirsOpen site ∧ Fits 8 site ∧ size site ≤ 100 := by
  refine ⟨?_, ?_, ?_, by decide⟩
  · simp [site, Proper, NameOk, names]
  · simp [site, DirsOpen]
  · simp [site, Fits]

example : mountDir 100 0 b!"/srv/www" site =
    .ok [(b!"index.html", false), (b!"img/a.png", false), (b!"img", true), (b!"b", false)] := by decide +kernel

/-- **C78 refuted**: a file whose name has 255 bytes — which file systems allow — is left out. -/
theorem C78_long_name_refuted (max count : Nat) (mp n : Bytes) (r : Bool) (rest : Forest)
    (hn : n.length = 255) (hmp : mp.length + 256 ≤ 4096) (hp : Proper (.file n r rest)) (ho : DirsOpen rest)
    (hf : Fits mp.length rest) (hc : count + size rest ≤ max) :
    ∃ es, mountDir max count mp (.file n r rest) = .ok es ∧ Has (.file n r rest) n false ∧ ∀ d, (n, d) ∉ es := by
  refine ⟨entries [] rest, ?_, Or.inl ⟨rfl, rfl⟩, ?_⟩
  · have := mountDir_spec max count mp rest hp.2.2 ho hf hc
    rw [← this]
    unfold mountDir
    have : scan mp max mp (.file n r rest) ⟨count, []⟩ = scan mp max mp rest ⟨count, []⟩ := by
      simp only [scan]
      rw [if_neg (by simp only [List.length_append, List.length_cons, pathMax]; omega),
        if_pos (Or.inr (by unfold nameMax; omega))]
    rw [this]
  · intro d h
    rw [entries_has] at h
    obtain ⟨q, h1, h2⟩ := h
    simp only [List.nil_append] at h1
    subst h1
    have := first_name rest hp.2.2 h2
    rw [takeWhile_no' hp.1.2.2] at this
    exact hp.2.1 this

example : Proper (.file (List.replicate 255 97) true site) := by
  refine ⟨⟨by decide +kernel, by decide +kernel, by decide +kernel⟩, by decide +kernel, ?_⟩
  simp [site, Proper, NameOk, names]

/-- A directory that cannot be opened anywhere below makes the whole mount fail. -/
theorem C78_unreadable_directory_refused (max count : Nat) (mp : Bytes) (f : Forest) (hp : Proper f)
    (ho : ¬ DirsOpen f) (hf : Fits mp.length f) (hc : count + size f ≤ max) :
    mountDir max count mp f = .fail := by
  have key : ∀ (f : Forest) (path pre : Bytes) (acc : Acc),
      (∀ x, path ++ 47 :: x = mp ++ 47 :: (pre ++ x)) → pre.head? ≠ some 47 → Proper f → ¬ DirsOpen f →
      Fits path.length f → acc.count + size f ≤ max →
      (∀ e ∈ entries pre f, e.1 ∉ acc.out.map (·.1)) → scan mp max path f acc = .fail := by
    intro f
    induction f with
    | nil => intro path pre acc _ _ _ h; exact absurd trivial h
    | dangling n rest ih =>
      intro path pre acc hpath hpre hp ho hf hc hd
      unfold scan
      rw [if_neg (by simp only [List.length_append, List.length_cons, pathMax]; have := hf.2.1; omega)]
      exact ih path pre acc hpath hpre hp.2.2 ho hf.2.2 hc hd
    | file n r rest ih =>
      intro path pre acc hpath hpre hp ho hf hc hd
      have hl : (path ++ 47 :: n).length < 4096 := by
        simp only [List.length_append, List.length_cons]; have := hf.2.1; omega
      have hhead : (pre ++ n).head? ≠ some 47 :=
        head_append hpre ((has_ok (.file n r .nil) ⟨hp.1, by simp [names], trivial⟩ (Or.inl ⟨rfl, rfl⟩)).2.2)
      have hnd := entries_nodup (.file n r rest) pre hp
      simp only [entries, List.map_cons, List.nodup_cons] at hnd
      unfold scan
      rw [if_neg (by unfold pathMax; omega), if_neg (by unfold pathMax nameMax; have := hf.1; omega), hpath,
        register_new mp _ false acc hhead (hd (pre ++ n, false) (by simp [entries]))]
      simp only
      refine ih path pre _ hpath hpre hp.2.2 ho hf.2.2 (by simp only [size] at hc ⊢; omega) ?_
      intro e he
      simp only [List.map_append, List.map_cons, List.map_nil, List.mem_append, List.mem_singleton, not_or]
      refine ⟨hd e (by simp [entries, he]), ?_⟩
      intro h
      exact hnd.1 (by rw [← h]; exact List.mem_map_of_mem he)
    | dir n r ch rest ih1 ih2 =>
      intro path pre acc hpath hpre hp ho hf hc hd
      have hl : (path ++ 47 :: n).length < 4096 := by
        simp only [List.length_append, List.length_cons]; have := hf.2.1; omega
      have hhead : (pre ++ n).head? ≠ some 47 :=
        head_append hpre ((has_ok (.file n r .nil) ⟨hp.1, by simp [names], trivial⟩ (Or.inl ⟨rfl, rfl⟩)).2.2)
      have hnd := entries_nodup (.dir n r ch rest) pre hp
      simp only [entries, List.map_append, List.map_cons, List.map_nil] at hnd
      rw [List.nodup_append, List.nodup_append] at hnd
      obtain ⟨⟨d1, _, d2⟩, d3, d4⟩ := hnd
      simp only [size] at hc
      have hpath' : ∀ x, path ++ 47 :: n ++ 47 :: x = mp ++ 47 :: (pre ++ n ++ [47] ++ x) := by
        intro x; rw [hpath n]; simp
      have hpre' : (pre ++ n ++ [47]).head? ≠ some 47 := by
        cases hx : pre ++ n with
        | nil =>
          have : n = [] := (List.append_eq_nil_iff.1 hx).2
          exact absurd this hp.1.1
        | cons a l => rw [hx] at hhead; simpa using hhead
      have hfit : Fits (path ++ 47 :: n).length ch := by
        have e : (path ++ 47 :: n).length = path.length + 1 + n.length := by
          simp only [List.length_append, List.length_cons]; omega
        rw [e]; exact hf.2.2.1
      have hdd : ∀ e ∈ entries (pre ++ n ++ [47]) ch, e.1 ∉ acc.out.map (·.1) :=
        fun e he => hd e (List.mem_append_left _ (List.mem_append_left _ he))
      unfold scan
      rw [if_neg (by unfold pathMax; omega), if_neg (by unfold pathMax nameMax; have := hf.1; omega)]
      by_cases hr : r = false
      · rw [if_pos (Or.inr hr)]
      · have hr' : r = true := by simpa using hr
        rw [if_neg (by rw [hr']; simp; omega)]
        by_cases hch : DirsOpen ch
        · rw [scan_spec mp max ch (path ++ 47 :: n) (pre ++ n ++ [47]) acc hpath' hpre' hp.2.2.1 hch hfit
            (by omega) hdd]
          simp only
          rw [hpath n, register_new mp _ true _ hhead]
          · simp only
            refine ih2 path pre _ hpath hpre hp.2.2.2 (fun h => ho ⟨hr', hch, h⟩) hf.2.2.2 (by simp only; omega) ?_
            intro e he
            simp only [List.map_append, List.map_cons, List.map_nil, List.mem_append, List.mem_singleton, not_or]
            refine ⟨⟨hd e (by simp [entries, he]), ?_⟩, ?_⟩
            · intro h
              exact d4 e.1 (List.mem_append_left _ h) e.1 (List.mem_map_of_mem he) rfl
            · intro h
              exact d4 e.1 (by simp [h]) e.1 (List.mem_map_of_mem he) rfl
          · simp only [List.map_append, List.mem_append, not_or]
            refine ⟨hd (pre ++ n, true) (by simp [entries]), ?_⟩
            intro h
            exact d2 _ h _ (by simp) rfl
        · rw [ih1 (path ++ 47 :: n) (pre ++ n ++ [47]) acc hpath' hpre' hp.2.2.1 hch hfit (by omega) hdd]
  unfold mountDir
  rw [if_neg (by omega), key f mp [] ⟨count, []⟩ (fun x => rfl) (by simp) hp ho hf hc (by simp)]

example : ¬ DirsOpen (.file b!"a" true (.dir b!"private" false .nil .nil)) ∧
    mountDir 100 0 b!"/srv" (.file b!"a" true (.dir b!"private" false .nil .nil)) = .fail := by
  refine ⟨by simp [DirsOpen], by decide +kernel⟩

/-! ## C79: the limit on the number of files -/

/-- The regular files `ns`, then the entries `t`. -/
def flatThen : List Bytes → Forest → Forest
  | [], t => t
  | n :: ns, t => .file n true (flatThen ns t)

/-- A directory with the regular files `ns`. -/
def flat (ns : List Bytes) : Forest := flatThen ns .nil

theorem scan_flatThen (max : Nat) (mp : Bytes) (hmp : mp.length + 256 ≤ 4096) (t : Forest) :
    ∀ (ns : List Bytes) (acc : Acc), ns.Nodup → (∀ n ∈ ns, NameOk n ∧ n.length < 255) →
      (∀ n ∈ ns, n ∉ acc.out.map (·.1)) →
      scan mp max mp (flatThen ns t) acc =
        scan mp max mp t ⟨acc.count + ns.length, acc.out ++ ns.map (fun n => (n, false))⟩ := by
  intro ns
  induction ns with
  | nil => intro acc _ _ _; simp [flatThen]
  | cons n ns ih =>
    intro acc hn hok hd
    obtain ⟨h1, h2⟩ := hok n (by simp)
    rw [List.nodup_cons] at hn
    have hhead : n.head? ≠ some 47 :=
      (has_ok (.file n true .nil) ⟨h1, by simp [names], trivial⟩ (Or.inl ⟨rfl, rfl⟩)).2.2
    simp only [flatThen]
    rw [scan]
    rw [if_neg (by simp only [List.length_append, List.length_cons, pathMax]; omega),
      if_neg (by simp only [List.length_append, List.length_cons, pathMax, nameMax]; omega),
      register_new mp n false acc hhead (hd n (by simp))]
    simp only
    rw [ih _ hn.2 (fun x hx => hok x (by simp [hx]))]
    · simp only [List.map_cons, List.length_cons, List.append_assoc, List.singleton_append]
      congr 2
      omega
    · intro x hx
      simp only [List.map_append, List.map_cons, List.map_nil, List.mem_append, List.mem_singleton, not_or]
      refine ⟨hd x (by simp [hx]), ?_⟩
      intro h
      exact hn.1 (h ▸ hx)

/-- **C79** (partial). Once more files are mounted than the limit allows, every further mount is refused, and
a mount that meets a directory after that many files fails. -/
theorem C79_partial (max : Nat) (mp : Bytes) :
    (∀ count f, max < count → mountDir max count mp f = .fail) ∧
    ∀ (ns : List Bytes) (n : Bytes) (r : Bool) (ch rest : Forest), ns.Nodup →
      (∀ n ∈ ns, NameOk n ∧ n.length < 255) → n.length < 255 → mp.length + 256 ≤ 4096 → max < ns.length →
      mountDir max 0 mp (flatThen ns (.dir n r ch rest)) = .fail := by
  refine ⟨fun count f h => ?_, fun ns n r ch rest hn hok hl hmp h => ?_⟩
  · unfold mountDir
    rw [if_pos h]
  · unfold mountDir
    rw [if_neg (by omega), scan_flatThen max mp hmp _ ns ⟨0, []⟩ hn hok (by simp), scan,
      if_neg (by simp only [List.length_append, List.length_cons, pathMax]; omega),
      if_neg (by simp only [List.length_append, List.length_cons, pathMax, nameMax]; omega),
      if_pos (Or.inl (by simp; omega))]

/-- **C79 refuted**: a single directory is mounted completely, however many files it has and however low
the limit is. -/
theorem C79_limit_refuted (max : Nat) (mp : Bytes) (ns : List Bytes) (hn : ns.Nodup)
    (hok : ∀ n ∈ ns, NameOk n ∧ n.length < 255) (hmp : mp.length + 256 ≤ 4096) :
    mountDir max 0 mp (flat ns) = .ok (ns.map (fun n => (n, false))) := by
  unfold mountDir flat
  rw [if_neg (by omega), scan_flatThen max mp hmp _ ns ⟨0, []⟩ hn hok (by simp), scan]
  simp

example : mountDir 0 0 b!"/srv" (flat [b!"a", b!"b", b!"c"]) =
    .ok [(b!"a", false), (b!"b", false), (b!"c", false)] ∧
    mountDir 2 0 b!"/srv" (flatThen [b!"a", b!"b", b!"c"] (.dir b!"d" true .nil .nil)) = .fail := by decide +kernel

/-! ## C80: the update of a worker -/

/-- Exact effect of the handling of a change notice. -/
theorem C80_exact (ops : List Change) (hfair : Fair World.init ops) (hn : NoDup [] ops) (v : Env)
    (ha : FreshAlloc v.alloc) (f : Forest) (hp : Proper f) (ho : AllOpen f) (hf : Fits v.mp.length f)
    (hl : ∀ p d, Has f p d → p.length < 255)
    (hother : ∀ p d, Has f p d → ∀ g ∈ mounted [] ops, g.name.1 = p → g.mount = v.mount) :
    ∃ w w' mm, changes World.init ops = some w ∧ update v f w = .ok w' ∧ Good w' mm ∧
      (∀ g, g.mount ≠ v.mount → (g ∈ w'.files ↔ g ∈ mounted [] ops)) ∧
      (∀ g ∈ w'.files, g ∈ mounted [] ops ∨ Has f g.name.1 g.dir) ∧
      (∀ p, (∃ g ∈ w'.files, g.mount = v.mount ∧ g.name.1 = p) ↔
        (∃ d, Has f p d) ∨ ((∃ g ∈ mounted [] ops, g.mount = v.mount ∧ g.name.1 = p) ∧
          ∃ q r, Has f q false ∧ p = q ++ 47 :: r)) := by
  obtain ⟨w, m, h1, h2, h3⟩ := changes_good ops World.init [] good_init hfair hn
  have e : mounted [] ops = w.files := h2.symm
  rw [e] at hother ⊢
  have hmem : ∀ p d, (p, d) ∈ entries [] f ↔ Has f p d := by
    intro p d; rw [entries_has]; simp
  obtain ⟨w1, m1, a1, a2, ⟨new, a3, a4⟩, a5⟩ := addWalk_spec v ha f v.mp [] w m h3 (fun x => rfl) (by simp) (by simp)
    hp ho hf (fun e he => hl e.1 e.2 ((hmem e.1 e.2).1 he)) (fun e he => hother e.1 e.2 ((hmem e.1 e.2).1 he))
  obtain ⟨w2, m2, b1, b2, b3⟩ := delWalk_spec v.mount f (mountFiles w1 v.mount) [] w1 m1
    ((mountFiles w1 v.mount).length + 1) a2 rfl (by omega)
  have hin : ∀ g, g ∈ w2.files ↔ g ∈ w1.files ∧ ¬ (g.mount = v.mount ∧ statName f g.name.1 = .noent) := by
    intro g
    rw [b3, List.mem_filter]
    constructor
    · rintro ⟨c1, c2⟩
      refine ⟨c1, ?_⟩
      rintro ⟨c3, c4⟩
      have : g ∈ mountFiles w1 v.mount := by
        unfold mountFiles
        rw [List.mem_filter]
        exact ⟨c1, by simpa using c3⟩
      simp [this, c4] at c2
    · rintro ⟨c1, c2⟩
      refine ⟨c1, ?_⟩
      by_cases c3 : g ∈ mountFiles w1 v.mount
      · have hgm : g.mount = v.mount := by
          unfold mountFiles at c3
          simpa using (List.mem_filter.1 c3).2
        have : statName f g.name.1 ≠ .noent := fun h => c2 ⟨hgm, h⟩
        simp [this]
      · simp [c3]
  refine ⟨w, w2, m2, h1, ?_, b2, ?_, ?_, ?_⟩
  · unfold update
    rw [a1]
    exact b1
  · intro g hg
    rw [hin, a3, List.mem_append]
    constructor
    · rintro ⟨c | c, _⟩
      · exact c
      · exact absurd (a4 g c).1 hg
    · intro c
      exact ⟨Or.inl c, fun h => hg h.1⟩
  · intro g hg
    obtain ⟨c, _⟩ := (hin g).1 hg
    rw [a3, List.mem_append] at c
    rcases c with c | c
    · exact Or.inl c
    · exact Or.inr ((hmem _ _).1 (a4 g c).2.1)
  · intro p
    constructor
    · rintro ⟨g, g1, g2, g3⟩
      obtain ⟨c1, c2⟩ := (hin g).1 g1
      rw [g3] at c2
      cases hs : statName f p with
      | ok => exact Or.inl ((stat_ok f p).1 hs)
      | noent => exact absurd ⟨g2, hs⟩ c2
      | notdir =>
        obtain ⟨s1, s2⟩ := (stat_notdir f p).1 hs
        right
        refine ⟨?_, s2⟩
        rw [a3, List.mem_append] at c1
        rcases c1 with c1 | c1
        · exact ⟨g, c1, g2, g3⟩
        · exact absurd ⟨g.dir, g3 ▸ (hmem _ _).1 (a4 g c1).2.1⟩ s1
    · rintro (⟨d, hd⟩ | ⟨⟨g, g1, g2, g3⟩, hq⟩)
      · obtain ⟨g, g1, g2, g3⟩ := a5 (p, d) ((hmem p d).2 hd)
        simp only at g3
        refine ⟨g, (hin g).2 ⟨g1, ?_⟩, g2, g3⟩
        rintro ⟨_, hs⟩
        rw [g3, (stat_ok f p).2 ⟨d, hd⟩] at hs
        cases hs
      · refine ⟨g, (hin g).2 ⟨by rw [a3]; simp [g1], ?_⟩, g2, g3⟩
        rintro ⟨_, hs⟩
        rw [g3] at hs
        by_cases hex : ∃ d, Has f p d
        · rw [(stat_ok f p).2 hex] at hs; cases hs
        · rw [(stat_notdir f p).2 ⟨hex, hq⟩] at hs; cases hs

/-- **C80** (partial: everything below the mount point can be opened, relative paths below 255 bytes, no other
mount point has one of them, and no registered file lies below what is now a regular file). After a worker
has handled a change notice, the files it has of the mount point are exactly those that exist; regular ones are
served, and what exists nowhere is not found. -/
theorem C80_partial (index : Name) (ops : List Change) (hfair : Fair World.init ops) (hn : NoDup [] ops) (v : Env)
    (ha : FreshAlloc v.alloc) (f : Forest) (hp : Proper f) (ho : AllOpen f) (hf : Fits v.mp.length f)
    (hl : ∀ p d, Has f p d → p.length < 255)
    (hother : ∀ p d, Has f p d → ∀ g ∈ mounted [] ops, g.name.1 = p → g.mount = v.mount)
    (hrep : ∀ g ∈ mounted [] ops, g.mount = v.mount → ¬ ∃ q r, Has f q false ∧ g.name.1 = q ++ 47 :: r) :
    ∃ w w', changes World.init ops = some w ∧ update v f w = .ok w' ∧
      (∀ g, g.mount ≠ v.mount → (g ∈ w'.files ↔ g ∈ mounted [] ops)) ∧
      (∀ p, (∃ g ∈ w'.files, g.mount = v.mount ∧ g.name.1 = p) ↔ ∃ d, Has f p d) ∧
      (∀ p rest, Has f p false → (∀ g ∈ mounted [] ops, g.name.1 = p → g.dir = false) →
        ∃ g, g.name.1 = p ∧ foundContent index w' (47 :: p) rest = .found g) ∧
      (∀ p rest, p ≠ [] → p.head? ≠ some 47 → (∀ d, ¬ Has f p d) →
        (∀ g ∈ mounted [] ops, g.name.1 = p → g.mount = v.mount) →
        foundContent index w' (47 :: p) rest = .notFound) := by
  obtain ⟨w, w', mm, h1, h2, h3, h4, h5, h6⟩ := C80_exact ops hfair hn v ha f hp ho hf hl hother
  have h6' : ∀ p, (∃ g ∈ w'.files, g.mount = v.mount ∧ g.name.1 = p) ↔ ∃ d, Has f p d := by
    intro p
    rw [h6]
    constructor
    · rintro (h | ⟨⟨g, g1, g2, g3⟩, q, r, hq, hr⟩)
      · exact h
      · exact absurd ⟨q, r, hq, by rw [g3]; exact hr⟩ (hrep g g1 g2)
    · exact Or.inl
  refine ⟨w, w', h1, h2, h4, h6', ?_, ?_⟩
  · intro p rest hh hd
    obtain ⟨g, g1, g2, g3⟩ := (h6' p).2 ⟨false, hh⟩
    obtain ⟨ok1, ok2, ok3⟩ := has_ok f hp hh
    refine ⟨g, g3, (lookup_exact h3 index _ rest).1 g g1 ?_ ⟨p, ⟨1, rfl, ok3⟩, Or.inl ⟨ok1, g3⟩⟩⟩
    rcases h5 g g1 with h | h
    · exact hd g h g3
    · rw [g3] at h
      -- the path is that of a regular file, and paths are unique
      cases hgd : g.dir with
      | false => rfl
      | true =>
        exfalso
        rw [hgd] at h
        have hnd := entries_nodup f [] hp
        have m1 : (p, true) ∈ entries [] f := (entries_has f [] p true).2 ⟨p, by simp, h⟩
        have m2 : (p, false) ∈ entries [] f := (entries_has f [] p false).2 ⟨p, by simp, hh⟩
        have := entry_inj hnd m1 m2 rfl
        cases this
  · intro p rest hp0 hp1 hno hmt
    refine (lookup_exact h3 index _ rest).2 ?_
    intro g hg hw
    rw [wanted_skip] at hw
    have hs : skipSlashes (47 :: p) = p := by
      simp only [skipSlashes, if_true]
      exact skipSlashes_self hp1
    rw [hs, if_neg hp0] at hw
    by_cases hgm : g.mount = v.mount
    · obtain ⟨d, hd⟩ := (h6' p).1 ⟨g, hg, hgm, hw⟩
      exact hno d hd
    · exact hgm (hmt g ((h4 g hgm).1 hg) hw)

/-- An allocator: one more than every address in use. -/
def bump (w : World) : Nat × Nat :=
  ((w.files.map (·.addr)).foldr max 0 + 1, (w.idx.tree.toList.map (·.addr)).foldr max 0 + 1)

theorem bump_fresh : FreshAlloc bump := by
  have key : ∀ (l : List Nat), ∀ x ∈ l, x ≤ l.foldr max 0 := by
    intro l
    induction l with
    | nil => intro x h; cases h
    | cons a l ih =>
      intro x h
      simp only [List.foldr_cons]
      rcases List.mem_cons.1 h with rfl | h
      · omega
      · have := ih x h; omega
  intro w
  refine ⟨fun f hf h => ?_, fun e he h => ?_⟩
  · have := key _ _ (List.mem_map_of_mem (f := (·.addr)) hf)
    simp only [bump] at h
    omega
  · have := key _ _ (List.mem_map_of_mem (f := (·.addr)) he)
    simp only [bump] at h
    omega

/-- The hypotheses are met when the style sheet of `Verif.Mount.Props` comes back, `img/a.png` disappears and a new
file appears. -/
def newSite : Forest :=
  .file b!"index.html" true (.dir b!"img" true (.file b!"index.html" true (.file b!"b.png" true .nil))
    (.file b!"style.css" true .nil))

example : Proper newSite ∧ AllOpen newSite ∧ Fits 8 newSite ∧
    ((changes World.init siteOps).map (fun w =>
      match update ⟨0, b!"/srv/www", bump, b!"junk"⟩ newSite w with
      | .ok w' => w'.files.map (fun g => (g.name.1, g.dir))
      | _ => [])) =
    some [(b!"index.html", false), (b!"img", true), (b!"img/index.html", false), (b!"img/b.png", false),
      (b!"style.css", false)] := by
  refine ⟨by simp [newSite, Proper, NameOk, names], by simp [newSite, AllOpen], by simp [newSite, Fits],
    by decide +kernel⟩

/-- Somewhere below there is a dangling link or a directory that cannot be opened. -/
def Broken : Forest → Prop
  | .nil => False
  | .file _ _ rest => Broken rest
  | .dangling _ _ => True
  | .dir _ r ch rest => r = false ∨ Broken ch ∨ Broken rest

/-- **C80 refuted**: one dangling symbolic link (or unreadable directory) anywhere below the mount point — such
as editors leave as lock files — and no change notice is ever handled successfully: the worker gives up with
the emergency status, which ends the whole server. -/
theorem C80_dangling_link_refuted (v : Env) (f : Forest) (hb : Broken f) (w w' : World) :
    update v f w ≠ .ok w' := by
  have key : ∀ (f : Forest), Broken f → ∀ (path : Bytes) (w w' : World), addWalk v path f w ≠ .ok w' := by
    intro f
    induction f with
    | nil => intro h; cases h
    | dangling n rest ih => intro _ path w w'; simp [addWalk]
    | file n r rest ih =>
      intro hb path w w'
      unfold addWalk
      split
      · simp
      · cases addEntry v (path ++ 47 :: n) n false r w with
        | ok w1 => exact ih hb path w1 w'
        | fail => simp
        | hang => simp
        | wild => simp
    | dir n r ch rest ih1 ih2 =>
      intro hb path w w'
      unfold addWalk
      split
      · simp
      · split
        · simp
        · rename_i hr
          rcases hb with h | h | h
          · exact absurd h hr
          · cases hc : addWalk v (path ++ 47 :: n) ch w with
            | ok w1 => exact absurd hc (ih1 h _ _ _)
            | fail => simp
            | hang => simp
            | wild => simp
          · cases addWalk v (path ++ 47 :: n) ch w with
            | ok w1 =>
              simp only
              cases addEntry v (path ++ 47 :: n) n true r w1 with
              | ok w2 => exact ih2 h path w2 w'
              | fail => simp
              | hang => simp
              | wild => simp
            | fail => simp
            | hang => simp
            | wild => simp
  unfold update
  cases h : addWalk v v.mp f w with
  | ok w1 => exact absurd h (key f hb _ _ _)
  | fail => simp
  | hang => simp
  | wild => simp

example : Broken site ∧ update ⟨0, b!"/srv", bump, []⟩ site World.init = .fail := by
  refine ⟨by simp [site, Broken], ?_⟩
  have : (match update ⟨0, b!"/srv", bump, []⟩ site World.init with | .fail => true | _ => false) = true := by
    decide +kernel
  revert this
  cases update ⟨0, b!"/srv", bump, []⟩ site World.init <;> simp

/-- **C80 refuted**: a new file that cannot be opened has the same effect. -/
theorem C80_unreadable_file_refuted (v : Env) (n : Bytes) (rest : Forest) (hn : NameOk n) (hl : n.length < 255)
    (hmp : v.mp.length + 256 ≤ 4096) (ops : List Change) (hfair : Fair World.init ops) (hd : NoDup [] ops)
    (hnew : ∀ g ∈ mounted [] ops, g.name.1 ≠ n) :
    ∃ w, changes World.init ops = some w ∧ update v (.file n false rest) w = .fail := by
  obtain ⟨w, m, h1, h2, h3⟩ := changes_good ops World.init [] good_init hfair hd
  have e : mounted [] ops = w.files := h2.symm
  rw [e] at hnew
  have hhead : n.head? ≠ some 47 :=
    (has_ok (.file n true .nil) ⟨hn, by simp [names], trivial⟩ (Or.inl ⟨rfl, rfl⟩)).2.2
  refine ⟨w, h1, ?_⟩
  unfold update
  have : addWalk v v.mp (.file n false rest) w = .fail := by
    simp only [addWalk]
    rw [if_neg (by unfold pathMax; omega)]
    have : addEntry v (v.mp ++ 47 :: n) n false false w = .fail := by
      unfold addEntry
      rw [if_neg (by unfold nameMax; omega), behind_spec _ _ hhead,
        if_neg (by rw [(findKey_none h3 n).2 hnew]; simp), if_pos rfl]
    rw [this]
  rw [this]

example : NameOk b!"secret" ∧ ∀ g ∈ mounted [] siteOps, g.name.1 ≠ b!"secret" := by
  refine ⟨by simp [NameOk], by decide +kernel⟩

/-- **C80 refuted**: when a directory is replaced by a regular file, the files that were below it are kept and
served as before. -/
theorem C80_replaced_directory_refuted (index : Name) (ops : List Change) (hfair : Fair World.init ops)
    (hn : NoDup [] ops) (v : Env) (ha : FreshAlloc v.alloc) (f : Forest) (hp : Proper f) (ho : AllOpen f)
    (hf : Fits v.mp.length f) (hl : ∀ p d, Has f p d → p.length < 255)
    (hother : ∀ p d, Has f p d → ∀ g ∈ mounted [] ops, g.name.1 = p → g.mount = v.mount)
    (g : PF) (hg : g ∈ mounted [] ops) (hgm : g.mount = v.mount) (q r : Bytes) (hq : Has f q false)
    (hname : g.name.1 = q ++ 47 :: r) :
    ∃ w w', changes World.init ops = some w ∧ update v f w = .ok w' ∧
      ∃ g' ∈ w'.files, g'.name.1 = g.name.1 ∧ (g'.dir = false → ∀ rest,
        foundContent index w' (47 :: g.name.1) rest = .found g') := by
  obtain ⟨w, w', mm, h1, h2, h3, h4, h5, h6⟩ := C80_exact ops hfair hn v ha f hp ho hf hl hother
  obtain ⟨g', g1, g2, g3⟩ := (h6 g.name.1).2 (Or.inr ⟨⟨g, hg, hgm, rfl⟩, q, r, hq, hname⟩)
  refine ⟨w, w', h1, h2, g', g1, g3, ?_⟩
  intro hd rest
  obtain ⟨q0, _, q1⟩ := has_ok f hp hq
  refine (lookup_exact h3 index _ rest).1 g' g1 hd ⟨g.name.1, ⟨1, rfl, ?_⟩, Or.inl ⟨?_, g3⟩⟩
  · rw [hname]
    cases q with
    | nil => exact absurd rfl q0
    | cons a q => simpa using q1
  · rw [hname]; simp

/-- The directory `img` of the site becomes a regular file; its two files are still served. -/
example : (changes World.init siteOps).map (fun w =>
      match update ⟨0, b!"/srv/www", bump, []⟩ (.file b!"img" true .nil) w with
      | .ok w' => w'.files.map (fun g => g.name.1)
      | _ => []) = some [b!"img/a.png", b!"img", b!"img/index.html"] := by decide +kernel

/-- **C80 refuted**: a new file whose relative path a file of another mount point has is not registered. -/
theorem C80_name_elsewhere_refuted (v : Env) (n : Bytes) (hn : NameOk n) (hmp : v.mp.length + 256 ≤ 4096)
    (hl : n.length < 255) (ops : List Change) (hfair : Fair World.init ops) (hd : NoDup [] ops)
    (g k : PF) (hg : g ∈ mounted [] ops) (hgn : g.name.1 = n) (hgm : g.mount ≠ v.mount)
    (hk : k ∈ mounted [] ops) (hkm : k.mount = v.mount) :
    ∃ w, changes World.init ops = some w ∧ ∀ w', update v (.file n true .nil) w = .ok w' →
      ∀ x ∈ w'.files, x.mount = v.mount → x.name.1 ≠ n := by
  obtain ⟨w, m, h1, h2, h3⟩ := changes_good ops World.init [] good_init hfair hd
  have e : mounted [] ops = w.files := h2.symm
  rw [e] at hg hk
  have hhead : n.head? ≠ some 47 :=
    (has_ok (.file n true .nil) ⟨hn, by simp [names], trivial⟩ (Or.inl ⟨rfl, rfl⟩)).2.2
  refine ⟨w, h1, ?_⟩
  intro w' hu x hx hxm hxn
  have hadd : addWalk v v.mp (.file n true .nil) w = .ok w := by
    simp only [addWalk]
    rw [if_neg (by unfold pathMax; omega)]
    have : addEntry v (v.mp ++ 47 :: n) n false true w = .ok w := by
      unfold addEntry
      rw [if_neg (by unfold nameMax; omega), behind_spec _ _ hhead, if_pos]
      refine ⟨?_, ?_⟩
      · intro h
        have : k ∈ mountFiles w v.mount := by
          unfold mountFiles
          rw [List.mem_filter]
          exact ⟨hk, by simpa using hkm⟩
        rw [h] at this
        cases this
      · rw [ne_eq, findKey_none h3]
        intro h
        exact h g hg hgn
    rw [this]
  unfold update at hu
  rw [hadd] at hu
  have hxw := delWalk_sub _ _ _ _ _ _ hu x hx
  -- two files of one name
  have x1 := h3.find hxw
  have x2 := h3.find hg
  rw [hxn, ← hgn, x2] at x1
  have : x = g := pf_inj h3.sound.addrs hxw hg (by injection x1 with y; exact y.symm)
  rw [this] at hxm
  exact hgm hxm

/-- **C80 refuted**: a new file whose relative path has 255 bytes or more, all its components being short, gets a
name with left-over bytes of memory behind it and is not registered under its path. -/
theorem C80_long_path_refuted (v : Env) (a b : Bytes) (ha : NameOk a) (hb : NameOk b) (hla : a.length < 255)
    (hlb : b.length < 255) (hab : 255 ≤ a.length + 1 + b.length) (hj : v.junk ≠ [])
    (w' : World)
    (hu : update v (.dir a true (.file b true .nil) .nil) World.init = .ok w') :
    ∀ x ∈ w'.files, x.name.1 ≠ a ++ 47 :: b := by
  have hka := (has_ok (.file a true .nil) ⟨ha, by simp [names], trivial⟩ (Or.inl ⟨rfl, rfl⟩)).2.2
  have hhead : (a ++ 47 :: b).head? ≠ some 47 := by
    cases a with
    | nil => exact absurd rfl ha.1
    | cons c a => simpa using hka
  intro x hx hxn
  unfold update at hu
  cases hadd : addWalk v v.mp (.dir a true (.file b true .nil) .nil) World.init with
  | fail => rw [hadd] at hu; cases hu
  | hang => rw [hadd] at hu; cases hu
  | wild => rw [hadd] at hu; cases hu
  | ok w1 =>
    rw [hadd] at hu
    simp only at hu
    have hx1 := delWalk_sub _ _ _ _ _ _ hu x hx
    have hfile : ∀ (w : World) (full n : Bytes) (d : Bool) (w2 : World), addEntry v full n d true w = .ok w2 →
        ∀ y ∈ w2.files, y ∈ w.files ∨ ∃ rel, relName full v.mp = some rel ∧ y.name.1 = newName v.junk rel := by
      intro w full n d w2 h y hy
      unfold addEntry at h
      split at h
      · cases h; exact Or.inl hy
      · split at h
        · cases h; exact Or.inl hy
        · split at h
          · cases h
          · cases hr : relName full v.mp with
            | none => rw [hr] at h; cases h
            | some rel =>
              rw [hr] at h
              simp only at h
              split at h
              · cases h
              · rename_i h0
                unfold addFile at h
                cases hi : w.idx.insert nameCmp (v.alloc w).2 ⟨newName v.junk rel, h0⟩ (v.alloc w).1
                    (some (v.alloc w).1) with
                | none => simp only [hi] at h; cases h
                | some s =>
                  simp only [hi] at h
                  cases h
                  simp only [List.mem_append, List.mem_singleton] at hy
                  rcases hy with hy | hy
                  · exact Or.inl hy
                  · exact Or.inr ⟨rel, rfl, by rw [hy]⟩
    simp only [addWalk] at hadd
    split at hadd
    · cases hadd
    · simp only [Bool.true_eq_false, if_false] at hadd
      split at hadd
      · rename_i w2 hin
        split at hin
        · cases hin
        · split at hin
          · rename_i w3 he3
            cases hin
            split at hadd
            · rename_i w4 he4
              cases hadd
              rcases hfile _ _ _ _ _ he4 x hx1 with hy | ⟨rel, h1, h2⟩
              · rcases hfile _ _ _ _ _ he3 x hy with hz | ⟨rel, h1, h2⟩
                · simp [World.init] at hz
                · have : v.mp ++ 47 :: a ++ 47 :: b = v.mp ++ 47 :: (a ++ 47 :: b) := by simp
                  rw [this, relName_spec _ _ hhead] at h1
                  cases h1
                  unfold newName at h2
                  rw [if_neg (by simp only [List.length_append, List.length_cons, nameMax]; omega), hxn] at h2
                  have := congrArg List.length h2
                  simp only [List.length_append, List.length_cons] at this
                  have : v.junk = [] := List.length_eq_zero_iff.1 (by omega)
                  exact hj this
              · rw [relName_spec _ _ hka] at h1
                cases h1
                unfold newName at h2
                rw [if_pos (by unfold nameMax; omega), hxn] at h2
                have := congrArg List.length h2
                simp only [List.length_append, List.length_cons] at this
                omega
            · simp_all
          · simp_all
      · simp_all

example : (match update ⟨0, b!"/srv", bump, b!"x"⟩
      (.dir (List.replicate 200 97) true (.file (List.replicate 100 98) true .nil) .nil) World.init with
    | .ok w' => w'.files.map (fun g => g.name.1)
    | _ => []) = [List.replicate 200 97] := by decide +kernel

/-! ## C81: what is said about a changed file -/

/-- **C81** (partial): a file that has not been touched since it was mounted is described as it is. -/
theorem C81_partial (s : StatBuf) (ss : List StatBuf)
    (h : ∀ x ∈ ss, x.mtime = s.mtime ∧ x.ctime = s.ctime) :
    (ss.foldl (fun k x => modCheck x k) (Known.fresh s)).sent = ⟨s.size, s, s.mtime, s.inode⟩ := by
  have : ss.foldl (fun k x => modCheck x k) (Known.fresh s) = Known.fresh s := by
    induction ss with
    | nil => rfl
    | cons x ss ih =>
      simp only [List.foldl_cons]
      have h1 := h x (by simp)
      have : modCheck x (Known.fresh s) = Known.fresh s := by
        unfold modCheck Known.fresh
        rw [if_pos ⟨h1.1.symm, h1.2.symm⟩]
      rw [this]
      exact ih (fun y hy => h y (by simp [hy]))
  rw [this]
  rfl

theorem known_fixed (s : StatBuf) : ∀ (ss : List StatBuf) (k : Known), k.fs = s → k.fd = s.inode → k.lastModified = s.mtime →
    (ss.foldl (fun k x => modCheck x k) k).fs = s ∧ (ss.foldl (fun k x => modCheck x k) k).fd = s.inode ∧
      (ss.foldl (fun k x => modCheck x k) k).lastModified = s.mtime := by
  intro ss
  induction ss with
  | nil => intro k h1 h2 h3; exact ⟨h1, h2, h3⟩
  | cons x ss ih =>
    intro k h1 h2 h3
    simp only [List.foldl_cons]
    apply ih <;> (unfold modCheck; split <;> assumption)

/-- **C81 refuted**: however often a file changes and the worker is told, its responses announce the length
and the date of mounting and send from the inode opened then, while the tag is that of the latest version
whose times differ from those of mounting. -/
theorem C81_stale_refuted (s x : StatBuf) (ss : List StatBuf) (hx : x.mtime ≠ s.mtime ∨ x.ctime ≠ s.ctime) :
    ((ss ++ [x]).foldl (fun k x => modCheck x k) (Known.fresh s)).sent = ⟨s.size, x, s.mtime, s.inode⟩ := by
  rw [List.foldl_append]
  obtain ⟨h1, h2, h3⟩ := known_fixed s ss (Known.fresh s) rfl rfl rfl
  generalize ss.foldl (fun k x => modCheck x k) (Known.fresh s) = k at h1 h2 h3
  simp only [List.foldl_cons, List.foldl_nil]
  unfold modCheck
  rw [if_neg (by rw [h1]; rintro ⟨a, b⟩; rcases hx with h | h; exact h a.symm; exact h b.symm)]
  simp only [Known.sent, h1, h2, h3]

/-- **C81 refuted** once more: a change that falls into the second of mounting (`st_mtime` has whole seconds) is
not noticed at all. -/
theorem C81_same_second_refuted (s x : StatBuf) (h : x.mtime = s.mtime ∧ x.ctime = s.ctime) :
    (modCheck x (Known.fresh s)).sent = (Known.fresh s).sent := by
  unfold modCheck Known.fresh
  rw [if_pos ⟨h.1.symm, h.2.symm⟩]

example : (modCheck ⟨20, 1700000100, 1700000100, 8⟩ (Known.fresh ⟨10, 1700000000, 1700000000, 7⟩)).sent =
    ⟨10, ⟨20, 1700000100, 1700000100, 8⟩, 1700000000, 7⟩ := by decide

end Fly.Scan
