import Verif.Points.Gone

/-! # Properties C168–C171: the mount points of an application -/

namespace Fly.Points

open Fly.Mount Fly.Scan

/-! ## C168: a server that starts serves what the application mounted -/

/-- **C168.**  Whatever directories an application mounts: if the server starts, every one of them is a mount point,
shown with the number of the mount point and the number of its files — that of the first mount point with the
path. -/
theorem C168_every_directory_mounted {e : Env} (hw : CwdOk e) {paths : List Bytes} {m : Mnt}
    {shown : List (Bytes × Nat × Nat)} (h : launch e paths = .running m shown) :
    shown.map (·.1) = paths.map (abspath e.cwd) ∧
      ∀ x ∈ shown, ∃ pt, m.pts[x.2.1]? = some pt ∧ pt.number = x.2.1 ∧ pt.path = x.1 ∧ pt.files.length = x.2.2 ∧
        ∀ (j : Nat) (y : Pt), j < x.2.1 → m.pts[j]? = some y → y.path ≠ x.1 := by
  obtain ⟨_, h2, h3⟩ := launch_running h
  have hl := (cMounts_laid hw _ _ m h2 (laid_nil e)).1
  obtain ⟨g1, g2⟩ := display_spec hl _ _ h3
  refine ⟨g1, fun x hx => ?_⟩
  obtain ⟨pt, a1, a2, a3, a4⟩ := g2 x hx
  exact ⟨pt, a1, (hl _ pt a1).1, a2, a3, a4⟩

/-- The absolute path of a directory that was shown is that of the directory itself. -/
theorem shown_real {e : Env} (hw : CwdOk e) {paths : List Bytes} {m : Mnt} {shown : List (Bytes × Nat × Nat)}
    (h : launch e paths = .running m shown) {p : Bytes} (hp : p ∈ paths) :
    abspath e.cwd p = render (lexical e.cwd p) ∧ AllDirs e.fs (lexical e.cwd p) := by
  obtain ⟨g1, g2⟩ := C168_every_directory_mounted hw h
  obtain ⟨_, h2, _⟩ := launch_running h
  have hl := (cMounts_laid hw _ _ m h2 (laid_nil e)).1
  have hm : abspath e.cwd p ∈ shown.map (·.1) := by rw [g1]; exact List.mem_map_of_mem hp
  rw [List.mem_map] at hm
  obtain ⟨x, hx, hxp⟩ := hm
  obtain ⟨pt, a1, _, a3, _, _⟩ := g2 x hx
  obtain ⟨_, q, c, b1, b2, b3, b4, _⟩ := hl _ pt a1
  have he : render q = abspath e.cwd p := by rw [← b4, a3, hxp]
  rcases abspath_cases e.cwd p with hc | hc
  · refine ⟨hc, ?_⟩
    have := render_inj b3 (lexical_comp e.cwd p) (he.trans hc)
    subst this
    -- the directory was resolved
    obtain ⟨ps', s1, s2⟩ := cMounts_from _ _ _ h2
    have hpt : (some pt.path) ∈ m.pts.map (fun pt => some pt.path) := List.mem_map_of_mem (List.mem_of_getElem? a1)
    rw [s2] at hpt
    simp only [List.map_nil, List.nil_append, List.mem_map] at hpt
    obtain ⟨p', _, hp'⟩ := hpt
    cases hr : resolve e.fs e.cwd p' with
    | none => rw [hr] at hp'; cases hp'
    | some q' =>
      rw [hr] at hp'
      simp only [Option.map_some, Option.some.injEq] at hp'
      obtain ⟨c1, c2, c3⟩ := resolve_clean hw hr
      have : q' = lexical e.cwd p := render_inj c2 b3 (by rw [hp', b4])
      subst this
      exact c3 b1
  · exact absurd (hc.symm.trans he.symm) (two_ne_render _ q b3)

/-- **C168.**  There are no other mount points, they are numbered from 0 in the order of the calls, and each has
exactly the files and directories that are below its directory, wherever names and paths are not too long. -/
theorem C168_nothing_else {e : Env} (hw : CwdOk e) {paths : List Bytes} {m : Mnt}
    {shown : List (Bytes × Nat × Nat)} (h : launch e paths = .running m shown) :
    List.Sublist (m.pts.map (·.path)) (paths.map (abspath e.cwd)) ∧
      ∀ (i : Nat) (pt : Pt), m.pts[i]? = some pt → pt.number = i ∧
        ∃ p ∈ paths, pt.path = render (lexical e.cwd p) ∧
          (Proper (e.tree (lexical e.cwd p)) → Fits pt.path.length (e.tree (lexical e.cwd p)) →
            (∀ r b, (r, b) ∈ pt.files ↔ Has (e.tree (lexical e.cwd p)) r b) ∧
              pt.files.length = size (e.tree (lexical e.cwd p))) := by
  obtain ⟨_, h2, _⟩ := launch_running h
  have hl := (cMounts_laid hw _ _ m h2 (laid_nil e)).1
  obtain ⟨ps', s1, s2⟩ := cMounts_from _ _ _ h2
  simp only [List.map_nil, List.nil_append] at s2
  have hres : ∀ x ∈ ps', (resolve e.fs e.cwd x).map render = some x ∧ ∃ p ∈ paths, x = render (lexical e.cwd p) := by
    intro x hx
    have := s1.mem hx
    rw [List.mem_map] at this
    obtain ⟨p, hp, rfl⟩ := this
    obtain ⟨a1, a2⟩ := shown_real hw h hp
    rw [a1, resolve_render e.fs e.cwd _ a2 (lexical_comp e.cwd p)]
    exact ⟨rfl, p, hp, rfl⟩
  have hpaths : m.pts.map (·.path) = ps' := by
    have e1 : ps'.map (fun p => (resolve e.fs e.cwd p).map render) = ps'.map some :=
      List.map_congr_left (fun x hx => (hres x hx).1)
    rw [e1] at s2
    have e2 : m.pts.map (fun pt => some pt.path) = (m.pts.map (·.path)).map some := by rw [List.map_map]; rfl
    rw [e2] at s2
    exact (List.map_inj_right (f := some) (fun a b hab => by simpa using hab)).1 s2
  refine ⟨by rw [hpaths]; exact s1, ?_⟩
  intro i pt hi
  obtain ⟨b0, q, c, b1, b2, b3, b4, b5⟩ := hl i pt hi
  refine ⟨b0, ?_⟩
  have hx : pt.path ∈ ps' := by rw [← hpaths]; exact List.mem_map_of_mem (List.mem_of_getElem? hi)
  obtain ⟨_, p, hp, hpe⟩ := hres _ hx
  refine ⟨p, hp, hpe, ?_⟩
  intro k1 k2
  have : q = lexical e.cwd p := render_inj b3 (lexical_comp e.cwd p) (by rw [← b4, hpe])
  subst this
  rw [b4] at k2
  have := mountDir_ok k1 k2 b5
  refine ⟨?_, by rw [this, entries_length]⟩
  intro r b
  rw [this, entries_has]
  simp

/-! ## A site -/

/-- `/srv/www` and `/srv/img` are directories, `/srv/pub` is a symbolic link to `www`. -/
def siteFs : Fs := fun p =>
  if p = [b!"srv"] ∨ p = [b!"srv", b!"www"] ∨ p = [b!"srv", b!"img"] then some .dir
  else if p = [b!"srv", b!"pub"] then some (.link b!"www") else none

/-- Two files below `/srv/www`, a directory with a file below `/srv/img`. -/
def siteTree : Path → Forest := fun p =>
  if p = [b!"srv", b!"www"] then .file b!"index.html" true (.file b!"a.css" true .nil)
  else .dir b!"big" true (.file b!"x.png" true .nil) .nil

def siteEnv : Env := ⟨siteFs, [b!"srv"], siteTree, fun _ => true, 100, 1000⟩

theorem siteEnv_cwd : CwdOk siteEnv := by
  refine ⟨?_, ?_⟩
  · intro q h1 h2
    have h3 : q = [b!"srv"] := by
      match q, h1, h2 with
      | [a], _, h2 => simpa [siteEnv] using h2
      | a :: b :: r, _, h2 => simp [siteEnv] at h2
    rw [h3]
    rfl
  · intro c hc
    simp only [siteEnv, List.mem_singleton] at hc
    subst hc
    unfold Comp
    decide

/-- The application mounts `www`, `../srv/img/` and `./www` again. -/
example : launch siteEnv [b!"www", b!"../srv/img/", b!"./www"] =
    .running ⟨[⟨0, b!"/srv/www", [(b!"index.html", false), (b!"a.css", false)]⟩,
        ⟨1, b!"/srv/img", [(b!"big/x.png", false), (b!"big", true)]⟩,
        ⟨2, b!"/srv/www", [(b!"index.html", false), (b!"a.css", false)]⟩], 6⟩
      [(b!"/srv/www", 0, 2), (b!"/srv/img", 1, 2), (b!"/srv/www", 0, 2)] := by decide +kernel

/-! ## C169: an application whose directories exist starts -/

theorem cMounts_runs {e : Env} : ∀ (qs : List Path) (m : Mnt),
    (∀ q ∈ qs, AllDirs e.fs q ∧ (∀ c ∈ q, Comp c) ∧ Mountable e q) →
    m.pts.length + qs.length ≤ (e.mountMax % 2 ^ 64).toNat →
    m.fileCount + (qs.map (fun q => size (e.tree q))).sum ≤ e.fileMax →
    ∃ m', cMounts e m (qs.map render) = .ok m' ∧ m'.pts.map (·.path) = m.pts.map (·.path) ++ qs.map render := by
  intro qs
  induction qs with
  | nil => intro m _ _ _; exact ⟨m, rfl, by simp⟩
  | cons q qs ih =>
    intro m hq hl hf
    obtain ⟨h1, h2, h3, h4, h5, h6⟩ := hq q (by simp)
    simp only [List.length_cons, List.map_cons, List.sum_cons] at hl hf
    have hdir : dirAt e.fs q = true := by
      unfold dirAt
      by_cases hn : q = []
      · simp [hn]
      · simp [h1 q hn (List.prefix_refl q)]
    have hc : cMount e m (render q) = .ok ⟨m.pts ++ [⟨m.pts.length, render q, entries [] (e.tree q)⟩],
        m.fileCount + (entries [] (e.tree q)).length⟩ := by
      unfold cMount
      rw [if_neg (by omega), resolve_render e.fs e.cwd q h1 h2]
      dsimp only
      rw [if_neg (by simp [hdir]), if_neg (by simp [h3]; omega),
        mountDir_spec e.fileMax m.fileCount (render q) (e.tree q) h4 h5 h6 (by omega)]
    obtain ⟨m', g1, g2⟩ := ih ⟨m.pts ++ [⟨m.pts.length, render q, entries [] (e.tree q)⟩],
        m.fileCount + (entries [] (e.tree q)).length⟩ (fun x hx => hq x (by simp [hx]))
      (by simp only [List.length_append, List.length_singleton]; omega)
      (by simp only [entries_length]; omega)
    refine ⟨m', ?_, by rw [g2]; simp⟩
    rw [List.map_cons]
    unfold cMounts
    rw [hc]
    exact g1

theorem display_runs {e : Env} {m : Mnt} (hl : Laid e m) : ∀ (ps : List Bytes), (∀ p ∈ ps, p ∈ m.pts.map (·.path)) →
    ∃ d, display m ps = some d := by
  intro ps
  induction ps with
  | nil => intro _; exact ⟨[], rfl⟩
  | cons p ps ih =>
    intro h
    obtain ⟨d, hd⟩ := ih (fun x hx => h x (by simp [hx]))
    have hp := h p (by simp)
    rw [List.mem_map] at hp
    obtain ⟨pt, hpt, hpp⟩ := hp
    unfold display mountNumber
    rw [if_neg (by intro hn; rw [hn] at hpt; cases hpt)]
    cases hf : m.pts.find? (fun q => decide (q.path = p)) with
    | none =>
      rw [List.find?_eq_none] at hf
      exact absurd hpp (by simpa using hf pt hpt)
    | some x =>
      obtain ⟨i, h1, _, _⟩ := find_first _ _ _ hf
      have := filesCount_laid hl h1
      simp only [Option.map_some]
      rw [(hl i x h1).1, this, hd]
      exact ⟨_, rfl⟩

/-- **C169, the part that holds**: an application starts if all its directories exist, no symbolic link is on the
way to any of them, none is written with exactly two slashes in front, what is below them can be read and has no
names or paths that are too long, and neither limit is exceeded. -/
theorem C169_starts_partial {e : Env} (hw : CwdOk e) (paths : List Bytes)
    (hp : ∀ p ∈ paths, isDir e.fs e.cwd p = true ∧ ¬ TwoSlashes p ∧ AllDirs e.fs (lexical e.cwd p) ∧
      Mountable e (lexical e.cwd p))
    (hmax : (paths.length : Int) ≤ e.mountMax) (hlong : e.mountMax < 2 ^ 63)
    (hfiles : (paths.map (fun p => size (e.tree (lexical e.cwd p)))).sum ≤ e.fileMax) :
    ∃ m shown, launch e paths = .running m shown := by
  have hne : ∀ p ∈ paths, p ≠ [] := by
    intro p hm hn
    have := (hp p hm).1
    subst hn
    simp [isDir, resolve] at this
  have habs : ∀ p ∈ paths, abspath e.cwd p = render (lexical e.cwd p) :=
    fun p hm => abspath_one hw (hne p hm) (hp p hm).2.1
  have hpy : ∀ (ps ms : List Bytes), (∀ p ∈ ps, p ∈ paths) → pyMounts e ms ps = some (ms ++ ps.map (abspath e.cwd)) := by
    intro ps
    induction ps with
    | nil => intro ms _; simp [pyMounts]
    | cons p ps ih =>
      intro ms hs
      obtain ⟨a1, _, a3, _⟩ := hp p (hs p (by simp))
      have hd : isDir e.fs e.cwd (abspath e.cwd p) = true := by
        unfold isDir
        rw [habs p (hs p (by simp)), resolve_render e.fs e.cwd _ a3 (lexical_comp e.cwd p)]
        dsimp only
        unfold dirAt
        by_cases hn : lexical e.cwd p = []
        · simp [hn]
        · simp [a3 _ hn (List.prefix_refl _)]
      unfold pyMounts pyMount
      rw [if_neg (by simp [a1]), if_neg (by simp [hd])]
      dsimp only
      rw [ih _ (fun x hx => hs x (by simp [hx]))]
      simp
  have hmap : paths.map (abspath e.cwd) = (paths.map (lexical e.cwd)).map render := by
    rw [List.map_map]
    exact List.map_congr_left (fun p hm => habs p hm)
  obtain ⟨m, g1, g2⟩ := cMounts_runs (e := e) (paths.map (lexical e.cwd)) ⟨[], 0⟩ (by
      intro q hq
      rw [List.mem_map] at hq
      obtain ⟨p, hm, rfl⟩ := hq
      exact ⟨(hp p hm).2.2.1, lexical_comp e.cwd p, (hp p hm).2.2.2⟩) (by
      simp only [List.length_nil, List.length_map]
      rw [Int.emod_eq_of_lt (by omega) (by omega)]
      omega) (by
      rw [List.map_map]
      simpa [Function.comp_def] using hfiles)
  have hl := (cMounts_laid hw _ _ m g1 (laid_nil e)).1
  obtain ⟨d, hd⟩ := display_runs hl (paths.map (abspath e.cwd)) (by
    intro x hx
    rw [g2, ← hmap]
    simpa using hx)
  refine ⟨m, d, ?_⟩
  unfold launch
  rw [hpy paths [] (fun p h => h)]
  simp only [List.nil_append]
  unfold startServer
  rw [hmap, g1]
  dsimp only
  rw [← hmap, hd]

/-- **C169 does not hold.**  If a symbolic link is on the way to one of the directories, whatever it leads to and
whatever else is mounted, the server does not start: the directory is mounted under its real path and then looked
for under the path of the link. -/
theorem C169_symbolic_link_refuted {e : Env} (hw : CwdOk e) (paths : List Bytes) (p : Bytes) (hp : p ∈ paths)
    (hl : LinkOn e.fs (lexical e.cwd p)) : ∀ m shown, launch e paths ≠ .running m shown := by
  intro m shown h
  obtain ⟨_, h2⟩ := shown_real hw h hp
  obtain ⟨q, t, a1, a2, a3⟩ := hl
  rw [h2 q a1 a2] at a3
  cases a3

/-- `/srv/pub` is a link to a directory that can be mounted: `mount` accepts it, the server does not start. -/
example : isDir siteFs [b!"srv"] b!"pub" = true ∧
    LinkOn siteEnv.fs (lexical siteEnv.cwd b!"pub") ∧ launch siteEnv [b!"www"] ≠ .raised ∧
    pyMounts siteEnv [] [b!"pub"] = some [b!"/srv/pub"] ∧ launch siteEnv [b!"pub"] = .raised := by
  refine ⟨by decide +kernel, ⟨[b!"srv", b!"pub"], b!"www", by decide, ⟨[], by decide +kernel⟩, rfl⟩, by decide +kernel,
    by decide +kernel, by decide +kernel⟩

/-- **C169 does not hold.**  Nor does it start if one of the directories is written with two slashes in front,
which names the same directory. -/
theorem C169_two_slashes_refuted {e : Env} (hw : CwdOk e) (paths : List Bytes) (p : Bytes) (hp : p ∈ paths)
    (h2 : TwoSlashes p) : ∀ m shown, launch e paths ≠ .running m shown := by
  intro m shown h
  obtain ⟨h1, _⟩ := shown_real hw h hp
  rw [abspath_two e.cwd p h2] at h1
  have := congrArg List.length h1
  simp at this

example : TwoSlashes b!"//srv/www" ∧ isDir siteFs [b!"srv"] b!"//srv/www" = true ∧
    (launch siteEnv [b!"/srv/www"] ≠ .raised) ∧ launch siteEnv [b!"//srv/www"] = .raised :=
  ⟨⟨b!"srv/www", rfl, by decide⟩, by decide +kernel, by decide +kernel, by decide +kernel⟩

/-- The hypotheses of the part that holds are met by an application with two directories. -/
example : ∃ m shown, launch siteEnv [b!"www", b!"../srv/img/"] = .running m shown := by
  refine C169_starts_partial siteEnv_cwd _ ?_ (by decide) (by decide) (by decide +kernel)
  have w : lexical siteEnv.cwd b!"www" = [b!"srv", b!"www"] := by decide +kernel
  have i : lexical siteEnv.cwd b!"../srv/img/" = [b!"srv", b!"img"] := by decide +kernel
  have dirs : ∀ x, siteFs [b!"srv", x] = some .dir → AllDirs siteFs [b!"srv", x] := by
    intro x hx q h1 h2
    match q, h1, h2 with
    | [a], _, h2 =>
      simp at h2
      subst h2
      rfl
    | [a, b], _, h2 =>
      simp at h2
      obtain ⟨rfl, rfl⟩ := h2
      exact hx
    | a :: b :: c :: r, _, h2 => simp at h2
  intro p hp
  simp only [List.mem_cons, List.not_mem_nil, or_false] at hp
  rcases hp with rfl | rfl
  · refine ⟨by decide +kernel, ?_, ?_, ?_⟩
    · rintro ⟨r, h, _⟩; simp at h
    · rw [w]; exact dirs _ (by decide +kernel)
    · rw [w]
      refine ⟨rfl, ?_, ?_, ?_⟩
      · simp [siteEnv, siteTree, Proper, NameOk, names]
      · simp [siteEnv, siteTree, DirsOpen]
      · simp [siteEnv, siteTree, Fits, render]
  · refine ⟨by decide +kernel, ?_, ?_, ?_⟩
    · rintro ⟨r, h, _⟩; simp at h
    · rw [i]; exact dirs _ (by decide +kernel)
    · rw [i]
      refine ⟨rfl, ?_, ?_, ?_⟩
      · simp [siteEnv, siteTree, Proper, NameOk, names]
      · simp [siteEnv, siteTree, DirsOpen]
      · simp [siteEnv, siteTree, Fits, render]

/-! ## C170: the number of mount points -/

/-- **C170.**  A running server has at most as many mount points as configured. -/
theorem C170_limit {e : Env} {paths : List Bytes} {m : Mnt} {shown : List (Bytes × Nat × Nat)}
    (h : launch e paths = .running m shown) (hmax : 0 ≤ e.mountMax) (hlong : e.mountMax < 2 ^ 63) :
    (m.pts.length : Int) ≤ e.mountMax := by
  obtain ⟨_, h2, _⟩ := launch_running h
  have := cMounts_bound _ _ m h2 (Nat.zero_le _)
  rw [Int.emod_eq_of_lt hmax (by omega)] at this
  omega

/-- **C170.**  An application with more different directories than that does not start. -/
theorem C170_more_do_not_start {e : Env} (hw : CwdOk e) {paths : List Bytes} (ds : List Bytes) (hd : ds.Nodup)
    (hs : ∀ d ∈ ds, d ∈ paths.map (abspath e.cwd)) (hmax : 0 ≤ e.mountMax) (hlong : e.mountMax < 2 ^ 63)
    (hmore : e.mountMax < ds.length) : ∀ m shown, launch e paths ≠ .running m shown := by
  intro m shown h
  have h1 := C170_limit h hmax hlong
  obtain ⟨g1, g2⟩ := C168_every_directory_mounted hw h
  have hsub : ∀ d ∈ ds, d ∈ m.pts.map (·.path) := by
    intro d hdm
    have := hs d hdm
    rw [← g1, List.mem_map] at this
    obtain ⟨x, hx, rfl⟩ := this
    obtain ⟨pt, a1, _, a3, _⟩ := g2 x hx
    rw [← a3]
    exact List.mem_map_of_mem (List.mem_of_getElem? a1)
  have := nodup_length ds _ hd hsub
  simp only [List.length_map] at this
  omega

example : launch { siteEnv with mountMax := 1 } [b!"www"] ≠ .raised ∧
    launch { siteEnv with mountMax := 1 } [b!"www", b!"img"] = .raised := by decide +kernel

/-! ## C171: a mount point goes away -/

/-- **C171, the part that holds**: a worker that finds a mount point gone takes out all its files and no others,
whatever was mounted and changed before without equal names; they are not found any more, and every other file
still is. -/
theorem C171_files_dropped_partial (index : Name) (ops : List Change) (hfair : Fair World.init ops) (hn : NoDup [] ops)
    (w : World) (hw : changes World.init ops = some w) (n k : Nat) (hk : w.files.length < k) :
    ∃ w', dropFiles n k w ((mountFiles w n).head?.map (·.addr)) = .ok w' ∧
      ∀ path rest,
        (∀ pf ∈ mounted [] ops, pf.mount ≠ n → pf.dir = false → Wanted index.1 path pf.name.1 →
          foundContent index w' path rest = .found pf) ∧
        ((∀ pf ∈ mounted [] ops, pf.mount ≠ n → ¬ Wanted index.1 path pf.name.1) →
          foundContent index w' path rest = .notFound) := by
  obtain ⟨w1, mm, h1, h2, h3⟩ := changes_good ops World.init [] good_init hfair hn
  have : w1 = w := by rw [h1] at hw; exact Option.some.inj hw
  subst this
  have hlen : (mountFiles w1 n).length < k :=
    Nat.lt_of_le_of_lt (List.length_filter_le _ _) hk
  obtain ⟨w', m', g1, g2, g3⟩ := dropFiles_spec n (mountFiles w1 n) w1 mm k h3 rfl hlen
  refine ⟨w', g1, fun path rest => ?_⟩
  obtain ⟨l1, l2⟩ := lookup_exact g2 index path rest
  have hmem : ∀ pf, pf ∈ w'.files ↔ pf ∈ mounted [] ops ∧ pf.mount ≠ n := by
    intro pf
    rw [g3, List.mem_filter, h2]
    simp [World.init]
  refine ⟨fun pf a1 a2 a3 a4 => l1 pf ((hmem pf).2 ⟨a1, a2⟩) a3 a4, fun hno => l2 ?_⟩
  intro pf hpf
  obtain ⟨b1, b2⟩ := (hmem pf).1 hpf
  exact hno pf b1 b2

/-- **C171 does not hold** in the master.  Whatever is mounted, as long as no directory is mounted twice: when a
mount point is removed or moved, the master does not come past it.  It ends, does not come to an end, or reads the
path in memory it has just freed. -/
theorem C171_master_refuted (kern : PF → Bool) (deleted own : Bool) (k : Nat) (pts : List Live) (w : World) (p : Live)
    (hd : (pts.map (·.path)).Nodup) (hp : p ∈ pts) : ∀ pts' w', masterGone kern deleted own k pts w p ≠ .ok pts' w' := by
  intro pts' w'
  unfold masterGone
  cases hr : rmFiles (rmWatch kern k) p.number k w ((mountFiles w p.number).head?.map (·.addr)) with
  | ok w1 =>
    dsimp only
    split
    · simp
    · rcases unmount_never hd hp w1 with h | h <;> rw [h] <;> simp
  | fail => simp
  | hang => simp
  | wild => simp

/-- **C171 does not hold** in the workers.  No worker that is told after a mount point is gone comes past it. -/
theorem C171_worker_refuted (gone : Live → Bool) (update : World → Live → Res World) (k : Nat) (pts : List Live) (w : World)
    (hd : (pts.map (·.path)).Nodup) (hg : ∃ p ∈ pts, gone p = true) :
    ∀ pts' w', workerTold gone update k pts pts w ≠ .ok pts' w' :=
  workerTold_never hd pts w (fun _ h => h) hg

/-- **C171 does not hold** for the only mount point: the worker ends itself, although the application may have
routes to serve. -/
theorem C171_only_one_refuted (ops : List Change) (hfair : Fair World.init ops) (hn : NoDup [] ops)
    (w : World) (hw : changes World.init ops = some w) (gone : Live → Bool) (update : World → Live → Res World)
    (k : Nat) (hk : w.files.length < k) (p : Live) (hg : gone p = true) :
    workerTold gone update k [p] [p] w = .exit := by
  obtain ⟨w1, mm, h1, h2, h3⟩ := changes_good ops World.init [] good_init hfair hn
  have : w1 = w := by rw [h1] at hw; exact Option.some.inj hw
  subst this
  have hlen : (mountFiles w1 p.number).length < k :=
    Nat.lt_of_le_of_lt (List.length_filter_le _ _) hk
  obtain ⟨w', m', g1, g2, g3⟩ := dropFiles_spec p.number (mountFiles w1 p.number) w1 mm k h3 rfl hlen
  have hu : workUnmount k [p] w1 p = .exit := by
    unfold workUnmount
    rw [g1]
    dsimp only
    unfold unmount
    simp
  unfold workerTold
  rw [if_neg (by simp), hg, if_pos rfl, hu]

/-- **C171 does not hold** for one of several: the worker reads freed memory. -/
theorem C171_one_of_several_refuted (ops : List Change) (hfair : Fair World.init ops) (hn : NoDup [] ops)
    (w : World) (hw : changes World.init ops = some w) (gone : Live → Bool) (update : World → Live → Res World)
    (k : Nat) (hk : w.files.length < k) (p q : Live) (ps : List Live) (hd : ((p :: q :: ps).map (·.path)).Nodup)
    (ha : p.addr ≠ q.addr) (hg : gone p = true) :
    workerTold gone update k (p :: q :: ps) (p :: q :: ps) w = .wild := by
  obtain ⟨w1, mm, h1, h2, h3⟩ := changes_good ops World.init [] good_init hfair hn
  have : w1 = w := by rw [h1] at hw; exact Option.some.inj hw
  subst this
  have hlen : (mountFiles w1 p.number).length < k :=
    Nat.lt_of_le_of_lt (List.length_filter_le _ _) hk
  obtain ⟨w', m', g1, g2, g3⟩ := dropFiles_spec p.number (mountFiles w1 p.number) w1 mm k h3 rfl hlen
  have hu : workUnmount k (p :: q :: ps) w1 p = .wild := by
    unfold workUnmount
    rw [g1]
    dsimp only
    unfold unmount
    rw [find_self hd (by simp)]
    dsimp only
    rw [if_neg, if_pos rfl]
    intro hnil
    rw [List.filter_eq_nil_iff] at hnil
    have := hnil q (by simp)
    simp at this
    exact ha this.symm
  unfold workerTold
  rw [if_neg (by simp), hg, if_pos rfl, hu]

/-- A site with two mount points, `/srv/www` with one file and `/srv/img` with two. -/
def twoPts : List Live := [⟨10, 0, b!"/srv/www"⟩, ⟨20, 1, b!"/srv/img"⟩]

def twoOps : List Change :=
  [.add ⟨1, 0, ⟨b!"index.html", by decide⟩, false, false⟩ 101, .add ⟨2, 1, ⟨b!"a.png", by decide⟩, false, false⟩ 102,
   .add ⟨3, 1, ⟨b!"b.png", by decide⟩, false, false⟩ 103]

example : Fair World.init twoOps ∧ NoDup [] twoOps ∧ (twoPts.map (·.path)).Nodup ∧ (changes World.init twoOps).isSome :=
  ⟨fairB_sound _ _ (by decide +kernel), noDupB_sound _ _ (by decide +kernel), by decide +kernel, by decide +kernel⟩

/-- Someone moves `/srv/img`: the master and the workers go on to read freed memory. -/
example : (changes World.init twoOps).map (fun w =>
    (match masterGone (fun _ => true) false true 10 twoPts w ⟨20, 1, b!"/srv/img"⟩ with | .wild => true | _ => false,
     match workerTold (fun p => p.number == 1) (fun w _ => .ok w) 10 twoPts twoPts w with | .wild => true | _ => false)) =
    some (true, true) := by decide +kernel

end Fly.Points
