import Verif.Watch.Grow

/-! # The invariant of calm histories on a mount point with files only -/

namespace Fly.Watch

/-- Nothing waits, and the list agrees with the directory. -/
structure Calm (s : St) : Prop where
  run : s.status = .running
  quiet : s.queue = []
  wok : Wok s
  pos : 0 < s.nextIno
  root : ⟨0, 0, .mp⟩ ∈ s.watches
  rdir : 0 ∈ s.dirs
  dirLt : ∀ d ∈ s.dirs, d < s.nextIno
  ent : ∀ e ∈ s.ents, e.dir = 0 ∧ 0 < e.ino ∧ e.ino < s.nextIno ∧ s.isDir e.ino = false
  names : ∀ e ∈ s.ents, ∀ e' ∈ s.ents, e.name = e'.name → e = e'
  once : ∀ e ∈ s.ents, ∀ e' ∈ s.ents, e.ino = e'.ino → e = e'
  pf : ∀ p ∈ s.pfs, p.dir = false ∧ ∃ e ∈ s.ents, p.path = [e.name] ∧ ⟨p.wd, e.ino, .pf⟩ ∈ s.watches
  known : ∀ e ∈ s.ents, ∃ p ∈ s.pfs, p.path = [e.name] ∧ ⟨p.wd, e.ino, .pf⟩ ∈ s.watches
  wds : s.pfs.Pairwise (fun a b => a.wd ≠ b.wd)

theorem eraseP_filter : ∀ (l : List Pf) (w : Nat), l.Pairwise (fun a b => a.wd ≠ b.wd) →
    l.eraseP (fun p => p.wd == w) = l.filter (fun p => p.wd != w)
  | [], _, _ => rfl
  | a :: l, w, h => by
    obtain ⟨h1, h2⟩ := List.pairwise_cons.1 h
    by_cases ha : a.wd = w
    · have : l.filter (fun p => p.wd != w) = l := by
        refine List.filter_eq_self.2 (fun p hp => ?_)
        have := h1 p hp
        simp
        omega
      rw [List.eraseP_cons_of_pos (by simp [ha]), List.filter_cons_of_neg (by simp [ha]), this]
    · rw [List.eraseP_cons_of_neg (by simp [ha]), List.filter_cons_of_pos (by simp [ha]), eraseP_filter l w h2]

theorem pf_find : ∀ {l : List Pf}, l.Pairwise (fun a b => a.wd ≠ b.wd) → ∀ {p : Pf}, p ∈ l →
    l.find? (fun q => q.wd == p.wd) = some p
  | a :: l, h, p, hp => by
    obtain ⟨h1, h2⟩ := List.pairwise_cons.1 h
    rcases List.mem_cons.1 hp with e | hp
    · subst e
      rw [List.find?_cons_of_pos (by simp)]
    · have := h1 p hp
      rw [List.find?_cons_of_neg (by simpa using this)]
      exact pf_find h2 hp

theorem Calm.names' {s : St} (h : Calm s) : ∀ e ∈ s.ents, ∀ e' ∈ s.ents, e.dir = e'.dir → e.name = e'.name → e = e' :=
  fun e he e' he' _ b => h.names e he e' he' b

/-- Reading with nothing there. -/
theorem read_quiet {s : St} (h : s.queue = []) : read s = s := by
  unfold read
  rw [h]
  split <;> rfl

theorem resolve_one (ents : List Ent) (n : Bytes) :
    resolve ents 0 [n] = (lookup ents 0 n).map (·.ino) := by
  unfold resolve
  cases lookup ents 0 n <;> rfl

/-- The watch and list entry of a file, and what the master does with an event for it. -/
theorem Calm.file {s : St} (h : Calm s) {e : Ent} (he : e ∈ s.ents) :
    ∃ p ∈ s.pfs, p.path = [e.name] ∧ p.dir = false ∧ p.wd ≠ 0 ∧ ⟨p.wd, e.ino, .pf⟩ ∈ s.watches ∧
      s.pfs.find? (fun q => q.wd == p.wd) = some p := by
  obtain ⟨p, hp, a, b⟩ := h.known e he
  refine ⟨p, hp, a, (h.pf p hp).1, ?_, b, pf_find h.wds hp⟩
  intro hz
  have := h.wok.wd _ b _ h.root hz
  injection this with _ this
  have := (h.ent e he).2.1
  omega

theorem read_one {s : St} {ev : Ev} (hr : s.status = .running) (hq : s.queue = [ev]) :
    read s = handle { s with queue := [] } ev := by
  unfold read
  rw [if_pos hr, hq]

theorem handle_file {s : St} {ev : Ev} {p : Pf} (hw : p.wd ≠ 0) (hf : s.pfs.find? (fun q => q.wd == p.wd) = some p)
    (he : ev.wd = p.wd) : handle s ev = inPf s p ev := by
  unfold handle
  rw [he, if_neg (show ¬ p.wd = rootWd from hw), hf]

theorem handle_nobody {s : St} {ev : Ev} (hw : ev.wd ≠ 0) (hf : ∀ p ∈ s.pfs, p.wd ≠ ev.wd) : handle s ev = s := by
  unfold handle
  rw [if_neg (show ¬ ev.wd = rootWd from hw), List.find?_eq_none.2 (fun p hp => by simpa using hf p hp)]

/-- One told, the rest as before. -/
theorem Calm.note {s : St} (h : Calm s) : Calm { s with notes := s.notes + 1 } :=
  ⟨h.run, h.quiet, ⟨h.wok.wd, h.wok.ino, h.wok.lt⟩, h.pos, h.root, h.rdir, h.dirLt, h.ent, h.names, h.once, h.pf,
    h.known, h.wds⟩

theorem self_queue {s : St} (h : s.queue = []) : { s with queue := [] } = s := by
  cases s
  simp at h
  simp [h]

/-- Writing to or changing the attributes of a file. -/
theorem calm_touch {s : St} (h : Calm s) {e : Ent} (he : e ∈ s.ents) (k : Kind) (hk : k = .modify ∨ k = .attrib) :
    read (emit s e.ino k []) = { s with notes := s.notes + 1 } := by
  obtain ⟨p, hp, hpath, hdir, hw, hwatch, hfind⟩ := h.file he
  have hemit : emit s e.ino k [] = { s with queue := [⟨p.wd, k, []⟩] } := by
    have := emit_watched h.wok hwatch k []
    rw [this, h.quiet]
    rcases hk with x | x <;> rw [x] <;> rfl
  have hres : (resolve s.ents 0 p.path).isSome = true := by
    rw [hpath, resolve_one, ← (h.ent e he).1, lookup_mem h.names' he]
    rfl
  have hs : { ({ s with queue := [⟨p.wd, k, []⟩] } : St) with queue := [] } = s := self_queue h.quiet
  rw [hemit, read_one (s := { s with queue := [⟨p.wd, k, []⟩] }) h.run rfl, hs, handle_file hw hfind rfl]
  unfold inPf
  rcases hk with x | x <;> rw [x] <;> dsimp only <;>
    rw [hdir, if_neg (by simp), if_pos hres] <;> unfold tell <;> rw [if_pos h.run]

theorem without_mem {ents : List Ent} {d : Nat} {n : Bytes} {x : Ent} :
    x ∈ without ents d n ↔ x ∈ ents ∧ ¬ (x.dir = d ∧ x.name = n) := by
  unfold without
  rw [List.mem_filter]
  simp only [Bool.not_eq_true', Bool.and_eq_false_iff, beq_eq_false_iff_ne, ne_eq, Decidable.not_and_iff_or_not]

theorem without_lookup (ents : List Ent) (d : Nat) (n : Bytes) : lookup (without ents d n) d n = none := by
  refine List.find?_eq_none.2 (fun x hx => ?_)
  have := (without_mem.1 hx).2
  simpa using this

/-- The file `e` is gone, with its list entry, with or without its watch. -/
theorem calm_without {s : St} (h : Calm s) {e : Ent} (he : e ∈ s.ents) {p : Pf} (hp : p ∈ s.pfs)
    (hpath : p.path = [e.name]) (hwatch : ⟨p.wd, e.ino, .pf⟩ ∈ s.watches) (ws : List Watch)
    (hws : ∀ w ∈ ws, w ∈ s.watches) (hws' : ∀ w ∈ s.watches, w.wd ≠ p.wd → w ∈ ws) :
    Calm { s with ents := without s.ents 0 e.name, pfs := s.pfs.filter (fun q => q.wd != p.wd), watches := ws, notes := s.notes + 1 } := by
  have hne : ∀ x ∈ without s.ents 0 e.name, x ∈ s.ents ∧ x ≠ e := by
    intro x hx
    obtain ⟨a, b⟩ := without_mem.1 hx
    refine ⟨a, fun c => b ?_⟩
    subst c
    exact ⟨(h.ent x a).1, rfl⟩
  have hpz : p.wd ≠ 0 := by
    intro hz
    have := h.wok.wd _ hwatch _ h.root hz
    injection this with _ this
    have := (h.ent e he).2.1
    omega
  have other : ∀ x, x ∈ s.ents → x ≠ e → ∀ w, ⟨w, x.ino, .pf⟩ ∈ s.watches → w ≠ p.wd := by
    intro x hx hxe w hw hz
    have := h.wok.wd _ hw _ hwatch hz
    injection this with _ this
    exact hxe (h.once x hx e he this)
  refine ⟨h.run, h.quiet, ⟨?_, ?_, ?_⟩, h.pos, hws' _ h.root (fun a => hpz a.symm), h.rdir, h.dirLt, ?_, ?_, ?_, ?_, ?_, ?_⟩
  · exact fun w hw w' hw' => h.wok.wd w (hws w hw) w' (hws w' hw')
  · exact fun w hw w' hw' => h.wok.ino w (hws w hw) w' (hws w' hw')
  · exact fun w hw => h.wok.lt w (hws w hw)
  · exact fun x hx => h.ent x (hne x hx).1
  · exact fun x hx y hy => h.names x (hne x hx).1 y (hne y hy).1
  · exact fun x hx y hy => h.once x (hne x hx).1 y (hne y hy).1
  · intro q hq
    obtain ⟨hq, hqw⟩ := List.mem_filter.1 hq
    have hqw : q.wd ≠ p.wd := by simpa using hqw
    obtain ⟨a, x, hx, b, c⟩ := h.pf q hq
    refine ⟨a, x, without_mem.2 ⟨hx, fun d => ?_⟩, b, hws' _ c hqw⟩
    have hxe : x = e := h.names x hx e he d.2
    subst hxe
    have := h.wok.ino _ c _ hwatch rfl
    injection this with this
    exact hqw this
  · intro x hx
    obtain ⟨hx, hxe⟩ := hne x hx
    obtain ⟨q, hq, a, b⟩ := h.known x hx
    have := other x hx hxe q.wd b
    exact ⟨q, List.mem_filter.2 ⟨hq, by simpa using this⟩, a, hws' _ b this⟩
  · exact h.wds.filter _

/-- Removing a file. -/
theorem calm_unlink {s : St} (h : Calm s) {e : Ent} (he : e ∈ s.ents) :
    Calm (read (emit { s with ents := without s.ents 0 e.name } e.ino .attrib [])) ∧
      (read (emit { s with ents := without s.ents 0 e.name } e.ino .attrib [])).notes = s.notes + 1 := by
  obtain ⟨p, hp, hpath, hdir, hw, hwatch, hfind⟩ := h.file he
  have wok' : Wok { s with ents := without s.ents 0 e.name } := ⟨h.wok.wd, h.wok.ino, h.wok.lt⟩
  have hemit : emit { s with ents := without s.ents 0 e.name } e.ino .attrib [] =
      { s with ents := without s.ents 0 e.name, queue := [⟨p.wd, .attrib, []⟩] } := by
    have := emit_watched wok' (w := ⟨p.wd, e.ino, .pf⟩) hwatch .attrib []
    rw [this]
    dsimp only
    rw [h.quiet]
    rfl
  have hres : (resolve (without s.ents 0 e.name) 0 p.path).isSome = false := by
    rw [hpath, resolve_one, without_lookup]
    rfl
  have key : read (emit { s with ents := without s.ents 0 e.name } e.ino .attrib []) =
      { s with ents := without s.ents 0 e.name, pfs := s.pfs.filter (fun q => q.wd != p.wd), notes := s.notes + 1 } := by
    have hs : { ({ s with ents := without s.ents 0 e.name, queue := [⟨p.wd, .attrib, []⟩] } : St) with queue := [] } =
        { s with ents := without s.ents 0 e.name } := self_queue (s := { s with ents := without s.ents 0 e.name }) h.quiet
    rw [hemit, read_one (s := { s with ents := without s.ents 0 e.name, queue := [⟨p.wd, .attrib, []⟩] }) h.run rfl,
      hs, handle_file (s := { s with ents := without s.ents 0 e.name }) hw hfind rfl]
    unfold inPf
    dsimp only
    rw [hdir, if_neg (by simp), hres, if_neg (by simp)]
    unfold rmPf
    rw [hdir, if_neg (by simp), if_pos rfl]
    unfold tell
    dsimp only
    rw [if_pos h.run, eraseP_filter _ _ h.wds]
  rw [key]
  exact ⟨calm_without h he hp hpath hwatch s.watches (fun _ a => a) (fun _ a _ => a), rfl⟩

/-- Moving a file away. -/
theorem calm_moveOut {s : St} (h : Calm s) {e : Ent} (he : e ∈ s.ents) :
    Calm (read (read (emit { s with ents := without s.ents 0 e.name } e.ino .moveSelf []))) ∧
      (read (read (emit { s with ents := without s.ents 0 e.name } e.ino .moveSelf []))).notes = s.notes + 1 := by
  obtain ⟨p, hp, hpath, hdir, hw, hwatch, hfind⟩ := h.file he
  have wok' : Wok { s with ents := without s.ents 0 e.name } := ⟨h.wok.wd, h.wok.ino, h.wok.lt⟩
  have hemit : emit { s with ents := without s.ents 0 e.name } e.ino .moveSelf [] =
      { s with ents := without s.ents 0 e.name, queue := [⟨p.wd, .moveSelf, []⟩] } := by
    have := emit_watched wok' (w := ⟨p.wd, e.ino, .pf⟩) hwatch .moveSelf []
    rw [this]
    dsimp only
    rw [h.quiet]
    rfl
  have key : read (emit { s with ents := without s.ents 0 e.name } e.ino .moveSelf []) =
      { s with ents := without s.ents 0 e.name, pfs := s.pfs.filter (fun q => q.wd != p.wd),
               watches := s.watches.filter (fun v => v.wd != p.wd), queue := [⟨p.wd, .ignored, []⟩], notes := s.notes + 1 } := by
    have hs : { ({ s with ents := without s.ents 0 e.name, queue := [⟨p.wd, .moveSelf, []⟩] } : St) with queue := [] } =
        { s with ents := without s.ents 0 e.name } := self_queue (s := { s with ents := without s.ents 0 e.name }) h.quiet
    rw [hemit, read_one (s := { s with ents := without s.ents 0 e.name, queue := [⟨p.wd, .moveSelf, []⟩] }) h.run rfl,
      hs, handle_file (s := { s with ents := without s.ents 0 e.name }) hw hfind rfl]
    unfold inPf
    dsimp only
    unfold rmPf
    have hfw : s.watches.find? (fun v => v.wd == p.wd) = some ⟨p.wd, e.ino, .pf⟩ :=
      watch_find_wd h.wok hwatch
    dsimp only
    rw [hdir, if_neg (by simp), if_neg (by simp), hfw]
    unfold tell
    dsimp only
    rw [if_pos h.run, eraseP_filter _ _ h.wds, h.quiet]
    rfl
  have key2 : read (read (emit { s with ents := without s.ents 0 e.name } e.ino .moveSelf [])) =
      { s with ents := without s.ents 0 e.name, pfs := s.pfs.filter (fun q => q.wd != p.wd),
               watches := s.watches.filter (fun v => v.wd != p.wd), notes := s.notes + 1 } := by
    rw [key, read_one (ev := ⟨p.wd, .ignored, []⟩) (by exact h.run) rfl]
    rw [handle_nobody hw (fun q hq => by simpa using (List.mem_filter.1 hq).2)]
    have := h.quiet
    cases s
    simp at this
    simp [this]
  rw [key2]
  exact ⟨calm_without h he hp hpath hwatch _ (fun w hw => (List.mem_filter.1 hw).1)
    (fun w hw a => List.mem_filter.2 ⟨hw, by simpa using a⟩), rfl⟩

/-- A new file. -/
theorem calm_new {s : St} (h : Calm s) (n : Bytes) (hl : lookup s.ents 0 n = none) (k : Kind)
    (hk : k = .create ∨ k = .movedTo) :
    Calm (read (newEnt s 0 n false k)) ∧ (read (newEnt s 0 n false k)).notes = s.notes + 1 := by
  have hd0 : s.isDir 0 = true := by unfold St.isDir; simpa using h.rdir
  have hno : ∀ e ∈ s.ents, e.name ≠ n := by
    intro e he b
    have := List.find?_eq_none.1 hl e he
    simp [(h.ent e he).1, b] at this
  have hnd : s.isDir s.nextIno = false := by
    unfold St.isDir
    cases hc : s.dirs.contains s.nextIno
    · rfl
    · have := h.dirLt s.nextIno (by simpa using hc)
      omega
  have hnw : s.watches.find? (fun w => w.ino == s.nextIno) = none := by
    refine List.find?_eq_none.2 (fun w hw => ?_)
    have := (h.wok.lt w hw).2
    simp
    omega
  have hnew : newEnt s 0 n false k = { s with ents := s.ents ++ [⟨0, n, s.nextIno⟩], nextIno := s.nextIno + 1, queue := [⟨0, k, n⟩] } := by
    unfold newEnt
    rw [hd0, hl]
    dsimp only [Option.isNone, Bool.and_self, if_true]
    have wok' : Wok { s with ents := s.ents ++ [⟨0, n, s.nextIno⟩], nextIno := s.nextIno + 1 } :=
      ⟨h.wok.wd, h.wok.ino, fun w hw => by have := h.wok.lt w hw; dsimp only; omega⟩
    have := emit_watched wok' (w := ⟨0, 0, .mp⟩) h.root k n
    simp only [if_true, Bool.false_eq_true, if_false]
    rw [this]
    dsimp only
    rw [h.quiet]
    rcases hk with x | x <;> rw [x] <;> rfl
  have hres : resolve (s.ents ++ [⟨0, n, s.nextIno⟩]) 0 [n] = some s.nextIno := by
    rw [resolve_one]
    unfold lookup at hl ⊢
    rw [List.find?_append, hl]
    simp
  have key : read (newEnt s 0 n false k) =
      { s with ents := s.ents ++ [⟨0, n, s.nextIno⟩], nextIno := s.nextIno + 1, watches := s.watches ++ [⟨s.nextWd, s.nextIno, .pf⟩],
               nextWd := s.nextWd + 1, pfs := s.pfs ++ [⟨[n], s.nextWd, false⟩], notes := s.notes + 1 } := by
    have hs : { ({ s with ents := s.ents ++ [⟨0, n, s.nextIno⟩], nextIno := s.nextIno + 1, queue := [⟨0, k, n⟩] } : St) with queue := [] } =
        { s with ents := s.ents ++ [⟨0, n, s.nextIno⟩], nextIno := s.nextIno + 1 } :=
      self_queue (s := { s with ents := s.ents ++ [⟨0, n, s.nextIno⟩], nextIno := s.nextIno + 1 }) h.quiet
    rw [hnew, read_one (s := { s with ents := s.ents ++ [⟨0, n, s.nextIno⟩], nextIno := s.nextIno + 1, queue := [⟨0, k, n⟩] }) h.run rfl, hs]
    have hadd : addNew { s with ents := s.ents ++ [⟨0, n, s.nextIno⟩], nextIno := s.nextIno + 1 } [n] =
        { s with ents := s.ents ++ [⟨0, n, s.nextIno⟩], nextIno := s.nextIno + 1, watches := s.watches ++ [⟨s.nextWd, s.nextIno, .pf⟩],
                 nextWd := s.nextWd + 1, pfs := s.pfs ++ [⟨[n], s.nextWd, false⟩] } := by
      unfold addNew
      dsimp only
      rw [hres]
      have hd' : St.isDir { s with ents := s.ents ++ [⟨0, n, s.nextIno⟩], nextIno := s.nextIno + 1 } s.nextIno = false := hnd
      dsimp only
      rw [hd', if_neg (by simp)]
      unfold addPf addWatch maskOf
      dsimp only
      rw [hd', hnw]
      rfl
    have htell : tell { s with ents := s.ents ++ [⟨0, n, s.nextIno⟩], nextIno := s.nextIno + 1, watches := s.watches ++ [⟨s.nextWd, s.nextIno, .pf⟩]
                               nextWd := s.nextWd + 1, pfs := s.pfs ++ [⟨[n], s.nextWd, false⟩] } =
        { s with ents := s.ents ++ [⟨0, n, s.nextIno⟩], nextIno := s.nextIno + 1, watches := s.watches ++ [⟨s.nextWd, s.nextIno, .pf⟩],
                 nextWd := s.nextWd + 1, pfs := s.pfs ++ [⟨[n], s.nextWd, false⟩], notes := s.notes + 1 } := by
      unfold tell
      dsimp only
      rw [if_pos h.run]
    unfold handle
    rw [if_pos (show (⟨0, k, n⟩ : Ev).wd = rootWd from rfl)]
    unfold inMp
    rcases hk with x | x <;> rw [x] <;> dsimp only <;> rw [hadd, htell]
  rw [key]
  refine ⟨⟨h.run, h.quiet, ⟨?_, ?_, ?_⟩, by dsimp only; omega, List.mem_append_left _ h.root, h.rdir, ?_, ?_, ?_, ?_, ?_, ?_, ?_⟩, rfl⟩
  · intro w hw w' hw' e
    rcases List.mem_append.1 hw with a | a <;> rcases List.mem_append.1 hw' with b | b
    · exact h.wok.wd w a w' b e
    · simp at b; subst b; have := (h.wok.lt w a).1; simp at e; omega
    · simp at a; subst a; have := (h.wok.lt w' b).1; simp at e; omega
    · simp at a b; rw [a, b]
  · intro w hw w' hw' e
    rcases List.mem_append.1 hw with a | a <;> rcases List.mem_append.1 hw' with b | b
    · exact h.wok.ino w a w' b e
    · simp at b; subst b; have := (h.wok.lt w a).2; simp at e; omega
    · simp at a; subst a; have := (h.wok.lt w' b).2; simp at e; omega
    · simp at a b; rw [a, b]
  · intro w hw
    rcases List.mem_append.1 hw with a | a
    · have := h.wok.lt w a; dsimp only; omega
    · simp at a; subst a; dsimp only; omega
  · intro d hd
    have := h.dirLt d hd
    dsimp only
    omega
  · intro e he
    rcases List.mem_append.1 he with he | he
    · have := h.ent e he; exact ⟨this.1, this.2.1, by dsimp only; omega, this.2.2.2⟩
    · simp at he; subst he; exact ⟨rfl, h.pos, by dsimp only; omega, hnd⟩
  · intro e he e' he' a
    rcases List.mem_append.1 he with he | he <;> rcases List.mem_append.1 he' with he' | he'
    · exact h.names e he e' he' a
    · simp at he'; subst he'; exact absurd a (hno e he)
    · simp at he; subst he; exact absurd a.symm (hno e' he')
    · simp at he he'; rw [he, he']
  · intro e he e' he' a
    rcases List.mem_append.1 he with he | he <;> rcases List.mem_append.1 he' with he' | he'
    · exact h.once e he e' he' a
    · simp at he'; subst he'; have := (h.ent e he).2.2.1; simp at a; omega
    · simp at he; subst he; have := (h.ent e' he').2.2.1; simp at a; omega
    · simp at he he'; rw [he, he']
  · intro p hp
    rcases List.mem_append.1 hp with hp | hp
    · obtain ⟨a, e, he, b, c⟩ := h.pf p hp
      exact ⟨a, e, List.mem_append_left _ he, b, List.mem_append_left _ c⟩
    · simp at hp
      subst hp
      exact ⟨rfl, ⟨0, n, s.nextIno⟩, by simp, rfl, by simp⟩
  · intro e he
    rcases List.mem_append.1 he with he | he
    · obtain ⟨p, hp, a, b⟩ := h.known e he
      exact ⟨p, List.mem_append_left _ hp, a, List.mem_append_left _ b⟩
    · simp at he
      subst he
      exact ⟨⟨[n], s.nextWd, false⟩, by simp, rfl, by simp⟩
  · refine List.pairwise_append.2 ⟨h.wds, by simp, ?_⟩
    intro p hp q hq
    simp at hq
    subst hq
    obtain ⟨_, e, _, _, c⟩ := h.pf p hp
    have := (h.wok.lt _ c).1
    dsimp only at this ⊢
    omega

/-- The inode of a removed file goes. -/
theorem calm_free {s : St} (h : Calm s) (i : Nat) (hi : i ≠ 0) (hn : ∀ e ∈ s.ents, e.ino ≠ i) :
    Calm (read (read { emit (emit s i .deleteSelf []) i .ignored [] with watches := s.watches.filter (fun w => w.ino != i) })) := by
  have base : Calm { s with watches := s.watches.filter (fun w => w.ino != i) } := by
    refine ⟨h.run, h.quiet, ⟨?_, ?_, ?_⟩, h.pos, List.mem_filter.2 ⟨h.root, by simpa using hi.symm⟩, h.rdir, h.dirLt, h.ent, h.names, h.once, ?_, ?_, h.wds⟩
    · exact fun w hw w' hw' => h.wok.wd w (List.mem_filter.1 hw).1 w' (List.mem_filter.1 hw').1
    · exact fun w hw w' hw' => h.wok.ino w (List.mem_filter.1 hw).1 w' (List.mem_filter.1 hw').1
    · exact fun w hw => h.wok.lt w (List.mem_filter.1 hw).1
    · intro p hp
      obtain ⟨a, e, he, b, c⟩ := h.pf p hp
      exact ⟨a, e, he, b, List.mem_filter.2 ⟨c, by simpa using hn e he⟩⟩
    · intro e he
      obtain ⟨p, hp, b, c⟩ := h.known e he
      exact ⟨p, hp, b, List.mem_filter.2 ⟨c, by simpa using hn e he⟩⟩
  cases hf : s.watches.find? (fun w => w.ino == i) with
  | none =>
    have e1 : emit s i .deleteSelf [] = s := by unfold emit; rw [hf]
    have e2 : emit s i .ignored [] = s := by unfold emit; rw [hf]
    rw [e1, e2, read_quiet (s := { s with watches := s.watches.filter (fun w => w.ino != i) }) h.quiet,
      read_quiet (s := { s with watches := s.watches.filter (fun w => w.ino != i) }) h.quiet]
    exact base
  | some w =>
    have hw := List.mem_of_find?_eq_some hf
    have hwi := List.find?_some hf
    simp at hwi
    have hz : w.wd ≠ 0 := by
      intro hz
      have := h.wok.wd w hw _ h.root hz
      rw [this] at hwi
      simp at hwi
      omega
    have hnp : ∀ p ∈ s.pfs, p.wd ≠ w.wd := by
      intro p hp hz
      obtain ⟨_, e, he, _, c⟩ := h.pf p hp
      have := h.wok.wd _ c w hw hz
      rw [← this] at hwi
      exact hn e he hwi
    have e1 : emit (emit s i .deleteSelf []) i .ignored [] = { s with queue := [⟨w.wd, .deleteSelf, []⟩, ⟨w.wd, .ignored, []⟩] } := by
      have q1 : emit s i .deleteSelf [] = { s with queue := [⟨w.wd, .deleteSelf, []⟩] } := by
        unfold emit
        rw [hf]
        dsimp only
        rw [h.quiet]
        cases w.mask <;> rfl
      rw [q1]
      unfold emit
      dsimp only
      rw [hf]
      dsimp only
      cases w.mask <;> rfl
    rw [e1]
    have r1 : read { ({ s with queue := [⟨w.wd, .deleteSelf, []⟩, ⟨w.wd, .ignored, []⟩] } : St) with watches := s.watches.filter (fun w => w.ino != i) } =
        { s with queue := [⟨w.wd, .ignored, []⟩], watches := s.watches.filter (fun w => w.ino != i) } := by
      unfold read
      dsimp only
      rw [if_pos h.run]
      exact handle_nobody hz hnp
    rw [r1, read_one (ev := ⟨w.wd, .ignored, []⟩) (by exact h.run) rfl, handle_nobody hz hnp]
    dsimp only
    have : ({ s with queue := [], watches := s.watches.filter (fun w => w.ino != i) } : St) = { s with watches := s.watches.filter (fun w => w.ino != i) } := by
      have := h.quiet
      cases s
      simp at this
      simp [this]
    rw [this]
    exact base

theorem read_calm {s : St} (h : Calm s) : read s = s := read_quiet h.quiet

/-- One change and three reads. -/
theorem calm_op {s : St} (h : Calm s) (o : Op) (ho : o.simple = true) :
    Calm (run s [.op o, .read, .read, .read]) ∧
      (o.takesPlace s = true → (run s [.op o, .read, .read, .read]).notes = s.notes + 1) := by
  show Calm (read (read (read (op s o)))) ∧ (_ → (read (read (read (op s o)))).notes = s.notes + 1)
  have one : ∀ t, Calm (read t) ∧ (read t).notes = s.notes + 1 → Calm (read (read (read t))) ∧ (read (read (read t))).notes = s.notes + 1 := by
    intro t ht
    rw [read_calm ht.1, read_calm ht.1]
    exact ht
  have two : ∀ t, Calm (read (read t)) ∧ (read (read t)).notes = s.notes + 1 → Calm (read (read (read t))) ∧ (read (read (read t))).notes = s.notes + 1 := by
    intro t ht
    rw [read_calm ht.1]
    exact ht
  have none' : Calm (read (read (read s))) := by rw [read_calm h, read_calm h, read_calm h]; exact h
  have new' : ∀ n k, (k = Kind.create ∨ k = Kind.movedTo) → Calm (read (read (read (newEnt s 0 n false k)))) ∧
      ((s.isDir 0 && (lookup s.ents 0 n).isNone) = true → (read (read (read (newEnt s 0 n false k)))).notes = s.notes + 1) := by
    intro n k hk
    cases hl : lookup s.ents 0 n with
    | none =>
      have := one _ (calm_new h n hl k hk)
      exact ⟨this.1, fun _ => this.2⟩
    | some e =>
      have : newEnt s 0 n false k = s := by unfold newEnt; rw [hl]; simp
      rw [this]
      exact ⟨none', fun x => by simp at x⟩
  cases o with
  | create d n =>
    simp [Op.simple] at ho; subst ho
    exact new' n .create (.inl rfl)
  | moveIn d n =>
    simp [Op.simple] at ho; subst ho
    exact new' n .movedTo (.inr rfl)
  | mkdir d n => cases ho
  | rename d n n' => cases ho
  | write d n =>
    simp [Op.simple] at ho; subst ho
    unfold op Op.takesPlace
    dsimp only
    cases hl : lookup s.ents 0 n with
    | none => exact ⟨none', fun x => by simp at x⟩
    | some e =>
      have := one (emit s e.ino .modify []) (by
        rw [calm_touch h (lookup_some hl).1 .modify (.inl rfl)]
        exact ⟨h.note, rfl⟩)
      exact ⟨this.1, fun _ => this.2⟩
  | chmod d n =>
    simp [Op.simple] at ho; subst ho
    unfold op Op.takesPlace
    dsimp only
    cases hl : lookup s.ents 0 n with
    | none => exact ⟨none', fun x => by simp at x⟩
    | some e =>
      have := one (emit s e.ino .attrib []) (by
        rw [calm_touch h (lookup_some hl).1 .attrib (.inr rfl)]
        exact ⟨h.note, rfl⟩)
      exact ⟨this.1, fun _ => this.2⟩
  | unlink d n =>
    simp [Op.simple] at ho; subst ho
    unfold op Op.takesPlace
    dsimp only
    cases hl : lookup s.ents 0 n with
    | none => exact ⟨none', fun x => by simp at x⟩
    | some e =>
      obtain ⟨he, _, hen⟩ := lookup_some hl
      dsimp only
      rw [(h.ent e he).2.2.2, if_neg (by simp), ← hen]
      have := one _ (calm_unlink h he)
      exact ⟨this.1, fun _ => this.2⟩
  | moveOut d n =>
    simp [Op.simple] at ho; subst ho
    unfold op Op.takesPlace
    dsimp only
    cases hl : lookup s.ents 0 n with
    | none => exact ⟨none', fun x => by simp at x⟩
    | some e =>
      obtain ⟨he, _, hen⟩ := lookup_some hl
      dsimp only
      rw [← hen]
      have := two _ (calm_moveOut h he)
      exact ⟨this.1, fun _ => this.2⟩
  | free i =>
    unfold op Op.takesPlace
    dsimp only
    split
    · exact ⟨none', fun x => by simp at x⟩
    · rename_i hc
      simp at hc
      have := calm_free h i hc.1 (fun e he => (hc.2 e he).1)
      exact ⟨by rw [read_calm this]; exact this, fun x => by simp at x⟩

theorem calm_run : ∀ (os : List Op) (s : St), Calm s → (∀ o ∈ os, o.simple = true) → Calm (run s (calm os))
  | [], _, h, _ => h
  | o :: os, s, h, hs => by
    have h1 := (calm_op h o (hs o (List.mem_cons_self ..))).1
    have := calm_run os _ h1 (fun x hx => hs x (List.mem_cons_of_mem _ hx))
    exact this

/-! ## The start -/

/-- The watches of the files at the start. -/
def startWatches : Nat → List Ent → List Watch
  | _, [] => []
  | k, e :: r => ⟨k, e.ino, .pf⟩ :: startWatches (k + 1) r

/-- The list of files at the start. -/
def startPfs : Nat → List Ent → List Pf
  | _, [] => []
  | k, e :: r => ⟨[e.name], k, false⟩ :: startPfs (k + 1) r

theorem start_fold : ∀ (l : List Ent) (s : St), (∀ e ∈ l, s.isDir e.ino = false ∧ ∀ w ∈ s.watches, w.ino ≠ e.ino) →
    l.Pairwise (fun a b => a.ino ≠ b.ino) →
    (l.map (fun e => ([e.name], e.ino))).foldl (fun s x => addPf s .pf x) s =
      { s with watches := s.watches ++ startWatches s.nextWd l, nextWd := s.nextWd + l.length, pfs := s.pfs ++ startPfs s.nextWd l }
  | [], s, _, _ => by simp [startWatches, startPfs]
  | e :: l, s, h, hp => by
    obtain ⟨h1, h2⟩ := List.pairwise_cons.1 hp
    have he := h e (List.mem_cons_self ..)
    have hf : s.watches.find? (fun w => w.ino == e.ino) = none :=
      List.find?_eq_none.2 (fun w hw => by simpa using he.2 w hw)
    have step : addPf s .pf ([e.name], e.ino) =
        { s with watches := s.watches ++ [⟨s.nextWd, e.ino, .pf⟩], nextWd := s.nextWd + 1, pfs := s.pfs ++ [⟨[e.name], s.nextWd, false⟩] } := by
      unfold addPf addWatch
      dsimp only
      rw [hf, he.1]
    rw [List.map_cons, List.foldl_cons, step, start_fold l _ _ h2]
    · simp [startWatches, startPfs, List.append_assoc]
      omega
    · intro x hx
      refine ⟨(h x (List.mem_cons_of_mem _ hx)).1, fun w hw => ?_⟩
      rcases List.mem_append.1 hw with hw | hw
      · exact (h x (List.mem_cons_of_mem _ hx)).2 w hw
      · simp at hw
        subst hw
        exact h1 x hx

theorem startWatches_mem : ∀ (l : List Ent) (k : Nat) (w : Watch), w ∈ startWatches k l →
    k ≤ w.wd ∧ w.wd < k + l.length ∧ ∃ e ∈ l, w.ino = e.ino
  | [], _, _, h => by cases h
  | e :: l, k, w, h => by
    rcases List.mem_cons.1 h with h | h
    · subst h
      simp
    · obtain ⟨a, b, x, hx, c⟩ := startWatches_mem l (k + 1) w h
      exact ⟨by omega, by simp; omega, x, List.mem_cons_of_mem _ hx, c⟩

theorem startWatches_inj : ∀ (l : List Ent) (k : Nat), l.Pairwise (fun a b => a.ino ≠ b.ino) →
    ∀ w ∈ startWatches k l, ∀ w' ∈ startWatches k l, (w.wd = w'.wd ∨ w.ino = w'.ino) → w = w'
  | [], _, _, _, h, _, _, _ => by cases h
  | e :: l, k, hp, w, hw, w', hw', heq => by
    obtain ⟨h1, h2⟩ := List.pairwise_cons.1 hp
    rcases List.mem_cons.1 hw with hw | hw <;> rcases List.mem_cons.1 hw' with hw' | hw'
    · rw [hw, hw']
    · obtain ⟨a, b, x, hx, c⟩ := startWatches_mem l (k + 1) w' hw'
      subst hw
      dsimp only at heq
      rcases heq with heq | heq
      · omega
      · exact absurd (heq.trans c) (h1 x hx)
    · obtain ⟨a, b, x, hx, c⟩ := startWatches_mem l (k + 1) w hw
      subst hw'
      dsimp only at heq
      rcases heq with heq | heq
      · omega
      · exact absurd (heq.symm.trans c) (h1 x hx)
    · exact startWatches_inj l (k + 1) h2 w hw w' hw' heq

theorem startPfs_spec : ∀ (l : List Ent) (k : Nat),
    (∀ p ∈ startPfs k l, k ≤ p.wd ∧ p.dir = false ∧ ∃ e ∈ l, p.path = [e.name] ∧ ⟨p.wd, e.ino, .pf⟩ ∈ startWatches k l) ∧
    (∀ e ∈ l, ∃ p ∈ startPfs k l, p.path = [e.name] ∧ ⟨p.wd, e.ino, .pf⟩ ∈ startWatches k l) ∧
    (startPfs k l).Pairwise (fun a b => a.wd ≠ b.wd)
  | [], _ => ⟨(fun _ h => by cases h), (fun _ h => by cases h), List.Pairwise.nil⟩
  | e :: l, k => by
    obtain ⟨h1, h2, h3⟩ := startPfs_spec l (k + 1)
    refine ⟨?_, ?_, ?_⟩
    · intro p hp
      rcases List.mem_cons.1 hp with hp | hp
      · subst hp
        exact ⟨Nat.le_refl _, rfl, e, List.mem_cons_self .., rfl, List.mem_cons_self ..⟩
      · obtain ⟨a, b, x, hx, c, d⟩ := h1 p hp
        exact ⟨by omega, b, x, List.mem_cons_of_mem _ hx, c, List.mem_cons_of_mem _ d⟩
    · intro x hx
      rcases List.mem_cons.1 hx with hx | hx
      · subst hx
        exact ⟨⟨[x.name], k, false⟩, List.mem_cons_self .., rfl, List.mem_cons_self ..⟩
      · obtain ⟨p, hp, c, d⟩ := h2 x hx
        exact ⟨p, List.mem_cons_of_mem _ hp, c, List.mem_cons_of_mem _ d⟩
    · refine List.pairwise_cons.2 ⟨fun p hp => ?_, h3⟩
      have := (h1 p hp).1
      dsimp only
      omega

theorem walk_flat {ents : List Ent} {f : Nat} (hd : ∀ e ∈ ents, e.dir = 0 ∧ 0 < e.ino) :
    walk ents (f + 1) 0 [] = ents.map (fun e => ([e.name], e.ino)) := by
  have hnone : ∀ g i p, 0 < i → walk ents g i p = [] := by
    intro g i p hi
    cases g with
    | zero => rfl
    | succ g =>
      unfold walk
      have : ents.filter (fun e => e.dir == i) = [] := by
        refine List.filter_eq_nil_iff.2 (fun e he => ?_)
        have := (hd e he).1
        simp
        omega
      rw [this]
      rfl
  unfold walk
  have hall : ents.filter (fun e => e.dir == 0) = ents :=
    List.filter_eq_self.2 (fun e he => by simp [(hd e he).1])
  rw [hall]
  clear hall
  have : ∀ l : List Ent, (∀ e ∈ l, 0 < e.ino) →
      l.flatMap (fun e => walk ents f e.ino ([] ++ [e.name]) ++ [([] ++ [e.name], e.ino)]) = l.map (fun e => ([e.name], e.ino)) := by
    intro l
    induction l with
    | nil => intro _; rfl
    | cons e l ih =>
      intro h
      rw [List.flatMap_cons, ih (fun x hx => h x (List.mem_cons_of_mem _ hx)), hnone _ _ _ (h e (List.mem_cons_self ..))]
      rfl
  exact this ents (fun e he => (hd e he).2)

theorem start_calm {ents : List Ent} {dirs : List Nat} {n : Nat} (t : Tree ents dirs n) (hf : Flat ents dirs) :
    Calm (start ents dirs n) := by
  obtain ⟨f, hn⟩ : ∃ f, n = f + 1 := ⟨n - 1, by have := t.pos; omega⟩
  have hpair : ents.Pairwise (fun a b => a.ino ≠ b.ino) := by
    refine List.Pairwise.imp_of_mem ?_ hf.1
    intro a b ha hb hne e
    exact hne (t.once a ha b hb e)
  have hino : ∀ e ∈ ents, 0 < e.ino := fun e he => by have := t.below e he; omega
  have hdir : ∀ e ∈ ents, List.contains dirs e.ino = false := by
    intro e he
    cases hc : dirs.contains e.ino
    · rfl
    · exact absurd (by simpa using hc) (hf.2 e he).2
  have key : start ents dirs n = ⟨ents, dirs, n, ⟨0, 0, .mp⟩ :: startWatches 1 ents, 1 + ents.length, [], startPfs 1 ents, 0, .running⟩ := by
    unfold start
    rw [show walk ents n 0 [] = ents.map (fun e => ([e.name], e.ino)) by
      rw [hn]; exact walk_flat (fun e he => ⟨(hf.2 e he).1, hino e he⟩)]
    rw [start_fold ents _ _ hpair]
    · rfl
    · intro e he
      refine ⟨hdir e he, fun w hw => ?_⟩
      simp at hw
      subst hw
      have := hino e he
      dsimp only
      omega
  rw [key]
  obtain ⟨p1, p2, p3⟩ := startPfs_spec ents 1
  have zero : ∀ w ∈ startWatches 1 ents, w.wd ≠ 0 ∧ w.ino ≠ 0 := by
    intro w hw
    obtain ⟨a, b, e, he, c⟩ := startWatches_mem ents 1 w hw
    have := hino e he
    omega
  refine ⟨rfl, rfl, ⟨?_, ?_, ?_⟩, t.pos, List.mem_cons_self .., t.root, t.dirLt, ?_, ?_, t.once, ?_, ?_, p3⟩
  · intro w hw w' hw' e
    rcases List.mem_cons.1 hw with hw | hw <;> rcases List.mem_cons.1 hw' with hw' | hw'
    · rw [hw, hw']
    · subst hw; exact absurd e.symm (zero w' hw').1
    · subst hw'; exact absurd e (zero w hw).1
    · exact startWatches_inj ents 1 hpair w hw w' hw' (.inl e)
  · intro w hw w' hw' e
    rcases List.mem_cons.1 hw with hw | hw <;> rcases List.mem_cons.1 hw' with hw' | hw'
    · rw [hw, hw']
    · subst hw; exact absurd e.symm (zero w' hw').2
    · subst hw'; exact absurd e (zero w hw).2
    · exact startWatches_inj ents 1 hpair w hw w' hw' (.inr e)
  · intro w hw
    rcases List.mem_cons.1 hw with hw | hw
    · subst hw; exact ⟨by dsimp only; omega, t.pos⟩
    · obtain ⟨a, b, e, he, c⟩ := startWatches_mem ents 1 w hw
      have := (t.below e he).2
      exact ⟨by dsimp only; omega, by dsimp only; omega⟩
  · exact fun e he => ⟨(hf.2 e he).1, hino e he, (t.below e he).2, hdir e he⟩
  · exact fun e he e' he' a => t.names e he e' he' ((hf.2 e he).1.trans (hf.2 e' he').1.symm) a
  · intro p hp
    obtain ⟨a, b, e, he, c, d⟩ := p1 p hp
    exact ⟨b, e, he, c, List.mem_cons_of_mem _ d⟩
  · intro e he
    obtain ⟨p, hp, c, d⟩ := p2 e he
    exact ⟨p, hp, c, List.mem_cons_of_mem _ d⟩

theorem Calm.followed {s : St} (h : Calm s) : Followed s := by
  refine ⟨h.run, h.quiet, ?_, ?_⟩
  · intro e he
    obtain ⟨p, hp, a, b⟩ := h.known e he
    refine ⟨p, hp, ?_, _, b, rfl, rfl⟩
    rw [a, resolve_one, ← (h.ent e he).1, lookup_mem h.names' he]
    rfl
  · intro p hp
    obtain ⟨_, e, he, a, _⟩ := h.pf p hp
    exact ⟨e, he, a⟩

end Fly.Watch
