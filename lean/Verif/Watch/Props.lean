import Verif.Watch.Calm

/-! # Properties C142–C145: the watch over a mount point -/

namespace Fly.Watch

/-! ## C142: growing trees -/

/-- **C142.**  As long as files and directories are only added, written to or get other attributes, at any
depth, in any order and with any interleaving with the master's reading, the master keeps running. -/
theorem C142_growing_survives {ents : List Ent} {dirs : List Nat} {n : Nat} (t : Tree ents dirs n) (as : List Act)
    (hg : ∀ a ∈ as, a.grows = true) : (run (start ents dirs n) as).status = .running :=
  (run_grow as _ (start_grow t).1 (Nat.le_of_eq (start_grow t).2.1.symm) hg).base.run

/-- **C142.**  When it has read everything, it knows every file and directory in the mount point and in all
directories that were made since the start (in the mount point or in such a directory). -/
theorem C142_growing_known {ents : List Ent} {dirs : List Nat} {n : Nat} (t : Tree ents dirs n) (as : List Act)
    (hg : ∀ a ∈ as, a.grows = true) (hq : (run (start ents dirs n) as).queue = []) (e : Ent)
    (he : e ∈ (run (start ents dirs n) as).ents) (hd : Seen (run (start ents dirs n) as).ents n e.dir) :
    Known (run (start ents dirs n) as) e :=
  (grow_known (run_grow as _ (start_grow t).1 (Nat.le_of_eq (start_grow t).2.1.symm) hg) hq hd).2 e he rfl

theorem addPf_queue (s : St) (m : Mask) (x : List Bytes × Nat) : (addPf s m x).queue = s.queue := by
  unfold addPf addWatch
  split <;> rfl

theorem foldFound_queue : ∀ (l : List (List Bytes × Nat)) (s : St), (l.foldl addFound s).queue = s.queue
  | [], _ => rfl
  | x :: l, s => by
    refine (foldFound_queue l (addFound s x)).trans ?_
    unfold addFound
    split
    · rfl
    · exact addPf_queue ..

theorem addNew_queue (s : St) (p : List Bytes) : (addNew s p).queue = s.queue := by
  unfold addNew
  split
  · rfl
  · dsimp only
    split
    · exact (addPf_queue ..).trans (foldFound_queue _ s)
    · exact addPf_queue ..

theorem tell_queue (s : St) : (tell s).queue = s.queue := by
  unfold tell
  split <;> rfl

/-- In a growing tree a read takes the first event and makes none. -/
theorem read_tail {n0 : Nat} {s : St} (h : Grow n0 s) : (read s).queue = s.queue.tail := by
  have an : ∀ (s : St) p, (tell (addNew s p)).queue = s.queue := fun s p => (tell_queue _).trans (addNew_queue s p)
  unfold read
  rw [if_pos h.base.run]
  cases hq : s.queue with
  | nil => exact hq
  | cons ev q =>
    obtain ⟨w, hw, hwd, hk⟩ := h.ev ev (by rw [hq]; exact List.mem_cons_self ..)
    show (handle { s with queue := q } ev).queue = q
    unfold handle
    split
    · unfold inMp
      split
      · exact an _ _
      · exact an _ _
      · exact tell_queue _
    · split
      · rfl
      · rename_i p hf
        have hp := List.mem_of_find?_eq_some hf
        obtain ⟨i, hr, _⟩ := h.base.pf p hp
        have hs : (resolve s.ents 0 p.path).isSome = true := by rw [hr]; rfl
        unfold inPf
        rcases hk with k | k | ⟨k | k, _⟩ <;> rw [k] <;> dsimp only <;> split <;>
          first
          | exact tell_queue _
          | exact an _ _
          | (rw [if_pos hs]; exact tell_queue _)

theorem read_all {n0 : Nat} : ∀ (k : Nat) (s : St), Grow n0 s → s.queue.length ≤ k →
    (run s (List.replicate k .read)).queue = []
  | 0, s, _, hk => by
    show s.queue = []
    exact List.length_eq_zero_iff.1 (by omega)
  | k + 1, s, h, hk => by
    have := read_all k (read s) (read_grow h) (by rw [read_tail h, List.length_tail]; omega)
    exact this

/-- **C142.**  It catches up: in a growing tree every event is taken by one read, and reading makes no new ones. -/
theorem C142_growing_catches_up {ents : List Ent} {dirs : List Nat} {n : Nat} (t : Tree ents dirs n) (as : List Act)
    (hg : ∀ a ∈ as, a.grows = true) :
    (run (run (start ents dirs n) as) (List.replicate (run (start ents dirs n) as).queue.length .read)).queue = [] :=
  read_all _ _ (run_grow as _ (start_grow t).1 (Nat.le_of_eq (start_grow t).2.1.symm) hg) (Nat.le_refl _)

/-- **C142.**  Whenever the list changes, in any state and for any event, the workers are told once in the same
step, unless the master ends there. -/
theorem C142_change_is_told (s : St) (h : (read s).pfs ≠ s.pfs) (hr : (read s).status = .running) :
    (read s).notes = s.notes + 1 := by
  have t : ∀ s' : St, s'.notes = s.notes → (tell s').status = .running → (tell s').notes = s.notes + 1 := by
    intro s' a b
    unfold tell at b ⊢
    split
    · exact congrArg (· + 1) a
    · rename_i c
      rw [if_neg c] at b
      exact absurd b c
  unfold read at h hr ⊢
  split
  · rename_i hrun
    rw [if_pos hrun] at h hr
    split
    · rename_i hq
      rw [hq] at h
      exact absurd rfl h
    · rename_i ev q hq
      rw [hq] at h hr
      dsimp only at h hr
      unfold handle at h hr ⊢
      split
      · rename_i h0
        rw [if_pos h0] at h hr
        unfold inMp at h hr ⊢
        split
        · rename_i k; rw [k] at hr; exact t _ (addNew_same _ _).2.2 hr
        · rename_i k; rw [k] at hr; exact t _ (addNew_same _ _).2.2 hr
        · exact t _ rfl (by rename_i k1 k2; revert hr; cases hk : ev.kind <;> simp_all)
      · rename_i h0
        rw [if_neg h0] at h hr
        split
        · rename_i hf
          rw [hf] at h
          exact absurd rfl h
        · rename_i p hf
          rw [hf] at h hr
          dsimp only at h hr
          unfold inPf at h hr ⊢
          cases hk : ev.kind <;> rw [hk] at h hr <;> dsimp only at h hr ⊢
          case deleteSelf => exact t _ (rmPf_same _ _ _).2.2 hr
          case moveSelf => exact t _ (rmPf_same _ _ _).2.2 hr
          all_goals split
          all_goals rename_i hd
          all_goals first | rw [if_pos hd] at hr | rw [if_neg hd] at hr
          case create.isTrue => exact t _ (addNew_same _ _).2.2 hr
          case movedTo.isTrue => exact t _ (addNew_same _ _).2.2 hr
          case modify.isFalse =>
            split
            · rename_i hs; rw [if_pos hs] at hr; exact t _ rfl hr
            · rename_i hs; rw [if_neg hs] at hr; cases hr
          case attrib.isFalse =>
            split
            · rename_i hs; rw [if_pos hs] at hr; exact t _ rfl hr
            · rename_i hs; rw [if_neg hs] at hr; exact t _ (rmPf_same _ _ _).2.2 hr
          all_goals exact t _ rfl hr
  · rename_i hrun
    rw [if_neg hrun] at h
    exact absurd rfl h

/-- A mount point with a file and a sub-directory with a file. -/
def exEnts : List Ent := [⟨0, b!"index.html", 1⟩, ⟨0, b!"img", 2⟩, ⟨2, b!"logo.png", 3⟩]

def exDirs : List Nat := [0, 2]

theorem exTree : Tree exEnts exDirs 4 := by
  refine ⟨by decide, by decide, by decide, by decide, by decide, ?_, ?_⟩
  · decide +kernel
  · decide

/-- A directory with a file and a directory in it are made before the master reads. -/
def exGrow : List Act := [.op (.mkdir 0 b!"new"), .op (.create 4 b!"a.html"), .op (.mkdir 4 b!"deep"),
  .op (.create 6 b!"b.html"), .op (.write 0 b!"index.html"), .read, .read, .op (.create 6 b!"c.html"), .read]

example : (∀ a ∈ exGrow, a.grows = true) ∧ (run (start exEnts exDirs 4) exGrow).queue = [] ∧
    (run (start exEnts exDirs 4) exGrow).pfs.map (·.path) =
      [[b!"index.html"], [b!"img", b!"logo.png"], [b!"img"], [b!"new", b!"a.html"], [b!"new", b!"deep", b!"b.html"],
        [b!"new", b!"deep"], [b!"new"], [b!"new", b!"deep", b!"c.html"]] := by decide +kernel

example : Seen (run (start exEnts exDirs 4) exGrow).ents 4 6 :=
  .made ⟨4, b!"deep", 6⟩ (by decide +kernel) (.made ⟨0, b!"new", 4⟩ (by decide +kernel) .root (by decide)) (by decide)

/-! ## C143: calm histories on files -/

/-- **C143.**  A mount point with files only whose files come, are written to, change attributes, go, are moved
in and out, any number of times, the master catching up after every change: it runs, knows exactly the files
that are there, and nothing waits. -/
theorem C143_calm_followed {ents : List Ent} {dirs : List Nat} {n : Nat} (t : Tree ents dirs n) (hf : Flat ents dirs)
    (os : List Op) (hs : ∀ o ∈ os, o.simple = true) : Followed (run (start ents dirs n) (calm os)) :=
  (calm_run os _ (start_calm t hf) hs).followed

/-- **C143.**  Every change that takes place in such a history is told to the workers, exactly once. -/
theorem C143_calm_told {ents : List Ent} {dirs : List Nat} {n : Nat} (t : Tree ents dirs n) (hf : Flat ents dirs)
    (os : List Op) (hs : ∀ o ∈ os, o.simple = true) (o : Op) (ho : o.simple = true)
    (hp : o.takesPlace (run (start ents dirs n) (calm os)) = true) :
    (run (start ents dirs n) (calm (os ++ [o]))).notes = (run (start ents dirs n) (calm os)).notes + 1 := by
  have := (calm_op (calm_run os _ (start_calm t hf) hs) o ho).2 hp
  have e : calm (os ++ [o]) = calm os ++ [.op o, .read, .read, .read] := by simp [calm]
  rw [e]
  unfold run at this ⊢
  rw [List.foldl_append]
  exact this

/-- Two files. -/
def flEnts : List Ent := [⟨0, b!"index.html", 1⟩, ⟨0, b!"a.css", 2⟩]

theorem flTree : Tree flEnts [0] 3 ∧ Flat flEnts [0] :=
  ⟨⟨by decide, by decide, by decide, by decide, by decide, by decide +kernel, by decide⟩, by decide +kernel, by decide⟩

/-- A file goes, comes back and is moved away; another is moved in; the old inode goes. -/
def flOps : List Op := [.unlink 0 b!"a.css", .create 0 b!"a.css", .moveOut 0 b!"a.css", .free 2, .moveIn 0 b!"b.css",
  .write 0 b!"b.css", .chmod 0 b!"index.html"]

example : (∀ o ∈ flOps, o.simple = true) ∧ (run (start flEnts [0] 3) (calm flOps)).notes = 6 ∧
    (run (start flEnts [0] 3) (calm flOps)).pfs.map (·.path) = [[b!"index.html"], [b!"b.css"]] := by decide +kernel

/-! ## C144: changes do not end the server -/

/-- **C144, the part that holds**: neither growing trees, with every schedule, nor calm histories on files end the
master. -/
theorem C144_survives_partial {ents : List Ent} {dirs : List Nat} {n : Nat} (t : Tree ents dirs n) :
    (∀ as : List Act, (∀ a ∈ as, a.grows = true) → (run (start ents dirs n) as).status = .running) ∧
      (Flat ents dirs → ∀ os : List Op, (∀ o ∈ os, o.simple = true) →
        (run (start ents dirs n) (calm os)).status = .running) :=
  ⟨fun as hg => C142_growing_survives t as hg, fun hf os hs => (C143_calm_followed t hf os hs).1⟩

/-- **C144 does not hold.**  In every mount point, whatever was added before: a file that is made and removed
before the master looks (a temporary file) ends the server. -/
theorem C144_short_lived_file_refuted {ents : List Ent} {dirs : List Nat} {n : Nat} (t : Tree ents dirs n) (as : List Act)
    (hg : ∀ a ∈ as, a.grows = true) (hq : (run (start ents dirs n) as).queue = []) (name : Bytes)
    (hn : lookup (run (start ents dirs n) as).ents 0 name = none) :
    (run (run (start ents dirs n) as) [.op (.create 0 name), .op (.unlink 0 name), .read]).status = .ended := by
  have h := run_grow as _ (start_grow t).1 (Nat.le_of_eq (start_grow t).2.1.symm) hg
  generalize run (start ents dirs n) as = s at h hq hn
  obtain ⟨w, hw, hw0, hwi⟩ := h.base.root
  have hd0 : s.isDir 0 = true := by unfold St.isDir; simpa using h.base.tree.root
  have hmp : w.mask = .mp := h.base.mask w hw (by rw [hwi]; exact hd0) (.inl hwi)
  have hww : (⟨0, 0, .mp⟩ : Watch) = w := by cases w; simp_all
  rw [← hww] at hw
  have hnd : s.isDir s.nextIno = false := by
    unfold St.isDir
    cases hc : s.dirs.contains s.nextIno
    · rfl
    · have := h.base.tree.dirLt s.nextIno (by simpa using hc)
      omega
  have hnw : s.watches.find? (fun w => w.ino == s.nextIno) = none := by
    refine List.find?_eq_none.2 (fun w hw => ?_)
    have := (h.base.wok.lt w hw).2
    simp
    omega
  have e1 : op s (.create 0 name) =
      { s with ents := s.ents ++ [⟨0, name, s.nextIno⟩], nextIno := s.nextIno + 1, queue := [⟨0, .create, name⟩] } := by
    show newEnt s 0 name false .create = _
    unfold newEnt
    rw [hd0, hn]
    dsimp only [Option.isNone, Bool.and_self, if_true]
    have wok' : Wok { s with ents := s.ents ++ [⟨0, name, s.nextIno⟩], nextIno := s.nextIno + 1 } :=
      ⟨h.base.wok.wd, h.base.wok.ino, fun w hw => by have := h.base.wok.lt w hw; dsimp only; omega⟩
    have := emit_watched wok' (w := ⟨0, 0, .mp⟩) hw .create name
    simp only [if_true, Bool.false_eq_true, if_false]
    rw [this]
    dsimp only
    rw [hq]
    rfl
  have hl : lookup (s.ents ++ [⟨0, name, s.nextIno⟩]) 0 name = some ⟨0, name, s.nextIno⟩ := by
    unfold lookup at hn ⊢
    rw [List.find?_append, hn]
    simp
  have hgone := without_lookup (s.ents ++ [⟨0, name, s.nextIno⟩]) 0 name
  have e2 : op { s with ents := s.ents ++ [⟨0, name, s.nextIno⟩], nextIno := s.nextIno + 1, queue := [⟨0, .create, name⟩] } (.unlink 0 name) =
      { s with ents := without (s.ents ++ [⟨0, name, s.nextIno⟩]) 0 name, nextIno := s.nextIno + 1, queue := [⟨0, .create, name⟩] } := by
    unfold op
    dsimp only
    rw [hl]
    have hnd' : St.isDir { s with ents := s.ents ++ [⟨0, name, s.nextIno⟩], nextIno := s.nextIno + 1, queue := [⟨0, .create, name⟩] } s.nextIno = false := hnd
    dsimp only
    rw [hnd', if_neg (by simp)]
    unfold emit
    dsimp only
    rw [hnw]
  show (read (op (op s (.create 0 name)) (.unlink 0 name))).status = .ended
  rw [e1, e2]
  unfold read
  dsimp only
  rw [if_pos h.base.run]
  unfold handle
  rw [if_pos (show (⟨0, .create, name⟩ : Ev).wd = rootWd from rfl)]
  unfold inMp addNew
  dsimp only
  rw [resolve_one, hgone]
  rfl

example : (run (start exEnts exDirs 4) [.op (.create 0 b!".tmp"), .op (.unlink 0 b!".tmp"), .read]).status = .ended := by
  decide +kernel

/-- **C144 does not hold.**  In every calm mount point with files: a file that is written to and removed before the
master looks ends the server. -/
theorem C144_written_then_removed_refuted {ents : List Ent} {dirs : List Nat} {n : Nat} (t : Tree ents dirs n)
    (hf : Flat ents dirs) (os : List Op) (hs : ∀ o ∈ os, o.simple = true) (e : Ent)
    (he : e ∈ (run (start ents dirs n) (calm os)).ents) :
    (run (run (start ents dirs n) (calm os)) [.op (.write 0 e.name), .op (.unlink 0 e.name), .read]).status = .ended := by
  have h := calm_run os _ (start_calm t hf) hs
  generalize run (start ents dirs n) (calm os) = s at h he
  obtain ⟨p, hp, hpath, hdir, hw, hwatch, hfind⟩ := h.file he
  have hl : lookup s.ents 0 e.name = some e := by
    have := lookup_mem h.names' he
    rw [(h.ent e he).1] at this
    exact this
  have e1 : op s (.write 0 e.name) = { s with queue := [⟨p.wd, .modify, []⟩] } := by
    unfold op
    dsimp only
    rw [hl]
    have := emit_watched h.wok hwatch .modify []
    dsimp only at this ⊢
    rw [this, h.quiet]
    rfl
  have hnd : St.isDir { s with queue := [⟨p.wd, .modify, []⟩] } e.ino = false := (h.ent e he).2.2.2
  have e2 : op { s with queue := [⟨p.wd, .modify, []⟩] } (.unlink 0 e.name) =
      { s with ents := without s.ents 0 e.name, queue := [⟨p.wd, .modify, []⟩, ⟨p.wd, .attrib, []⟩] } := by
    unfold op
    dsimp only
    rw [hl]
    dsimp only
    rw [hnd, if_neg (by simp)]
    have wok' : Wok { s with ents := without s.ents 0 e.name, queue := [⟨p.wd, .modify, []⟩] } := ⟨h.wok.wd, h.wok.ino, h.wok.lt⟩
    have := emit_watched wok' (w := ⟨p.wd, e.ino, .pf⟩) hwatch .attrib []
    rw [this]
    rfl
  have hgone := without_lookup s.ents 0 e.name
  show (read (op (op s (.write 0 e.name)) (.unlink 0 e.name))).status = .ended
  rw [e1, e2]
  unfold read
  dsimp only
  rw [if_pos h.run]
  rw [handle_file (p := p) hw (by exact hfind) rfl]
  unfold inPf
  dsimp only
  rw [hdir, if_neg (by simp), hpath, resolve_one, hgone]
  rfl

example : (run (start flEnts [0] 3) [.op (.write 0 b!"a.css"), .op (.unlink 0 b!"a.css"), .read]).status = .ended := by
  decide +kernel

/-! ## C145: every change is noticed -/

/-- **C145, the part that holds**: in calm histories on files without renaming every change is told to the workers;
in growing trees what was added in the mount point or in a directory made since the start is known once all is
read. -/
theorem C145_noticed_partial {ents : List Ent} {dirs : List Nat} {n : Nat} (t : Tree ents dirs n) :
    (Flat ents dirs → ∀ (os : List Op) (o : Op), (∀ x ∈ os ++ [o], x.simple = true) →
      o.takesPlace (run (start ents dirs n) (calm os)) = true →
      (run (start ents dirs n) (calm os)).notes < (run (start ents dirs n) (calm (os ++ [o]))).notes) ∧
    (∀ as : List Act, (∀ a ∈ as, a.grows = true) → (run (start ents dirs n) as).queue = [] →
      ∀ e ∈ (run (start ents dirs n) as).ents, Seen (run (start ents dirs n) as).ents n e.dir →
        Known (run (start ents dirs n) as) e) := by
  refine ⟨fun hf os o hs hp => ?_, fun as hg hq e he hd => C142_growing_known t as hg hq e he hd⟩
  rw [C143_calm_told t hf os (fun x hx => hs x (List.mem_append_left _ hx)) o (hs o (by simp)) hp]
  exact Nat.lt_succ_self _

/-- Adding something to a directory other than the mount point. -/
def Act.below : Act → Bool
  | .read => true
  | .op (.create d _) => d != 0
  | .op (.mkdir d _) => d != 0
  | .op (.moveIn d _) => d != 0
  | .op _ => false

/-- Only the mount point is watched for new entries. -/
structure Blind (pfs : List Pf) (s : St) : Prop where
  quiet : s.queue = []
  mask : ∀ w ∈ s.watches, w.ino ≠ 0 → w.mask = .pf
  pfs : s.pfs = pfs
  notes : s.notes = 0

theorem addPf_mask {s : St} (h : ∀ w ∈ s.watches, w.ino ≠ 0 → w.mask = .pf) (x : List Bytes × Nat) :
    ∀ w ∈ (addPf s .pf x).watches, w.ino ≠ 0 → w.mask = .pf := by
  unfold addPf addWatch
  split
  · intro w hw hi
    obtain ⟨v, hv, e⟩ := List.mem_map.1 hw
    split at e
    · subst e; rfl
    · subst e; exact h v hv hi
  · intro w hw hi
    rcases List.mem_append.1 hw with hw | hw
    · exact h w hw hi
    · simp at hw; subst hw; rfl

theorem start_mask (ents : List Ent) (dirs : List Nat) (n : Nat) :
    ∀ w ∈ (start ents dirs n).watches, w.ino ≠ 0 → w.mask = .pf := by
  unfold start
  have : ∀ (l : List (List Bytes × Nat)) (s : St), (∀ w ∈ s.watches, w.ino ≠ 0 → w.mask = .pf) →
      ∀ w ∈ (l.foldl (fun s x => addPf s .pf x) s).watches, w.ino ≠ 0 → w.mask = .pf := by
    intro l
    induction l with
    | nil => exact fun s h => h
    | cons x l ih => exact fun s h => ih (addPf s .pf x) (addPf_mask h x)
  refine this _ _ ?_
  intro w hw hi
  simp at hw
  subst hw
  exact absurd rfl hi

theorem newEnt_blind {pfs : List Pf} {s : St} (h : Blind pfs s) (d : Nat) (n : Bytes) (dir : Bool) (k : Kind) (hd : d ≠ 0)
    (hk : k = .create ∨ k = .movedTo) : Blind pfs (newEnt s d n dir k) := by
  unfold newEnt
  split
  · rcases emit_cases { s with ents := s.ents ++ [⟨d, n, s.nextIno⟩], dirs := if dir then s.dirs ++ [s.nextIno] else s.dirs, nextIno := s.nextIno + 1 } d k n with e | ⟨w, hw, a, b, e⟩
    · rw [e]
      exact ⟨h.quiet, h.mask, h.pfs, h.notes⟩
    · exfalso
      rw [h.mask w hw (by omega)] at b
      rcases hk with k | k <;> rw [k] at b <;> cases b
  · exact h

theorem act_blind {pfs : List Pf} {s : St} (h : Blind pfs s) (a : Act) (ha : a.below = true) : Blind pfs (act s a) := by
  cases a with
  | read =>
    show Blind pfs (read s)
    rw [read_quiet h.quiet]
    exact h
  | op o =>
    cases o with
    | create d n => exact newEnt_blind h d n false .create (by simpa [Act.below] using ha) (.inl rfl)
    | mkdir d n => exact newEnt_blind h d n true .create (by simpa [Act.below] using ha) (.inl rfl)
    | moveIn d n => exact newEnt_blind h d n false .movedTo (by simpa [Act.below] using ha) (.inr rfl)
    | write d n => cases ha
    | chmod d n => cases ha
    | unlink d n => cases ha
    | moveOut d n => cases ha
    | rename d n n' => cases ha
    | free i => cases ha

/-- **C145 does not hold.**  Whatever is added, after the start, to the sub-directories that were there at the
start: the master never notices anything, and the workers are never told. -/
theorem C145_subdirectories_unnoticed_refuted {ents : List Ent} {dirs : List Nat} {n : Nat} (t : Tree ents dirs n)
    (as : List Act) (hb : ∀ a ∈ as, a.below = true) :
    (run (start ents dirs n) as).queue = [] ∧ (run (start ents dirs n) as).notes = 0 ∧
      (run (start ents dirs n) as).pfs = (start ents dirs n).pfs := by
  have : ∀ (as : List Act) (s : St), Blind (start ents dirs n).pfs s → (∀ a ∈ as, a.below = true) →
      Blind (start ents dirs n).pfs (run s as) := by
    intro as
    induction as with
    | nil => exact fun s h _ => h
    | cons a as ih =>
      exact fun s h hb => ih (act s a) (act_blind h a (hb a (List.mem_cons_self ..)))
        (fun b hx => hb b (List.mem_cons_of_mem _ hx))
  have r := start_regs t
  have := this as _ ⟨r.ext.queue, start_mask ents dirs n, rfl, r.ext.notes⟩ hb
  exact ⟨this.quiet, this.notes, this.pfs⟩

example : ⟨2, b!"photo.png", 4⟩ ∈ (run (start exEnts exDirs 4) [.op (.create 2 b!"photo.png"), .read]).ents ∧
    (run (start exEnts exDirs 4) [.op (.create 2 b!"photo.png"), .read]).notes = 0 := by decide +kernel

/-- The master hears of the renamed file under its new name. -/
theorem rename_movedTo {s : St} (h : Calm s) {e : Ent} (he : e ∈ s.ents) {p : Pf} (hwatch : ⟨p.wd, e.ino, .pf⟩ ∈ s.watches)
    (es : List Ent) (b : Bytes) (hl : lookup es 0 b = some ⟨0, b, e.ino⟩) (q : List Ev) :
    read { s with ents := es, queue := ⟨0, .movedTo, b⟩ :: q } =
      { s with ents := es, queue := q, pfs := s.pfs ++ [(⟨[b], p.wd, false⟩ : Pf)], notes := s.notes + 1 } := by
  unfold read
  dsimp only
  rw [if_pos h.run]
  unfold handle
  rw [if_pos (show (⟨0, .movedTo, b⟩ : Ev).wd = rootWd from rfl)]
  unfold inMp addNew
  dsimp only
  rw [resolve_one, hl]
  have hnd : St.isDir { s with ents := es, queue := q } e.ino = false := (h.ent e he).2.2.2
  dsimp only [Option.map]
  rw [hnd, if_neg (by simp)]
  have hmap : s.watches.map (fun v => if v.ino = e.ino then { v with mask := .pf } else v) = s.watches := by
    have : ∀ l : List Watch, (∀ v ∈ l, v ∈ s.watches) → l.map (fun v => if v.ino = e.ino then { v with mask := .pf } else v) = l := by
      intro l
      induction l with
      | nil => intro _; rfl
      | cons v l ih =>
        intro hv
        rw [List.map_cons, ih (fun x hx => hv x (List.mem_cons_of_mem _ hx))]
        split
        · rename_i hi
          rw [h.wok.ino v (hv v (List.mem_cons_self ..)) _ hwatch hi]
        · rfl
    exact this _ (fun _ hv => hv)
  have hfw := watch_find h.wok hwatch
  dsimp only at hfw
  unfold addPf addWatch maskOf
  dsimp only
  rw [hnd, hfw]
  simp only [Bool.false_eq_true, if_false]
  rw [hmap]
  unfold tell
  dsimp only
  rw [if_pos h.run]

/-- **C145 does not hold.**  In every calm mount point with files, renaming a file to a free name or over another file
(the usual way of replacing a file at once): when the master has read everything, the kernel no longer watches the
file, and writing to it under its new name, any number of times, tells the workers nothing. -/
theorem C145_renamed_unnoticed_refuted {ents : List Ent} {dirs : List Nat} {n : Nat} (t : Tree ents dirs n)
    (hf : Flat ents dirs) (os : List Op) (hs : ∀ o ∈ os, o.simple = true) (e : Ent)
    (he : e ∈ (run (start ents dirs n) (calm os)).ents) (b : Bytes) (hb : b ≠ e.name) (k : Nat) :
    let s := run (run (start ents dirs n) (calm os)) [.op (.rename 0 e.name b), .read, .read, .read, .read]
    s.status = .running ∧ s.queue = [] ∧ lookup s.ents 0 b = some ⟨0, b, e.ino⟩ ∧ (∀ w ∈ s.watches, w.ino ≠ e.ino) ∧
      run s (List.replicate k (.op (.write 0 b))) = s := by
  have h := calm_run os _ (start_calm t hf) hs
  generalize run (start ents dirs n) (calm os) = s at h he
  obtain ⟨p, hp, hpath, hdir, hw, hwatch, hfind⟩ := h.file he
  have hl : lookup s.ents 0 e.name = some e := by
    have := lookup_mem h.names' he
    rw [(h.ent e he).1] at this
    exact this
  have hlast : ∀ es : List Ent, lookup es 0 b = none → lookup (es ++ [⟨0, b, e.ino⟩]) 0 b = some ⟨0, b, e.ino⟩ := by
    intro es hes
    unfold lookup at hes ⊢
    rw [List.find?_append, hes]
    simp
  have wok' : ∀ es q, Wok { s with ents := es, queue := q } := fun _ _ => ⟨h.wok.wd, h.wok.ino, h.wok.lt⟩
  -- the end, from the state in which only the last event waits
  have fin : ∀ es notes, read (read { s with ents := es, queue := [⟨p.wd, .moveSelf, []⟩], pfs := s.pfs ++ [(⟨[b], p.wd, false⟩ : Pf)], notes := notes }) =
      { s with ents := es, pfs := (s.pfs ++ [(⟨[b], p.wd, false⟩ : Pf)]).eraseP (fun q => q.wd == p.wd), watches := s.watches.filter (fun v => v.wd != p.wd), notes := notes + 2 } := by
    intro es notes
    have hfw := watch_find_wd h.wok hwatch
    dsimp only at hfw
    have hfind' : (s.pfs ++ [(⟨[b], p.wd, false⟩ : Pf)]).find? (fun q => q.wd == p.wd) = some p := by
      rw [List.find?_append, hfind]
      rfl
    have r1 : read { s with ents := es, queue := [⟨p.wd, .moveSelf, []⟩], pfs := s.pfs ++ [(⟨[b], p.wd, false⟩ : Pf)], notes := notes } =
        { s with ents := es, pfs := (s.pfs ++ [(⟨[b], p.wd, false⟩ : Pf)]).eraseP (fun q => q.wd == p.wd), watches := s.watches.filter (fun v => v.wd != p.wd), queue := [⟨p.wd, .ignored, []⟩], notes := notes + 1 } := by
      rw [read_one (ev := ⟨p.wd, .moveSelf, []⟩) (by exact h.run) rfl]
      rw [handle_file (p := p) hw (by exact hfind') rfl]
      unfold inPf
      dsimp only
      unfold rmPf
      rw [hdir, if_neg (by simp), if_neg (by simp)]
      dsimp only
      rw [hfw]
      unfold tell
      dsimp only
      rw [if_pos h.run]
      rfl
    rw [r1, read_one (ev := ⟨p.wd, .ignored, []⟩) (by exact h.run) rfl]
    have hlastpf : (⟨[b], p.wd, false⟩ : Pf) ∈ (s.pfs ++ [(⟨[b], p.wd, false⟩ : Pf)]).eraseP (fun q => q.wd == p.wd) := by
      rw [List.eraseP_append_left (a := p) (by simp) _ hp]
      simp
    unfold handle
    rw [if_neg (show ¬ (⟨p.wd, .ignored, []⟩ : Ev).wd = rootWd from hw)]
    dsimp only
    cases hf2 : ((s.pfs ++ [(⟨[b], p.wd, false⟩ : Pf)]).eraseP (fun q => q.wd == p.wd)).find? (fun q => q.wd == p.wd) with
    | none =>
      have := List.find?_eq_none.1 hf2 _ hlastpf
      simp at this
    | some q =>
      dsimp only
      have hin : ∀ t : St, inPf t q ⟨p.wd, .ignored, []⟩ = tell t := by
        intro t
        unfold inPf
        dsimp only
        split <;> rfl
      rw [hin]
      unfold tell
      dsimp only
      rw [if_pos h.run]
      have := h.quiet
      cases s
      simp at this
      simp [this]
  have done : ∀ es notes, lookup es 0 b = some ⟨0, b, e.ino⟩ →
      let s' : St := { s with ents := es, pfs := (s.pfs ++ [(⟨[b], p.wd, false⟩ : Pf)]).eraseP (fun q => q.wd == p.wd), watches := s.watches.filter (fun v => v.wd != p.wd), notes := notes }
      s'.status = .running ∧ s'.queue = [] ∧ lookup s'.ents 0 b = some ⟨0, b, e.ino⟩ ∧ (∀ w ∈ s'.watches, w.ino ≠ e.ino) ∧
        run s' (List.replicate k (.op (.write 0 b))) = s' := by
    intro es notes hes s'
    have hnw : ∀ w ∈ s'.watches, w.ino ≠ e.ino := by
      intro w hw' hi
      obtain ⟨a, c⟩ := List.mem_filter.1 hw'
      have := h.wok.ino w a _ hwatch hi
      rw [this] at c
      simp at c
    refine ⟨h.run, h.quiet, hes, hnw, ?_⟩
    have hwr : op s' (.write 0 b) = s' := by
      unfold op
      dsimp only
      rw [show lookup s'.ents 0 b = some ⟨0, b, e.ino⟩ from hes]
      have : s'.watches.find? (fun w => w.ino == e.ino) = none :=
        List.find?_eq_none.2 (fun w hw' => by simpa using hnw w hw')
      dsimp only
      unfold emit
      rw [this]
    induction k with
    | zero => rfl
    | succ k ih =>
      show run (op s' (.write 0 b)) (List.replicate k (.op (.write 0 b))) = s'
      rw [hwr]
      exact ih
  intro s1
  have emits : ∀ es q, emit { s with ents := es, queue := q } e.ino .moveSelf [] =
      { s with ents := es, queue := q ++ [⟨p.wd, .moveSelf, []⟩] } := by
    intro es q
    have := emit_watched (wok' es q) (w := ⟨p.wd, e.ino, .pf⟩) hwatch .moveSelf []
    rw [this]
    rfl
  have emit0 : ∀ es, emit { s with ents := es } 0 .movedTo b = { s with ents := es, queue := [⟨0, .movedTo, b⟩] } := by
    intro es
    have := emit_watched (s := { s with ents := es }) ⟨h.wok.wd, h.wok.ino, h.wok.lt⟩ (w := ⟨0, 0, .mp⟩) h.root .movedTo b
    rw [this]
    dsimp only
    rw [h.quiet]
    rfl
  cases ht : lookup s.ents 0 b with
  | none =>
    have hes := hlast (without s.ents 0 e.name) (by
      refine List.find?_eq_none.2 (fun x hx => ?_)
      exact List.find?_eq_none.1 ht x (without_mem.1 hx).1)
    have e1 : op s (.rename 0 e.name b) =
        { s with ents := without s.ents 0 e.name ++ [⟨0, b, e.ino⟩], queue := [⟨0, .movedTo, b⟩, ⟨p.wd, .moveSelf, []⟩] } := by
      unfold op
      dsimp only
      rw [hl]
      dsimp only
      rw [if_neg (fun x => hb x.symm), ht]
      dsimp only
      rw [emit0, emits]
      rfl
    have hs1 : s1 = { s with ents := without s.ents 0 e.name ++ [⟨0, b, e.ino⟩], pfs := (s.pfs ++ [(⟨[b], p.wd, false⟩ : Pf)]).eraseP (fun q => q.wd == p.wd), watches := s.watches.filter (fun v => v.wd != p.wd), notes := s.notes + 1 + 2 } := by
      show read (read (read (read (op s (.rename 0 e.name b))))) = _
      rw [e1, rename_movedTo h he hwatch _ b hes, fin]
      exact read_quiet (by exact h.quiet)
    clear_value s1
    subst hs1
    exact done (without s.ents 0 e.name ++ [⟨0, b, e.ino⟩]) (s.notes + 1 + 2) hes
  | some x =>
    obtain ⟨hx, hxd, hxn⟩ := lookup_some ht
    obtain ⟨q, hq, hqpath, hqdir, hqw, hqwatch, hqfind⟩ := h.file hx
    have hes := hlast (without (without s.ents 0 e.name) 0 b) (without_lookup ..)
    have e1 : op s (.rename 0 e.name b) =
        { s with ents := without (without s.ents 0 e.name) 0 b ++ [⟨0, b, e.ino⟩]
                 queue := [⟨0, .movedTo, b⟩, ⟨q.wd, .attrib, []⟩, ⟨p.wd, .moveSelf, []⟩] } := by
      unfold op
      dsimp only
      rw [hl]
      dsimp only
      rw [if_neg (fun x => hb x.symm), ht]
      dsimp only
      rw [(h.ent x hx).2.2.2, (h.ent e he).2.2.2]
      simp only [Bool.or_self, Bool.false_eq_true, if_false]
      rw [emit0]
      have := emit_watched (wok' (without (without s.ents 0 e.name) 0 b ++ [⟨0, b, e.ino⟩]) [⟨0, .movedTo, b⟩]) (w := ⟨q.wd, x.ino, .pf⟩) hqwatch .attrib []
      dsimp only at this
      rw [this]
      show emit { s with ents := without (without s.ents 0 e.name) 0 b ++ [⟨0, b, e.ino⟩], queue := [⟨0, .movedTo, b⟩, ⟨q.wd, .attrib, []⟩] } e.ino .moveSelf [] = _
      rw [emits]
      rfl
    have r2 : read { s with ents := without (without s.ents 0 e.name) 0 b ++ [⟨0, b, e.ino⟩], queue := [⟨q.wd, .attrib, []⟩, ⟨p.wd, .moveSelf, []⟩], pfs := s.pfs ++ [(⟨[b], p.wd, false⟩ : Pf)], notes := s.notes + 1 } =
        { s with ents := without (without s.ents 0 e.name) 0 b ++ [⟨0, b, e.ino⟩], queue := [⟨p.wd, .moveSelf, []⟩], pfs := s.pfs ++ [(⟨[b], p.wd, false⟩ : Pf)], notes := s.notes + 1 + 1 } := by
      unfold read
      dsimp only
      rw [if_pos h.run]
      rw [handle_file (p := q) hqw (by
        show (s.pfs ++ [(⟨[b], p.wd, false⟩ : Pf)]).find? (fun z => z.wd == q.wd) = some q
        rw [List.find?_append, hqfind]
        rfl) rfl]
      unfold inPf
      dsimp only
      rw [hqdir, if_neg (by simp), hqpath, resolve_one, hxn, hes]
      dsimp only [Option.map, Option.isSome, if_true]
      unfold tell
      dsimp only
      simp only [if_true]
      rw [if_pos h.run]
    have hs1 : s1 = { s with ents := without (without s.ents 0 e.name) 0 b ++ [⟨0, b, e.ino⟩], pfs := (s.pfs ++ [(⟨[b], p.wd, false⟩ : Pf)]).eraseP (fun q => q.wd == p.wd), watches := s.watches.filter (fun v => v.wd != p.wd), notes := s.notes + 1 + 1 + 2 } := by
      show read (read (read (read (op s (.rename 0 e.name b))))) = _
      rw [e1, rename_movedTo h he hwatch _ b hes, r2, fin]
    clear_value s1
    subst hs1
    exact done (without (without s.ents 0 e.name) 0 b ++ [⟨0, b, e.ino⟩]) (s.notes + 1 + 1 + 2) hes

example : (run (start flEnts [0] 3) [.op (.rename 0 b!"a.css" b!"index.html"), .read, .read, .read, .read,
    .op (.write 0 b!"index.html"), .read]).notes = 4 := by decide +kernel

end Fly.Watch
