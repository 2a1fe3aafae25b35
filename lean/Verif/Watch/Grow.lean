import Verif.Watch.Lemmas

/-! # The invariant while nothing is removed or renamed -/

namespace Fly.Watch

/-- The invariant without events.  `n0` is the first inode number after the start. -/
structure Base (n0 : Nat) (s : St) : Prop where
  tree : Tree s.ents s.dirs s.nextIno
  run : s.status = .running
  wok : Wok s
  root : ∃ w ∈ s.watches, w.wd = 0 ∧ w.ino = 0
  pf : ∀ p ∈ s.pfs, ∃ i, resolve s.ents 0 p.path = some i ∧ (∃ w ∈ s.watches, w.wd = p.wd ∧ w.ino = i) ∧
    p.dir = s.isDir i
  back : ∀ w ∈ s.watches, w.wd = 0 ∨ ∃ p ∈ s.pfs, p.wd = w.wd
  mask : ∀ w ∈ s.watches, s.isDir w.ino = true → w.ino = 0 ∨ n0 ≤ w.ino → w.mask = .mp

/-- What registering leaves alone. -/
structure Ext (s s' : St) : Prop where
  ents : s'.ents = s.ents
  dirs : s'.dirs = s.dirs
  nextIno : s'.nextIno = s.nextIno
  queue : s'.queue = s.queue
  notes : s'.notes = s.notes
  pfs : ∀ p ∈ s.pfs, p ∈ s'.pfs

theorem Ext.refl (s : St) : Ext s s := ⟨rfl, rfl, rfl, rfl, rfl, fun _ h => h⟩

theorem Ext.trans {a b c : St} (h : Ext a b) (g : Ext b c) : Ext a c :=
  ⟨g.ents.trans h.ents, g.dirs.trans h.dirs, g.nextIno.trans h.nextIno, g.queue.trans h.queue,
    g.notes.trans h.notes, fun p hp => g.pfs p (h.pfs p hp)⟩

theorem Ext.isDir {s s' : St} (h : Ext s s') (i : Nat) : s'.isDir i = s.isDir i := by
  unfold St.isDir
  rw [h.dirs]

/-- A file is registered. -/
structure Reg (n0 : Nat) (s s' : St) (x : List Bytes × Nat) : Prop where
  base : Base n0 s'
  ext : Ext s s'
  has : ∃ p ∈ s'.pfs, resolve s'.ents 0 p.path = some x.2
  new : ∀ w ∈ s'.watches, w ∈ s.watches ∨ w.ino = x.2
  old : ∀ w ∈ s.watches, ∃ w' ∈ s'.watches, w'.wd = w.wd ∧ w'.ino = w.ino

theorem addPf_reg {n0 : Nat} {s : St} (h : Base n0 s) {m : Mask} {x : List Bytes × Nat}
    (hr : resolve s.ents 0 x.1 = some x.2) (hi : x.2 < s.nextIno)
    (hm : s.isDir x.2 = true → x.2 = 0 ∨ n0 ≤ x.2 → m = .mp) : Reg n0 s (addPf s m x) x := by
  obtain ⟨g1, g2, g3, g4, g5, g6⟩ := addWatch_spec h.wok hi m
  have e1 : (addWatch s x.2 m).2.ents = s.ents := by rw [g5]
  have e2 : (addWatch s x.2 m).2.dirs = s.dirs := by rw [g5]
  have e3 : (addWatch s x.2 m).2.nextIno = s.nextIno := by rw [g5]
  have e4 : (addWatch s x.2 m).2.status = s.status := by rw [g5]
  have e5 : (addWatch s x.2 m).2.queue = s.queue := by rw [g5]
  have e6 : (addWatch s x.2 m).2.notes = s.notes := by rw [g5]
  have edir : ∀ i, (addPf s m x).isDir i = s.isDir i := by
    intro i
    show List.contains (addWatch s x.2 m).2.dirs i = _
    rw [e2]
    rfl
  refine ⟨⟨?_, ?_, ⟨g1.wd, g1.ino, g1.lt⟩, ?_, ?_, ?_, ?_⟩, ⟨e1, e2, e3, e5, e6, ?_⟩, ?_, ?_, ?_⟩
  · show Tree (addWatch s x.2 m).2.ents (addWatch s x.2 m).2.dirs (addWatch s x.2 m).2.nextIno
    rw [e1, e2, e3]
    exact h.tree
  · exact e4.trans h.run
  · obtain ⟨w, hw, a, b⟩ := h.root
    obtain ⟨w', hw', c, d, _⟩ := g4 w hw
    exact ⟨w', hw', c.trans a, d.trans b⟩
  · intro p hp
    rcases List.mem_append.1 hp with hp | hp
    · obtain ⟨i, a, ⟨w, hw, b, c⟩, d⟩ := h.pf p hp
      obtain ⟨w', hw', b', c', _⟩ := g4 w hw
      refine ⟨i, ?_, ⟨w', hw', b'.trans b, c'.trans c⟩, d.trans (edir i).symm⟩
      show resolve (addWatch s x.2 m).2.ents 0 p.path = some i
      rw [e1]
      exact a
    · simp at hp
      subst hp
      refine ⟨x.2, ?_, ⟨_, g2, rfl, rfl⟩, (edir x.2).symm⟩
      show resolve (addWatch s x.2 m).2.ents 0 x.1 = some x.2
      rw [e1]
      exact hr
  · intro w hw
    by_cases hx : w.ino = x.2
    · exact .inr ⟨_, List.mem_append_right _ (List.mem_singleton.2 rfl), (g6 w hw hx).2.symm⟩
    · rcases h.back w (g3 w hw hx) with a | ⟨p, hp, a⟩
      · exact .inl a
      · exact .inr ⟨p, List.mem_append_left _ hp, a⟩
  · intro w hw hd hn
    rw [edir] at hd
    by_cases hx : w.ino = x.2
    · rw [(g6 w hw hx).1]
      exact hm (by rw [← hx]; exact hd) (by rw [← hx]; exact hn)
    · exact h.mask w (g3 w hw hx) hd hn
  · exact fun p hp => List.mem_append_left _ hp
  · refine ⟨_, List.mem_append_right _ (List.mem_singleton.2 rfl), ?_⟩
    show resolve (addWatch s x.2 m).2.ents 0 x.1 = some x.2
    rw [e1]
    exact hr
  · intro w hw
    by_cases hx : w.ino = x.2
    · exact .inr hx
    · exact .inl (g3 w hw hx)
  · intro w hw
    obtain ⟨w', hw', a, b, _⟩ := g4 w hw
    exact ⟨w', hw', a, b⟩

theorem maskOf_ok (n0 : Nat) (s : St) (i : Nat) : s.isDir i = true → i = 0 ∨ n0 ≤ i → maskOf s i = .mp := by
  intro h _
  unfold maskOf
  rw [if_pos h]

/-- A path leads to one inode. -/
theorem addFound_reg {n0 : Nat} {s : St} (h : Base n0 s) {x : List Bytes × Nat}
    (hr : resolve s.ents 0 x.1 = some x.2) (hi : x.2 < s.nextIno) : Reg n0 s (addFound s x) x := by
  unfold addFound
  split
  · rename_i ha
    obtain ⟨p, hp, e⟩ := List.any_eq_true.1 ha
    have e' : p.path = x.1 := by simpa using e
    exact ⟨h, Ext.refl s, ⟨p, hp, by rw [e']; exact hr⟩, fun w hw => .inl hw, fun w hw => ⟨w, hw, rfl, rfl⟩⟩
  · exact addPf_reg h hr hi (maskOf_ok n0 s x.2)

/-- Many files are registered. -/
structure Regs (n0 : Nat) (s s' : St) (l : List (List Bytes × Nat)) : Prop where
  base : Base n0 s'
  ext : Ext s s'
  has : ∀ x ∈ l, ∃ p ∈ s'.pfs, resolve s'.ents 0 p.path = some x.2
  new : ∀ w ∈ s'.watches, w ∈ s.watches ∨ ∃ x ∈ l, w.ino = x.2
  old : ∀ w ∈ s.watches, ∃ w' ∈ s'.watches, w'.wd = w.wd ∧ w'.ino = w.ino

theorem fold_regs {n0 : Nat} (add : St → List Bytes × Nat → St) (cond : St → List Bytes × Nat → Prop)
    (step : ∀ s x, Base n0 s → resolve s.ents 0 x.1 = some x.2 → x.2 < s.nextIno → cond s x → Reg n0 s (add s x) x)
    (stable : ∀ s s' x, Ext s s' → cond s x → cond s' x) :
    ∀ (l : List (List Bytes × Nat)) (s : St), Base n0 s →
      (∀ x ∈ l, resolve s.ents 0 x.1 = some x.2 ∧ x.2 < s.nextIno ∧ cond s x) → Regs n0 s (l.foldl add s) l
  | [], s, h, _ => ⟨h, Ext.refl s, (fun _ hx => by cases hx), fun w hw => .inl hw, fun w hw => ⟨w, hw, rfl, rfl⟩⟩
  | x :: l, s, h, hl => by
    have hx := hl x (List.mem_cons_self ..)
    have r := step s x h hx.1 hx.2.1 hx.2.2
    have q := fold_regs add cond step stable l (add s x) r.base (fun y hy => by
      have hy := hl y (List.mem_cons_of_mem _ hy)
      rw [r.ext.ents, r.ext.nextIno]
      exact ⟨hy.1, hy.2.1, stable _ _ _ r.ext hy.2.2⟩)
    refine ⟨q.base, r.ext.trans q.ext, ?_, ?_, ?_⟩
    · intro y hy
      rcases List.mem_cons.1 hy with hy | hy
      · subst hy
        obtain ⟨p, hp, e⟩ := r.has
        refine ⟨p, q.ext.pfs p hp, ?_⟩
        show resolve (l.foldl add (add s y)).ents 0 p.path = _
        rw [q.ext.ents]
        exact e
      · exact q.has y hy
    · intro w hw
      rcases q.new w hw with hw | ⟨y, hy, e⟩
      · rcases r.new w hw with hw | e
        · exact .inl hw
        · exact .inr ⟨x, List.mem_cons_self .., e⟩
      · exact .inr ⟨y, List.mem_cons_of_mem _ hy, e⟩
    · intro w hw
      obtain ⟨w', hw', a, b⟩ := r.old w hw
      obtain ⟨w'', hw'', c, d⟩ := q.old w' hw'
      exact ⟨w'', hw'', c.trans a, d.trans b⟩

/-- An event is waiting that will make the master register the entry `e`, reported by watch `w`. -/
def Pending (s : St) (w : Watch) (e : Ent) : Prop :=
  ∃ ev ∈ s.queue, ev.wd = w.wd ∧ (ev.kind = .create ∨ ev.kind = .movedTo) ∧ ev.name = e.name

/-- The invariant. -/
structure Grow (n0 : Nat) (s : St) : Prop where
  base : Base n0 s
  ev : ∀ ev ∈ s.queue, ∃ w ∈ s.watches, w.wd = ev.wd ∧ (ev.kind = .modify ∨ ev.kind = .attrib ∨
    (ev.kind = .create ∨ ev.kind = .movedTo) ∧ ∃ e ∈ s.ents, e.dir = w.ino ∧ e.name = ev.name)
  seen : ∀ e ∈ s.ents, ∀ w ∈ s.watches, w.ino = e.dir → w.mask = .mp →
    (∃ p ∈ s.pfs, resolve s.ents 0 p.path = some e.ino) ∨ Pending s w e

/-- Registering a new entry with all it contains. -/
theorem addNew_regs {n0 : Nat} {s : St} (h : Base n0 s) {path : List Bytes} {i : Nat}
    (hr : resolve s.ents 0 path = some i) (hi : i < s.nextIno) :
    ∃ l, Regs n0 s (addNew s path) l ∧ (path, i) ∈ l ∧
      ∀ x ∈ l, s.isDir x.2 = true → ∀ e ∈ s.ents, e.dir = x.2 → ∃ y ∈ l, y.2 = e.ino := by
  unfold addNew
  rw [hr]
  dsimp only
  by_cases hd : s.isDir i = true
  · rw [if_pos hd]
    have q := fold_regs (n0 := n0) addFound (fun _ _ => True) (fun s x a b c _ => addFound_reg a b c)
      (fun _ _ _ _ _ => trivial) (walk s.ents s.nextIno i path) s h (fun x hx => by
        obtain ⟨a, e, he, b⟩ := walk_resolve h.tree.names s.nextIno i path hr x hx
        exact ⟨a, by rw [← b]; exact (h.tree.below e he).2, trivial⟩)
    have r := addPf_reg (n0 := n0) (s := (walk s.ents s.nextIno i path).foldl addFound s) q.base (m := maskOf s i) (x := (path, i))
      (by rw [q.ext.ents]; exact hr) (by rw [q.ext.nextIno]; exact hi)
      (fun _ _ => maskOf_ok 0 s i hd (.inr (Nat.zero_le i)))
    refine ⟨walk s.ents s.nextIno i path ++ [(path, i)], ⟨r.base, q.ext.trans r.ext, ?_, ?_, ?_⟩, by simp, ?_⟩
    · intro y hy
      rcases List.mem_append.1 hy with hy | hy
      · obtain ⟨p, hp, e⟩ := q.has y hy
        refine ⟨p, r.ext.pfs p hp, ?_⟩
        rw [r.ext.ents]
        exact e
      · simp at hy
        subst hy
        exact r.has
    · intro w hw
      rcases r.new w hw with hw | e
      · rcases q.new w hw with hw | ⟨x, hx, e⟩
        · exact .inl hw
        · exact .inr ⟨x, List.mem_append_left _ hx, e⟩
      · exact .inr ⟨(path, i), by simp, e⟩
    · intro w hw
      obtain ⟨w', hw', a, b⟩ := q.old w hw
      obtain ⟨w'', hw'', c, d⟩ := r.old w' hw'
      exact ⟨w'', hw'', c.trans a, d.trans b⟩
    · intro x hx _ e he hde
      rcases List.mem_append.1 hx with hx | hx
      · have := walk_closed h.tree.below s.nextIno i path (by omega) x hx e he hde
        exact ⟨_, List.mem_append_left _ this, rfl⟩
      · simp at hx
        subst hx
        obtain ⟨f, hf⟩ : ∃ f, s.nextIno = f + 1 := ⟨s.nextIno - 1, by have := h.tree.pos; omega⟩
        have : (path ++ [e.name], e.ino) ∈ walk s.ents s.nextIno i path := by
          rw [hf]
          exact walk_children he hde
        exact ⟨_, List.mem_append_left _ this, rfl⟩
  · rw [if_neg hd]
    have r := addPf_reg (n0 := n0) h (m := maskOf s i) (x := (path, i)) hr hi (fun a => absurd a hd)
    refine ⟨[(path, i)], ⟨r.base, r.ext, ?_, ?_, r.old⟩, by simp, ?_⟩
    · intro y hy
      simp at hy
      subst hy
      exact r.has
    · intro w hw
      rcases r.new w hw with hw | e
      · exact .inl hw
      · exact .inr ⟨(path, i), by simp, e⟩
    · intro x hx hd'
      simp at hx
      subst hx
      exact absurd hd' hd

/-- Handling an event that announces the entry `e`. -/
theorem addNew_grow {n0 : Nat} {s : St} {ev : Ev} {q : List Ev} (h : Grow n0 s) (hq : s.queue = ev :: q)
    {path : List Bytes} {e : Ent} (he : e ∈ s.ents) (hr : resolve s.ents 0 path = some e.ino)
    {w : Watch} (hw : w ∈ s.watches) (hwd : w.wd = ev.wd) (hwe : w.ino = e.dir) (hn : ev.name = e.name) :
    Grow n0 (addNew { s with queue := q } path) := by
  have hb : Base n0 { s with queue := q } := ⟨h.base.tree, h.base.run, ⟨h.base.wok.wd, h.base.wok.ino, h.base.wok.lt⟩,
    h.base.root, h.base.pf, h.base.back, h.base.mask⟩
  obtain ⟨l, r, hl, hc⟩ := addNew_regs (s := { s with queue := q }) hb hr (h.base.tree.below e he).2
  refine ⟨r.base, ?_, ?_⟩
  · intro ev' hev
    rw [r.ext.queue] at hev
    obtain ⟨v, hv, a, b⟩ := h.ev ev' (by rw [hq]; exact List.mem_cons_of_mem _ hev)
    obtain ⟨v', hv', c, d⟩ := r.old v hv
    refine ⟨v', hv', c.trans a, ?_⟩
    rw [r.ext.ents, d]
    exact b
  · intro f hf v hv hvf hmp
    rw [r.ext.ents] at hf
    rcases r.new v hv with hv0 | ⟨x, hx, hxi⟩
    · rcases h.seen f hf v hv0 hvf hmp with ⟨p, hp, a⟩ | ⟨ev', hev, a, b, c⟩
      · exact .inl ⟨p, r.ext.pfs p hp, by rw [r.ext.ents]; exact a⟩
      · rw [hq] at hev
        rcases List.mem_cons.1 hev with hev | hev
        · subst hev
          have hvw : v = w := h.base.wok.wd v hv0 w hw (by omega)
          subst hvw
          have : f = e := h.base.tree.names f hf e he (by omega) (by rw [← c, hn])
          subst this
          exact .inl (r.has _ hl)
        · exact .inr ⟨ev', by rw [r.ext.queue]; exact hev, a, b, c⟩
    · have hd : s.isDir x.2 = true := by
        have := h.base.tree.inDir f hf
        unfold St.isDir
        rw [← hxi, hvf]
        simpa using this
      obtain ⟨y, hy, hye⟩ := hc x hx hd f hf (by omega)
      obtain ⟨p, hp, a⟩ := r.has y hy
      exact .inl ⟨p, hp, by rw [← hye]; exact a⟩

theorem tell_grow {n0 : Nat} {s : St} (h : Grow n0 s) : Grow n0 (tell s) := by
  unfold tell
  split
  · exact ⟨⟨h.base.tree, h.base.run, ⟨h.base.wok.wd, h.base.wok.ino, h.base.wok.lt⟩, h.base.root, h.base.pf,
      h.base.back, h.base.mask⟩, h.ev, h.seen⟩
  · exact h

/-- An event that announces no entry is dropped. -/
theorem drop_grow {n0 : Nat} {s : St} {ev : Ev} {q : List Ev} (h : Grow n0 s) (hq : s.queue = ev :: q)
    (hk : ev.kind = .modify ∨ ev.kind = .attrib) : Grow n0 { s with queue := q } := by
  refine ⟨⟨h.base.tree, h.base.run, ⟨h.base.wok.wd, h.base.wok.ino, h.base.wok.lt⟩, h.base.root, h.base.pf,
      h.base.back, h.base.mask⟩, fun ev' hev => h.ev ev' (by rw [hq]; exact List.mem_cons_of_mem _ hev), ?_⟩
  intro e he w hw a b
  rcases h.seen e he w hw a b with c | ⟨ev', hev, c, d, f⟩
  · exact .inl c
  · rw [hq] at hev
    rcases List.mem_cons.1 hev with hev | hev
    · subst hev
      rcases hk with k | k <;> rcases d with d | d <;> rw [k] at d <;> cases d
    · exact .inr ⟨ev', hev, c, d, f⟩

theorem read_grow {n0 : Nat} {s : St} (h : Grow n0 s) : Grow n0 (read s) := by
  unfold read
  rw [if_pos h.base.run]
  cases hq : s.queue with
  | nil => exact h
  | cons ev q =>
    dsimp only
    obtain ⟨w, hw, hwd, hk⟩ := h.ev ev (by rw [hq]; exact List.mem_cons_self ..)
    unfold handle
    by_cases h0 : ev.wd = rootWd
    · rw [if_pos h0]
      obtain ⟨w0, hw0, a, b⟩ := h.base.root
      have hww : w = w0 := h.base.wok.wd w hw w0 hw0 (by rw [hwd, h0, a]; rfl)
      subst hww
      unfold inMp
      rcases hk with k | k | ⟨k, e, he, hed, hen⟩
      · rw [k]; exact tell_grow (drop_grow h hq (.inl k))
      · rw [k]; exact tell_grow (drop_grow h hq (.inr k))
      · have hr : resolve s.ents 0 [ev.name] = some e.ino := by
          have := lookup_mem h.base.tree.names he
          unfold resolve
          rw [← hen, show (0 : Nat) = e.dir by omega, this]
          rfl
        rcases k with k | k
        · rw [k]; exact tell_grow (addNew_grow h hq he hr hw hwd (by omega) hen.symm)
        · rw [k]; exact tell_grow (addNew_grow h hq he hr hw hwd (by omega) hen.symm)
    · rw [if_neg h0]
      cases hf : s.pfs.find? (fun p => p.wd == ev.wd) with
      | none =>
        exfalso
        rcases h.base.back w hw with a | ⟨p, hp, a⟩
        · exact h0 (by rw [← hwd, a]; rfl)
        · have := List.find?_eq_none.1 hf p hp
          simp at this
          exact this (by omega)
      | some p =>
        have hp := List.mem_of_find?_eq_some hf
        have hpw := List.find?_some hf
        simp at hpw
        obtain ⟨i, hr, ⟨v, hv, a, b⟩, hd⟩ := h.base.pf p hp
        have hvw : v = w := h.base.wok.wd v hv w hw (by omega)
        subst hvw
        dsimp only
        unfold inPf
        rcases hk with k | k | ⟨k, e, he, hed, hen⟩
        · rw [k]
          dsimp only
          split
          · exact tell_grow (drop_grow h hq (.inl k))
          · rw [hr]
            exact tell_grow (drop_grow h hq (.inl k))
        · rw [k]
          dsimp only
          split
          · exact tell_grow (drop_grow h hq (.inr k))
          · rw [hr]
            exact tell_grow (drop_grow h hq (.inr k))
        · have hpd : p.dir = true := by
            rw [hd]
            unfold St.isDir
            have := h.base.tree.inDir e he
            rw [← b, ← hed]
            simpa using this
          have hr' : resolve s.ents 0 (p.path ++ [ev.name]) = some e.ino := by
            refine resolve_snoc ev.name e p.path 0 i hr ?_
            rw [← hen, ← b, ← hed]
            exact lookup_mem h.base.tree.names he
          rcases k with k | k
          · rw [k]; dsimp only; rw [if_pos hpd]; exact tell_grow (addNew_grow h hq he hr' hv (by omega) (by omega) hen.symm)
          · rw [k]; dsimp only; rw [if_pos hpd]; exact tell_grow (addNew_grow h hq he hr' hv (by omega) (by omega) hen.symm)

/-- An event at the end of the queue that announces nothing. -/
theorem emit_grow {n0 : Nat} {s : St} (h : Grow n0 s) (i : Nat) (k : Kind) (hk : k = .modify ∨ k = .attrib) :
    Grow n0 (emit s i k []) := by
  rcases emit_cases s i k [] with e | ⟨w, hw, a, b, e⟩
  · rw [e]; exact h
  · rw [e]
    refine ⟨⟨h.base.tree, h.base.run, ⟨h.base.wok.wd, h.base.wok.ino, h.base.wok.lt⟩, h.base.root, h.base.pf,
      h.base.back, h.base.mask⟩, ?_, ?_⟩
    · intro ev hev
      rcases List.mem_append.1 hev with hev | hev
      · exact h.ev ev hev
      · simp at hev
        subst hev
        exact ⟨w, hw, rfl, by rcases hk with k | k <;> simp [k]⟩
    · intro f hf v hv c d
      rcases h.seen f hf v hv c d with x | ⟨ev, hev, x⟩
      · exact .inl x
      · exact .inr ⟨ev, List.mem_append_left _ hev, x⟩

theorem newEnt_grow {n0 : Nat} {s : St} (h : Grow n0 s) (h0 : n0 ≤ s.nextIno) (d : Nat) (n : Bytes) (dir : Bool)
    (k : Kind) (hk : k = .create ∨ k = .movedTo) : Grow n0 (newEnt s d n dir k) := by
  unfold newEnt
  split
  case isFalse => exact h
  case isTrue hc =>
    simp only [Bool.and_eq_true] at hc
    obtain ⟨hd, hl⟩ := hc
    have hdd : d ∈ s.dirs := by unfold St.isDir at hd; simpa using hd
    have hl : lookup s.ents d n = none := by simpa using hl
    have hno : ∀ e ∈ s.ents, e.dir = d → e.name ≠ n := by
      intro e he a b
      have := List.find?_eq_none.1 hl e he
      simp [a, b] at this
    have dirs' : ∀ i, i ∈ (if dir then s.dirs ++ [s.nextIno] else s.dirs) → i ∈ s.dirs ∨ i = s.nextIno := by
      intro i hi
      cases dir
      · exact .inl (by simpa using hi)
      · simpa using hi
    have dirs'' : ∀ i, i ∈ s.dirs → i ∈ (if dir then s.dirs ++ [s.nextIno] else s.dirs) := by
      intro i hi
      cases dir
      · simpa using hi
      · simp [hi]
    have same : ∀ i, i < s.nextIno →
        List.contains (if dir then s.dirs ++ [s.nextIno] else s.dirs) i = List.contains s.dirs i := by
      intro i hi
      cases dir
      · simp
      · simp; omega
    have tree : Tree (s.ents ++ [⟨d, n, s.nextIno⟩]) (if dir then s.dirs ++ [s.nextIno] else s.dirs) (s.nextIno + 1) := by
      have t := h.base.tree
      refine ⟨dirs'' _ t.root, by omega, ?_, ?_, ?_, ?_, ?_⟩
      · intro e he
        rcases List.mem_append.1 he with he | he
        · exact dirs'' _ (t.inDir e he)
        · simp at he; subst he; exact dirs'' _ hdd
      · intro e he
        rcases List.mem_append.1 he with he | he
        · have := t.below e he; omega
        · simp at he; subst he; have := t.dirLt d hdd; dsimp only; omega
      · intro i hi
        rcases dirs' i hi with hi | hi
        · have := t.dirLt i hi; omega
        · omega
      · intro e he e' he' a b
        rcases List.mem_append.1 he with he | he <;> rcases List.mem_append.1 he' with he' | he'
        · exact t.names e he e' he' a b
        · simp at he'; subst he'; exact absurd b (hno e he a)
        · simp at he; subst he; exact absurd b.symm (hno e' he' a.symm)
        · simp at he he'; rw [he, he']
      · intro e he e' he' a
        rcases List.mem_append.1 he with he | he <;> rcases List.mem_append.1 he' with he' | he'
        · exact t.once e he e' he' a
        · simp at he'; subst he'; have := (t.below e he).2; simp at a; omega
        · simp at he; subst he; have := (t.below e' he').2; simp at a; omega
        · simp at he he'; rw [he, he']
    have hb : Base n0 { s with ents := s.ents ++ [⟨d, n, s.nextIno⟩], dirs := if dir then s.dirs ++ [s.nextIno] else s.dirs, nextIno := s.nextIno + 1 } := by
      refine ⟨tree, h.base.run, ⟨h.base.wok.wd, h.base.wok.ino, ?_⟩, h.base.root, ?_, h.base.back, ?_⟩
      · intro w hw
        have := h.base.wok.lt w hw
        dsimp only
        omega
      · intro p hp
        obtain ⟨i, a, b, c⟩ := h.base.pf p hp
        obtain ⟨w, hw, b1, b2⟩ := b
        have hi := (h.base.wok.lt w hw).2
        refine ⟨i, resolve_append _ _ _ _ a, ⟨w, hw, b1, b2⟩, ?_⟩
        rw [c]
        exact (same i (by omega)).symm
      · intro w hw hdw hn
        have hi := (h.base.wok.lt w hw).2
        exact h.base.mask w hw (by rw [← hdw]; exact (same w.ino hi).symm) hn
    have key : ∀ e ∈ s.ents, ∀ w ∈ s.watches, w.ino = e.dir → w.mask = .mp →
        (∃ p ∈ s.pfs, resolve (s.ents ++ [⟨d, n, s.nextIno⟩]) 0 p.path = some e.ino) ∨ Pending s w e := by
      intro e he w hw a b
      rcases h.seen e he w hw a b with ⟨p, hp, x⟩ | x
      · exact .inl ⟨p, hp, resolve_append _ _ _ _ x⟩
      · exact .inr x
    have hev : ∀ ev ∈ s.queue, ∃ w ∈ s.watches, w.wd = ev.wd ∧ (ev.kind = .modify ∨ ev.kind = .attrib ∨
        (ev.kind = .create ∨ ev.kind = .movedTo) ∧ ∃ e ∈ s.ents ++ [⟨d, n, s.nextIno⟩], e.dir = w.ino ∧ e.name = ev.name) := by
      intro ev hev
      obtain ⟨w, hw, a, b⟩ := h.ev ev hev
      refine ⟨w, hw, a, ?_⟩
      rcases b with b | b | ⟨b, e, he, c⟩
      · exact .inl b
      · exact .inr (.inl b)
      · exact .inr (.inr ⟨b, e, List.mem_append_left _ he, c⟩)
    rcases emit_cases { s with ents := s.ents ++ [⟨d, n, s.nextIno⟩], dirs := if dir then s.dirs ++ [s.nextIno] else s.dirs, nextIno := s.nextIno + 1 } d k n with e | ⟨w, hw, a, b, e⟩
    · have nomp : ∀ w ∈ s.watches, w.ino = d → w.mask = .mp → False := by
        intro w hw a b
        have := emit_watched (s := { s with ents := s.ents ++ [⟨d, n, s.nextIno⟩], dirs := if dir then s.dirs ++ [s.nextIno] else s.dirs, nextIno := s.nextIno + 1 }) hb.wok (w := w) hw k n
        have hwant : Mask.wants .mp k = true := by rcases hk with x | x <;> rw [x] <;> rfl
        rw [a, e, b, hwant, if_pos rfl] at this
        have := congrArg (fun t => t.queue.length) this
        simp at this
      rw [e]
      refine ⟨hb, hev, ?_⟩
      intro f hf w hw a b
      rcases List.mem_append.1 hf with hf | hf
      · exact key f hf w hw a b
      · simp at hf; subst hf; exact absurd b (fun b => nomp w hw a b)
    · rw [e]
      refine ⟨⟨hb.tree, hb.run, ⟨hb.wok.wd, hb.wok.ino, hb.wok.lt⟩, hb.root, hb.pf, hb.back, hb.mask⟩, ?_, ?_⟩
      · intro ev hx
        rcases List.mem_append.1 hx with hx | hx
        · exact hev ev hx
        · simp at hx
          subst hx
          exact ⟨w, hw, rfl, .inr (.inr ⟨hk, ⟨d, n, s.nextIno⟩, List.mem_append_right _ (by simp), a.symm, rfl⟩)⟩
      · intro f hf v hv c m
        rcases List.mem_append.1 hf with hf | hf
        · rcases key f hf v hv c m with x | ⟨ev, hx, x⟩
          · exact .inl x
          · exact .inr ⟨ev, List.mem_append_left _ hx, x⟩
        · simp at hf
          subst hf
          have : v = w := hb.wok.ino v hv w hw (by rw [a]; exact c)
          subst this
          exact .inr ⟨⟨v.wd, k, n⟩, List.mem_append_right _ (by simp), rfl, hk, rfl⟩

theorem emit_nextIno (s : St) (i : Nat) (k : Kind) (n : Bytes) : (emit s i k n).nextIno = s.nextIno := by
  rcases emit_cases s i k n with e | ⟨w, hw, a, b, e⟩ <;> rw [e]

theorem newEnt_nextIno (s : St) (d : Nat) (n : Bytes) (dir : Bool) (k : Kind) :
    s.nextIno ≤ (newEnt s d n dir k).nextIno := by
  unfold newEnt
  split
  · rw [emit_nextIno]; exact Nat.le_succ _
  · exact Nat.le_refl _

theorem addPf_same (s : St) (m : Mask) (x : List Bytes × Nat) :
    (addPf s m x).nextIno = s.nextIno ∧ (addPf s m x).ents = s.ents ∧ (addPf s m x).notes = s.notes := by
  unfold addPf addWatch
  split <;> exact ⟨rfl, rfl, rfl⟩

theorem addFound_same (s : St) (x : List Bytes × Nat) :
    (addFound s x).nextIno = s.nextIno ∧ (addFound s x).ents = s.ents ∧ (addFound s x).notes = s.notes := by
  unfold addFound
  split
  · exact ⟨rfl, rfl, rfl⟩
  · exact addPf_same s _ x

theorem foldFound_same : ∀ (l : List (List Bytes × Nat)) (s : St),
    (l.foldl addFound s).nextIno = s.nextIno ∧ (l.foldl addFound s).ents = s.ents ∧ (l.foldl addFound s).notes = s.notes
  | [], _ => ⟨rfl, rfl, rfl⟩
  | x :: l, s => by
    have a := foldFound_same l (addFound s x)
    have b := addFound_same s x
    exact ⟨a.1.trans b.1, a.2.1.trans b.2.1, a.2.2.trans b.2.2⟩

theorem addNew_same (s : St) (p : List Bytes) :
    (addNew s p).nextIno = s.nextIno ∧ (addNew s p).ents = s.ents ∧ (addNew s p).notes = s.notes := by
  unfold addNew
  split
  · exact ⟨rfl, rfl, rfl⟩
  · dsimp only
    rename_i i _
    split
    · have a := foldFound_same (walk s.ents s.nextIno i p) s
      have b := addPf_same ((walk s.ents s.nextIno i p).foldl addFound s)
      exact ⟨(b _ _).1.trans a.1, (b _ _).2.1.trans a.2.1, (b _ _).2.2.trans a.2.2⟩
    · exact addPf_same s _ _

theorem act_grow {n0 : Nat} {s : St} (h : Grow n0 s) (h0 : n0 ≤ s.nextIno) (a : Act) (ha : a.grows = true) :
    Grow n0 (act s a) := by
  cases a with
  | read => exact read_grow h
  | op o =>
    cases o with
    | create d n => exact newEnt_grow h h0 d n false .create (.inl rfl)
    | mkdir d n => exact newEnt_grow h h0 d n true .create (.inl rfl)
    | moveIn d n => exact newEnt_grow h h0 d n false .movedTo (.inr rfl)
    | write d n =>
      show Grow n0 (op s (.write d n))
      unfold op
      dsimp only
      split
      · exact h
      · exact emit_grow h _ _ (.inl rfl)
    | chmod d n =>
      show Grow n0 (op s (.chmod d n))
      unfold op
      dsimp only
      split
      · exact h
      · exact emit_grow h _ _ (.inr rfl)
    | unlink d n => cases ha
    | moveOut d n => cases ha
    | rename d n n' => cases ha
    | free i => cases ha

theorem rmPf_same (s : St) (pf : Pf) (b : Bool) :
    (rmPf s pf b).nextIno = s.nextIno ∧ (rmPf s pf b).ents = s.ents ∧ (rmPf s pf b).notes = s.notes := by
  unfold rmPf
  split
  · exact ⟨rfl, rfl, rfl⟩
  · split
    · exact ⟨rfl, rfl, rfl⟩
    · split <;> exact ⟨rfl, rfl, rfl⟩

theorem tell_same (s : St) : (tell s).nextIno = s.nextIno ∧ (tell s).ents = s.ents := by
  unfold tell
  split <;> exact ⟨rfl, rfl⟩

theorem read_same (s : St) : (read s).nextIno = s.nextIno ∧ (read s).ents = s.ents := by
  have an : ∀ (s : St) p, (tell (addNew s p)).nextIno = s.nextIno ∧ (tell (addNew s p)).ents = s.ents :=
    fun s p => ⟨(tell_same _).1.trans (addNew_same s p).1, (tell_same _).2.trans (addNew_same s p).2.1⟩
  have rm : ∀ (s : St) p b, (tell (rmPf s p b)).nextIno = s.nextIno ∧ (tell (rmPf s p b)).ents = s.ents :=
    fun s p b => ⟨(tell_same _).1.trans (rmPf_same s p b).1, (tell_same _).2.trans (rmPf_same s p b).2.1⟩
  unfold read
  split
  · split
    · exact ⟨rfl, rfl⟩
    · unfold handle
      split
      · unfold inMp
        split
        · exact an _ _
        · exact an _ _
        · exact tell_same _
      · split
        · exact ⟨rfl, rfl⟩
        · unfold inPf
          split
          · exact rm _ _ _
          · exact rm _ _ _
          · split
            · split
              · exact an _ _
              · exact an _ _
              · exact tell_same _
            · split
              · split
                · exact tell_same _
                · exact ⟨rfl, rfl⟩
              · split
                · exact tell_same _
                · exact rm _ _ _
              · exact tell_same _
  · exact ⟨rfl, rfl⟩

theorem act_nextIno (s : St) (a : Act) (ha : a.grows = true) : s.nextIno ≤ (act s a).nextIno := by
  cases a with
  | read => exact Nat.le_of_eq (read_same s).1.symm
  | op o =>
    cases o with
    | create d n => exact newEnt_nextIno ..
    | mkdir d n => exact newEnt_nextIno ..
    | moveIn d n => exact newEnt_nextIno ..
    | write d n =>
      show s.nextIno ≤ (op s (.write d n)).nextIno
      unfold op
      dsimp only
      split
      · exact Nat.le_refl _
      · exact Nat.le_of_eq (emit_nextIno ..).symm
    | chmod d n =>
      show s.nextIno ≤ (op s (.chmod d n)).nextIno
      unfold op
      dsimp only
      split
      · exact Nat.le_refl _
      · exact Nat.le_of_eq (emit_nextIno ..).symm
    | unlink d n => cases ha
    | moveOut d n => cases ha
    | rename d n n' => cases ha
    | free i => cases ha

theorem run_grow {n0 : Nat} : ∀ (as : List Act) (s : St), Grow n0 s → n0 ≤ s.nextIno → (∀ a ∈ as, a.grows = true) →
    Grow n0 (run s as)
  | [], _, h, _, _ => h
  | a :: as, s, h, h0, hg =>
    run_grow as (act s a) (act_grow h h0 a (hg a (List.mem_cons_self ..)))
      (Nat.le_trans h0 (act_nextIno s a (hg a (List.mem_cons_self ..)))) (fun b hb => hg b (List.mem_cons_of_mem _ hb))

/-- What the start registers. -/
theorem start_regs {ents : List Ent} {dirs : List Nat} {n : Nat} (t : Tree ents dirs n) :
    Regs n ⟨ents, dirs, n, [⟨rootWd, 0, .mp⟩], rootWd + 1, [], [], 0, .running⟩ (start ents dirs n) (walk ents n 0 []) := by
  have hb : Base n ⟨ents, dirs, n, [⟨rootWd, 0, .mp⟩], rootWd + 1, [], [], 0, .running⟩ := by
    refine ⟨t, rfl, ⟨?_, ?_, ?_⟩, ⟨⟨rootWd, 0, .mp⟩, by simp, rfl, rfl⟩, ?_, ?_, ?_⟩
    · intro w hw w' hw' _; simp at hw hw'; rw [hw, hw']
    · intro w hw w' hw' _; simp at hw hw'; rw [hw, hw']
    · intro w hw; simp at hw; subst hw; exact ⟨Nat.lt_succ_self _, t.pos⟩
    · intro p hp; cases hp
    · intro w hw; simp at hw; subst hw; exact .inl rfl
    · intro w hw _ _; simp at hw; subst hw; rfl
  refine fold_regs (n0 := n) (fun s x => addPf s .pf x) (fun _ x => x.2 ≠ 0 ∧ x.2 < n) ?_ (fun _ _ _ _ h => h) _ _ hb ?_
  · intro s x a b c d
    exact addPf_reg a b c (fun _ h => by omega)
  · intro x hx
    obtain ⟨a, e, he, b⟩ := walk_resolve t.names n 0 [] rfl x hx
    have := t.below e he
    exact ⟨a, by show x.2 < n; omega, by omega, by omega⟩

theorem start_grow {ents : List Ent} {dirs : List Nat} {n : Nat} (t : Tree ents dirs n) :
    Grow n (start ents dirs n) ∧ (start ents dirs n).nextIno = n ∧ (start ents dirs n).ents = ents := by
  have r := start_regs t
  have hq : (start ents dirs n).queue = [] := r.ext.queue
  have he : (start ents dirs n).ents = ents := r.ext.ents
  refine ⟨⟨r.base, ?_, ?_⟩, r.ext.nextIno, he⟩
  · intro ev hev
    rw [hq] at hev
    cases hev
  · intro e hmem w hw hwe _
    rw [he] at hmem
    refine .inl ?_
    obtain ⟨f, hf⟩ : ∃ f, n = f + 1 := ⟨n - 1, by have := t.pos; omega⟩
    rcases r.new w hw with hw | ⟨x, hx, hxi⟩
    · simp at hw
      subst hw
      have := walk_children (f := f) (p := []) hmem hwe.symm
      rw [← hf] at this
      exact r.has _ this
    · have := walk_closed t.below n 0 [] (by omega) x hx e hmem (by omega)
      exact r.has _ this

/-- With nothing waiting, everything that is in a directory the master sees is known. -/
theorem grow_known {n0 : Nat} {s : St} (h : Grow n0 s) (hq : s.queue = []) {d : Nat} (hd : Seen s.ents n0 d) :
    (∃ w ∈ s.watches, w.ino = d) ∧ ∀ e ∈ s.ents, e.dir = d → Known s e := by
  have main : ∀ {d}, (∃ w ∈ s.watches, w.ino = d) → d = 0 ∨ n0 ≤ d → ∀ e ∈ s.ents, e.dir = d → Known s e := by
    intro d hw hn e he hde
    obtain ⟨w, hw, hwd⟩ := hw
    have hdir : s.isDir w.ino = true := by
      unfold St.isDir
      have := h.base.tree.inDir e he
      rw [hwd, ← hde]
      simpa using this
    rcases h.seen e he w hw (by omega) (h.base.mask w hw hdir (by omega)) with ⟨p, hp, a⟩ | ⟨ev, hev, _⟩
    · obtain ⟨i, b, ⟨v, hv, c1, c2⟩, _⟩ := h.base.pf p hp
      rw [a] at b
      injection b with b
      exact ⟨p, hp, a, v, hv, by omega, c1⟩
    · rw [hq] at hev
      cases hev
  have watched : ∀ {d}, Seen s.ents n0 d → (∃ w ∈ s.watches, w.ino = d) ∧ (d = 0 ∨ n0 ≤ d) := by
    intro d hd
    induction hd with
    | root =>
      obtain ⟨w, hw, _, b⟩ := h.base.root
      exact ⟨⟨w, hw, b⟩, .inl rfl⟩
    | made e he _ hn ih =>
      obtain ⟨p, _, _, w, hw, a, _⟩ := main ih.1 ih.2 e he rfl
      exact ⟨⟨w, hw, a⟩, .inr hn⟩
  exact ⟨(watched hd).1, main (watched hd).1 (watched hd).2⟩

end Fly.Watch
