import Verif.Dispatch.Spec

namespace Fly.Dispatch

theorem filterMap_same {α β : Type} {f g : α → Option β} : ∀ {l : List α}, (∀ a ∈ l, f a = g a) → l.filterMap f = l.filterMap g
  | [], _ => rfl
  | a :: l, h => by
    rw [List.filterMap_cons, List.filterMap_cons, h a (List.mem_cons_self ..), filterMap_same fun b hb => h b (List.mem_cons_of_mem _ hb)]

/-- The bookkeeping that holds between any two steps. -/
structure Inv (s : St) : Prop where
  mon : ∀ a, a ∈ s.mon ↔ ∃ e, s.heap a = some e ∧ e.monitorable = true
  unmon : ∀ a, a ∈ s.unmon ↔ ∃ e, s.heap a = some e ∧ e.monitorable = false
  mondup : s.mon.Nodup
  undup : s.unmon.Nodup
  next : ∀ a e, s.heap a = some e → a < s.next
  kern : ∀ fd a, (fd, a) ∈ s.kern ↔ ∃ e, s.heap a = some e ∧ e.monitorable = true ∧ e.fd = fd ∧ e.flag.close = false
  fds : ∀ a b e e', s.heap a = some e → s.heap b = some e' → e.monitorable = true → e'.monitorable = true →
    e.flag.close = false → e'.flag.close = false → e.fd = e'.fd → a = b
  files : ∀ a e, s.heap a = some e → e.monitorable = true → e.flag.close = false → e.fd ∈ s.files

/-- No registered event is closed. -/
def Clean (s : St) : Prop := ∀ a e, s.heap a = some e → e.monitorable = true → e.flag.close = false

/-- Log entries waiting. -/
def pend (s : St) : List Nat := s.unmon.filterMap fun a => (s.heap a).map (·.line)

theorem Inv.pendAppend {s : St} (h : Inv s) (e : Ev) (a : Nat) (s' : St) (hn : s.heap a = none) (hh : s'.heap = fun x => if x = a then some e else s.heap x)
    (hu : s'.unmon = s.unmon ++ [a]) : pend s' = pend s ++ [e.line] := by
  unfold pend
  rw [hu, List.filterMap_append]
  congr 1
  · apply filterMap_same
    intro b hb
    have : b ≠ a := by
      intro e2
      obtain ⟨e', h1, _⟩ := (h.unmon b).1 hb
      rw [e2, hn] at h1; cases h1
    simp [hh, this]
  · simp [hh]

theorem pend_congr {s s' : St} (hu : s'.unmon = s.unmon) (h : ∀ a ∈ s.unmon, (s'.heap a).map (·.line) = (s.heap a).map (·.line)) :
    pend s' = pend s := by
  unfold pend; rw [hu]; exact filterMap_same h

/-- One registration. -/
theorem register_inv {s : St} (h : Inv s) (e : Ev) (hf : e.monitorable = true → e.fd ∉ s.files) (hc : e.monitorable = true → e.flag.close = false) :
    Inv (register s e) ∧ (register s e).next = s.next + 1 ∧ (∀ b, b < s.next → (register s e).heap b = s.heap b) ∧
    (register s e).heap s.next = some e ∧ (∀ b, s.next < b → (register s e).heap b = s.heap b) ∧
    (register s e).trace = s.trace ∧ (register s e).masked = s.masked ∧
    pend (register s e) = pend s ++ (if e.monitorable then [] else [e.line]) ∧
    (∀ fd, fd ∈ (register s e).files ↔ fd ∈ s.files ∨ (e.monitorable = true ∧ fd = e.fd)) := by
  have hn : s.heap s.next = none := by
    cases hh : s.heap s.next with
    | none => rfl
    | some e' => exact absurd (h.next _ _ hh) (by omega)
  have hmn : s.next ∉ s.mon := by
    intro hm; obtain ⟨e', h1, _⟩ := (h.mon _).1 hm; rw [hn] at h1; cases h1
  have hun : s.next ∉ s.unmon := by
    intro hm; obtain ⟨e', h1, _⟩ := (h.unmon _).1 hm; rw [hn] at h1; cases h1
  have hheap : (register s e).heap = fun x => if x = s.next then some e else s.heap x := by
    unfold register St.put; split <;> rfl
  have hnext : (register s e).next = s.next + 1 := by
    unfold register St.put; split <;> rfl
  have htr : (register s e).trace = s.trace ∧ (register s e).masked = s.masked := by
    unfold register St.put; split <;> exact ⟨rfl, rfl⟩
  have hfiles : ∀ fd, fd ∈ (register s e).files ↔ fd ∈ s.files ∨ (e.monitorable = true ∧ fd = e.fd) := by
    intro fd
    unfold register St.put
    by_cases hm : e.monitorable = true
    · have := hf hm
      have h2 : s.files.contains e.fd = false := by simpa using this
      simp [hm, this]
    · simp [hm]
  have hmon : (register s e).mon = if e.monitorable then s.mon ++ [s.next] else s.mon := by
    unfold register St.put; split <;> simp
  have hunmon : (register s e).unmon = if e.monitorable then s.unmon else s.unmon ++ [s.next] := by
    unfold register St.put; split <;> simp
  have hkern : (register s e).kern = if e.monitorable then s.kern ++ [(e.fd, s.next)] else s.kern := by
    unfold register St.put; split <;> simp
  have hlook : ∀ a e', (register s e).heap a = some e' → (a = s.next ∧ e' = e) ∨ (a ≠ s.next ∧ s.heap a = some e') := by
    intro a e' h1
    rw [hheap] at h1
    by_cases hx : a = s.next
    · simp [hx] at h1; exact .inl ⟨hx, h1.symm⟩
    · simp [hx] at h1; exact .inr ⟨hx, h1⟩
  refine ⟨⟨?_, ?_, ?_, ?_, ?_, ?_, ?_, ?_⟩, hnext, ?_, ?_, ?_, htr.1, htr.2, ?_, hfiles⟩
  · intro a
    rw [hmon, hheap]
    by_cases hm : e.monitorable = true
    · rw [if_pos hm, List.mem_append, List.mem_singleton, h.mon]
      by_cases hx : a = s.next
      · simp [hx, hm]
      · simp [hx]
    · rw [if_neg hm, h.mon]
      by_cases hx : a = s.next
      · simp [hx, hn, hm]
      · simp [hx]
  · intro a
    rw [hunmon, hheap]
    by_cases hm : e.monitorable = true
    · rw [if_pos hm, h.unmon]
      by_cases hx : a = s.next
      · simp [hx, hn, hm]
      · simp [hx]
    · rw [if_neg hm, List.mem_append, List.mem_singleton, h.unmon]
      by_cases hx : a = s.next
      · simp [hx, hm]
      · simp [hx]
  · rw [hmon]; split
    · exact List.nodup_append.2 ⟨h.mondup, by simp, by intro x hx y hy; simp at hy; subst hy; exact fun e2 => hmn (e2 ▸ hx)⟩
    · exact h.mondup
  · rw [hunmon]; split
    · exact h.undup
    · exact List.nodup_append.2 ⟨h.undup, by simp, by intro x hx y hy; simp at hy; subst hy; exact fun e2 => hun (e2 ▸ hx)⟩
  · intro a e' h1
    rw [hnext]
    rcases hlook a e' h1 with ⟨hx, _⟩ | ⟨_, hx⟩
    · omega
    · have := h.next _ _ hx; omega
  · intro fd a
    rw [hkern, hheap]
    by_cases hm : e.monitorable = true
    · rw [if_pos hm, List.mem_append, List.mem_singleton, h.kern]
      by_cases hx : a = s.next
      · subst hx
        simp only [hn, if_pos, Prod.mk.injEq, and_true, Option.some.injEq]
        constructor
        · rintro (⟨e', h1, _⟩ | h1)
          · cases h1
          · exact ⟨e, rfl, hm, h1.symm, hc hm⟩
        · rintro ⟨e', h1, _, h3, _⟩
          subst h1; exact .inr h3.symm
      · simp [hx]
    · rw [if_neg hm, h.kern]
      by_cases hx : a = s.next
      · simp [hx, hn, hm]
      · simp [hx]
  · intro a b e1 e2 h1 h2 m1 m2 c1 c2 hfd
    rcases hlook a e1 h1 with ⟨ha, r1⟩ | ⟨ha, r1⟩ <;> rcases hlook b e2 h2 with ⟨hb, r2⟩ | ⟨hb, r2⟩
    · rw [ha, hb]
    · subst r1
      exact absurd (hfd ▸ h.files _ _ r2 m2 c2) (hf m1)
    · subst r2
      exact absurd (hfd ▸ h.files _ _ r1 m1 c1) (hf m2)
    · exact h.fds a b e1 e2 r1 r2 m1 m2 c1 c2 hfd
  · intro a e1 h1 m1 c1
    rw [hfiles]
    rcases hlook a e1 h1 with ⟨ha, r1⟩ | ⟨ha, r1⟩
    · subst r1; exact .inr ⟨m1, rfl⟩
    · exact .inl (h.files _ _ r1 m1 c1)
  · intro b hb; rw [hheap]; simp [Nat.ne_of_lt hb]
  · rw [hheap]; simp
  · intro b hb; rw [hheap]; simp [Nat.ne_of_gt hb]
  · by_cases hm : e.monitorable = true
    · rw [if_pos hm, List.append_nil]
      apply pend_congr
      · rw [hunmon, if_pos hm]
      · intro a ha
        have : a ≠ s.next := fun e2 => hun (e2 ▸ ha)
        rw [hheap]; simp [this]
    · rw [if_neg hm]
      exact h.pendAppend e s.next _ hn hheap (by rw [hunmon, if_neg hm])

/-- Registrations one after the other. -/
theorem registers_inv : ∀ (es : List Ev) (s : St), Inv s → (∀ e ∈ es, e.monitorable = true → e.fd ∉ s.files ∧ e.flag.close = false) →
    ((es.filter (·.monitorable)).map (·.fd)).Nodup →
    Inv (es.foldl register s) ∧ s.next ≤ (es.foldl register s).next ∧
    (∀ b, b < s.next → (es.foldl register s).heap b = s.heap b) ∧
    (∀ b e, (es.foldl register s).heap b = some e → b < s.next ∨ (e ∈ es)) ∧
    (es.foldl register s).trace = s.trace ∧ (es.foldl register s).masked = s.masked ∧
    pend (es.foldl register s) = pend s ++ (es.filter (fun e => !e.monitorable)).map (·.line) ∧
    (∀ fd, fd ∈ s.files → fd ∈ (es.foldl register s).files) := by
  intro es
  induction es with
  | nil =>
    intro s h _ _
    refine ⟨h, Nat.le_refl _, fun b _ => rfl, ?_, rfl, rfl, by simp, fun fd h => h⟩
    intro b e hb; exact .inl (h.next _ _ hb)
  | cons e es ih =>
    intro s h hf hd
    obtain ⟨r1, r2, r3, r4, r5, r6, r7, r8, r9⟩ := register_inv h e (fun m => (hf e (List.mem_cons_self ..) m).1)
      (fun m => (hf e (List.mem_cons_self ..) m).2)
    have hd' : ((es.filter (·.monitorable)).map (·.fd)).Nodup ∧ (e.monitorable = true → ∀ e' ∈ es, e'.monitorable = true → e'.fd ≠ e.fd) := by
      by_cases hm : e.monitorable = true
      · rw [List.filter_cons_of_pos (by simpa using hm), List.map_cons, List.nodup_cons] at hd
        refine ⟨hd.2, fun _ e' he' m' hne => hd.1 ?_⟩
        exact List.mem_map.2 ⟨e', List.mem_filter.2 ⟨he', by simpa using m'⟩, hne⟩
      · rw [List.filter_cons_of_neg (by simpa using hm)] at hd
        exact ⟨hd, fun m => absurd m hm⟩
    obtain ⟨i1, i2, i3, i4, i5, i6, i7, i8⟩ := ih (register s e) r1
      (by
        intro e' he' m'
        have := hf e' (List.mem_cons_of_mem _ he') m'
        refine ⟨?_, this.2⟩
        rw [r9]
        rintro (h1 | ⟨h1, h2⟩)
        · exact this.1 h1
        · exact hd'.2 h1 e' he' m' h2) hd'.1
    rw [List.foldl_cons]
    refine ⟨i1, by omega, ?_, ?_, by rw [i5, r6], by rw [i6, r7], ?_, ?_⟩
    · intro b hb
      rw [i3 b (by omega), r3 b hb]
    · intro b e' hb
      rcases i4 b e' hb with h1 | h1
      · by_cases hbn : b = s.next
        · subst hbn
          rw [i3 _ (by omega), r4] at hb
          cases hb
          exact .inr (List.mem_cons_self ..)
        · exact .inl (by omega)
      · exact .inr (List.mem_cons_of_mem _ h1)
    · rw [i7, r8, List.append_assoc]
      by_cases hm : e.monitorable = true
      · simp [hm]
      · simp [hm]
    · intro fd hfd
      exact i8 fd ((r9 fd).2 (.inl hfd))

/-- Changing the flag of an event; closing its descriptor if the flag says so. -/
theorem close_inv {s : St} (h : Inv s) (a : Nat) (e : Ev) (f : Flag) (he : s.heap a = some e) (hm : e.monitorable = true)
    (hc : e.flag.close = false) (hf : f.close = true) : Inv (closeFd (s.put a (some { e with flag := f })) e.fd) := by
  have hlook : ∀ x e', (closeFd (s.put a (some { e with flag := f })) e.fd).heap x = some e' →
      (x = a ∧ e' = { e with flag := f }) ∨ (x ≠ a ∧ s.heap x = some e') := by
    intro x e' h1
    simp only [closeFd, St.put] at h1
    by_cases hx : x = a
    · rw [if_pos hx] at h1; cases h1; exact .inl ⟨hx, rfl⟩
    · rw [if_neg hx] at h1; exact .inr ⟨hx, h1⟩
  refine ⟨?_, ?_, h.mondup, h.undup, ?_, ?_, ?_, ?_⟩
  · intro x
    show x ∈ s.mon ↔ _
    rw [h.mon]
    simp only [closeFd, St.put]
    by_cases hx : x = a
    · subst hx; rw [if_pos rfl]; constructor
      · intro _; exact ⟨_, rfl, hm⟩
      · intro _; exact ⟨e, he, hm⟩
    · rw [if_neg hx]
  · intro x
    show x ∈ s.unmon ↔ _
    rw [h.unmon]
    simp only [closeFd, St.put]
    by_cases hx : x = a
    · subst hx; rw [if_pos rfl]; constructor
      · rintro ⟨e', h1, h2⟩; rw [he] at h1; cases h1; rw [hm] at h2; cases h2
      · rintro ⟨e', h1, h2⟩; cases h1; exact absurd h2 (by simp [hm])
    · rw [if_neg hx]
  · intro x e' h1
    show x < s.next
    rcases hlook x e' h1 with ⟨hx, _⟩ | ⟨_, h2⟩
    · subst hx; exact h.next _ _ he
    · exact h.next _ _ h2
  · intro fd x
    show (fd, x) ∈ s.kern.filter _ ↔ _
    rw [List.mem_filter, h.kern]
    constructor
    · rintro ⟨⟨e', h1, h2, h3, h4⟩, h5⟩
      have hx : x ≠ a := by
        intro hx; subst hx; rw [he] at h1; cases h1; simp [h3] at h5
      refine ⟨e', ?_, h2, h3, h4⟩
      simp only [closeFd, St.put]; rw [if_neg hx]; exact h1
    · rintro ⟨e', h1, h2, h3, h4⟩
      rcases hlook x e' h1 with ⟨hx, r⟩ | ⟨hx, r⟩
      · subst r; rw [hf] at h4; cases h4
      · refine ⟨⟨e', r, h2, h3, h4⟩, ?_⟩
        simp only [bne_iff_ne, ne_eq]
        intro hfd
        exact hx (h.fds x a e' e r he h2 hm h4 hc (by rw [h3, hfd]))
  · intro x y e1 e2 h1 h2 m1 m2 c1 c2 hfd
    rcases hlook x e1 h1 with ⟨ha, r1⟩ | ⟨ha, r1⟩
    · subst r1; rw [hf] at c1; cases c1
    · rcases hlook y e2 h2 with ⟨hb, r2⟩ | ⟨hb, r2⟩
      · subst r2; rw [hf] at c2; cases c2
      · exact h.fds x y e1 e2 r1 r2 m1 m2 c1 c2 hfd
  · intro x e1 h1 m1 c1
    rcases hlook x e1 h1 with ⟨ha, r1⟩ | ⟨ha, r1⟩
    · subst r1; rw [hf] at c1; cases c1
    · show e1.fd ∈ s.files.filter _
      rw [List.mem_filter]
      refine ⟨h.files _ _ r1 m1 c1, ?_⟩
      simp only [bne_iff_ne, ne_eq]
      intro hfd
      exact ha (h.fds x a e1 e r1 he m1 hm c1 hc hfd)

theorem flag_inv {s : St} (h : Inv s) (a : Nat) (e : Ev) (f : Flag) (he : s.heap a = some e)
    (hf : f.close = e.flag.close) : Inv (s.put a (some { e with flag := f })) := by
  have hlook : ∀ x e', (s.put a (some { e with flag := f })).heap x = some e' →
      (x = a ∧ e' = { e with flag := f }) ∨ (x ≠ a ∧ s.heap x = some e') := by
    intro x e' h1
    simp only [St.put] at h1
    by_cases hx : x = a
    · rw [if_pos hx] at h1; cases h1; exact .inl ⟨hx, rfl⟩
    · rw [if_neg hx] at h1; exact .inr ⟨hx, h1⟩
  have hback : ∀ x e', (s.put a (some { e with flag := f })).heap x = some e' →
      ∃ e2, s.heap x = some e2 ∧ e2.monitorable = e'.monitorable ∧ e2.fd = e'.fd ∧ e2.flag.close = e'.flag.close := by
    intro x e' h1
    rcases hlook x e' h1 with ⟨hx, r⟩ | ⟨_, r⟩
    · subst hx; subst r; exact ⟨e, he, rfl, rfl, hf.symm⟩
    · exact ⟨e', r, rfl, rfl, rfl⟩
  have hforth : ∀ x e', s.heap x = some e' →
      ∃ e2, (s.put a (some { e with flag := f })).heap x = some e2 ∧ e2.monitorable = e'.monitorable ∧ e2.fd = e'.fd ∧
        e2.flag.close = e'.flag.close := by
    intro x e' h1
    simp only [St.put]
    by_cases hx : x = a
    · subst hx; rw [he] at h1; cases h1; rw [if_pos rfl]; exact ⟨_, rfl, rfl, rfl, hf⟩
    · rw [if_neg hx]; exact ⟨e', h1, rfl, rfl, rfl⟩
  refine ⟨?_, ?_, h.mondup, h.undup, ?_, ?_, ?_, ?_⟩
  · intro x
    show x ∈ s.mon ↔ _
    rw [h.mon]
    constructor
    · rintro ⟨e', h1, h2⟩; obtain ⟨e2, g1, g2, _⟩ := hforth x e' h1; exact ⟨e2, g1, by rw [g2, h2]⟩
    · rintro ⟨e', h1, h2⟩; obtain ⟨e2, g1, g2, _⟩ := hback x e' h1; exact ⟨e2, g1, by rw [g2, h2]⟩
  · intro x
    show x ∈ s.unmon ↔ _
    rw [h.unmon]
    constructor
    · rintro ⟨e', h1, h2⟩; obtain ⟨e2, g1, g2, _⟩ := hforth x e' h1; exact ⟨e2, g1, by rw [g2, h2]⟩
    · rintro ⟨e', h1, h2⟩; obtain ⟨e2, g1, g2, _⟩ := hback x e' h1; exact ⟨e2, g1, by rw [g2, h2]⟩
  · intro x e' h1
    obtain ⟨e2, g1, _⟩ := hback x e' h1
    exact h.next _ _ g1
  · intro fd x
    show (fd, x) ∈ s.kern ↔ _
    rw [h.kern]
    constructor
    · rintro ⟨e', h1, h2, h3, h4⟩; obtain ⟨e2, g1, g2, g3, g4⟩ := hforth x e' h1; exact ⟨e2, g1, by rw [g2, h2], by rw [g3, h3], by rw [g4, h4]⟩
    · rintro ⟨e', h1, h2, h3, h4⟩; obtain ⟨e2, g1, g2, g3, g4⟩ := hback x e' h1; exact ⟨e2, g1, by rw [g2, h2], by rw [g3, h3], by rw [g4, h4]⟩
  · intro x y e1 e2 h1 h2 m1 m2 c1 c2 hfd
    obtain ⟨f1, g1, g2, g3, g4⟩ := hback x e1 h1
    obtain ⟨f2, k1, k2, k3, k4⟩ := hback y e2 h2
    exact h.fds x y f1 f2 g1 k1 (by rw [g2, m1]) (by rw [k2, m2]) (by rw [g4, c1]) (by rw [k4, c2]) (by rw [g3, k3, hfd])
  · intro x e1 h1 m1 c1
    obtain ⟨f1, g1, g2, g3, g4⟩ := hback x e1 h1
    show e1.fd ∈ s.files
    rw [← g3]
    exact h.files _ _ g1 (by rw [g2, m1]) (by rw [g4, c1])

/-- Removal. -/
theorem unregister_mon {s : St} (h : Inv s) (a : Nat) (e : Ev) (he : s.heap a = some e) (hm : e.monitorable = true) :
    ∃ s', unregister s a = .run s' ∧ Inv s' ∧ s'.next = s.next ∧ s'.heap a = none ∧ (∀ b, b ≠ a → s'.heap b = s.heap b) ∧
      s'.trace = s.trace ∧ s'.masked = s.masked ∧ s'.unmon = s.unmon ∧ s'.files = s.files := by
  have hgen : ∀ k, (∀ fd x, (fd, x) ∈ k ↔ x ≠ a ∧ (fd, x) ∈ s.kern) →
      Inv ({ s with mon := s.mon.erase a, kern := k }.put a none) := by
    intro k hk
    have hlook : ∀ x e', (if x = a then none else s.heap x) = some e' → x ≠ a ∧ s.heap x = some e' := by
      intro x e' h1
      by_cases hx : x = a
      · rw [if_pos hx] at h1; cases h1
      · rw [if_neg hx] at h1; exact ⟨hx, h1⟩
    refine ⟨?_, ?_, h.mondup.erase a, h.undup, ?_, ?_, ?_, ?_⟩
    · intro x
      show x ∈ s.mon.erase a ↔ ∃ e', (if x = a then none else s.heap x) = some e' ∧ _
      rw [h.mondup.mem_erase_iff, h.mon]
      by_cases hx : x = a
      · simp [hx]
      · simp [hx]
    · intro x
      show x ∈ s.unmon ↔ ∃ e', (if x = a then none else s.heap x) = some e' ∧ _
      rw [h.unmon]
      by_cases hx : x = a
      · subst hx; simp [he, hm]
      · simp [hx]
    · intro x e' h1
      exact h.next _ _ (hlook x e' h1).2
    · intro fd x
      show (fd, x) ∈ k ↔ ∃ e', (if x = a then none else s.heap x) = some e' ∧ _
      rw [hk, h.kern]
      by_cases hx : x = a
      · simp [hx]
      · simp [hx]
    · intro x y e1 e2 h1 h2
      exact h.fds x y e1 e2 (hlook x e1 h1).2 (hlook y e2 h2).2
    · intro x e1 h1
      exact h.files x e1 (hlook x e1 h1).2
  unfold unregister
  rw [he]
  dsimp only
  rw [hm]
  simp only [Bool.not_true, Bool.false_eq_true, if_false]
  by_cases hc : e.flag.close = true
  · rw [if_pos hc]
    refine ⟨_, rfl, ?_, rfl, ?_, ?_, rfl, rfl, rfl, rfl⟩
    · apply hgen s.kern
      intro fd x
      constructor
      · intro hx
        refine ⟨?_, hx⟩
        intro hxa; subst hxa
        obtain ⟨e', g1, _, _, g4⟩ := (h.kern _ _).1 hx
        rw [he] at g1; cases g1; rw [hc] at g4; cases g4
      · exact fun hx => hx.2
    · simp [St.put]
    · intro b hb; simp [St.put, hb]
  · rw [if_neg hc]
    have hin : (e.fd, a) ∈ s.kern := (h.kern _ _).2 ⟨e, he, hm, rfl, by simpa using hc⟩
    have hany : s.kern.any (fun p => p.1 == e.fd) = true := List.any_eq_true.2 ⟨_, hin, by simp⟩
    rw [if_pos hany]
    refine ⟨_, rfl, ?_, rfl, ?_, ?_, rfl, rfl, rfl, rfl⟩
    · apply hgen
      intro fd x
      rw [List.mem_filter]
      constructor
      · rintro ⟨h1, h2⟩
        refine ⟨?_, h1⟩
        intro hxa; subst hxa
        obtain ⟨e', g1, _, g3, _⟩ := (h.kern _ _).1 h1
        rw [he] at g1; cases g1; simp [g3] at h2
      · rintro ⟨h1, h2⟩
        refine ⟨h2, ?_⟩
        simp only [bne_iff_ne, ne_eq]
        intro hfd
        obtain ⟨e', g1, g2, g3, g4⟩ := (h.kern _ _).1 h2
        exact h1 (h.fds x a e' e g1 he g2 hm g4 (by simpa using hc) (by rw [g3, hfd]))
    · simp [St.put]
    · intro b hb; simp [St.put, hb]

theorem unregister_line {s : St} (h : Inv s) (a : Nat) (e : Ev) (he : s.heap a = some e) (hm : e.monitorable = false) :
    ∃ s', unregister s a = .run s' ∧ Inv s' ∧ s'.next = s.next ∧ s'.heap a = none ∧ (∀ b, b ≠ a → s'.heap b = s.heap b) ∧
      s'.trace = s.trace ∧ s'.masked = s.masked ∧ s'.unmon = s.unmon.erase a ∧ s'.mon = s.mon := by
  have hlook : ∀ x e', (if x = a then none else s.heap x) = some e' → x ≠ a ∧ s.heap x = some e' := by
    intro x e' h1
    by_cases hx : x = a
    · rw [if_pos hx] at h1; cases h1
    · rw [if_neg hx] at h1; exact ⟨hx, h1⟩
  unfold unregister
  rw [he]
  dsimp only
  rw [hm]
  simp only [Bool.not_false, if_true]
  refine ⟨_, rfl, ⟨?_, ?_, h.mondup, h.undup.erase a, ?_, ?_, ?_, ?_⟩, rfl, ?_, ?_, rfl, rfl, rfl, rfl⟩
  · intro x
    show x ∈ s.mon ↔ ∃ e', (if x = a then none else s.heap x) = some e' ∧ _
    rw [h.mon]
    by_cases hx : x = a
    · subst hx; simp [he, hm]
    · simp [hx]
  · intro x
    show x ∈ s.unmon.erase a ↔ ∃ e', (if x = a then none else s.heap x) = some e' ∧ _
    rw [h.undup.mem_erase_iff, h.unmon]
    by_cases hx : x = a
    · simp [hx]
    · simp [hx]
  · intro x e' h1
    exact h.next _ _ (hlook x e' h1).2
  · intro fd x
    show (fd, x) ∈ s.kern ↔ ∃ e', (if x = a then none else s.heap x) = some e' ∧ _
    rw [h.kern]
    by_cases hx : x = a
    · subst hx; simp [he, hm]
    · simp [hx]
  · intro x y e1 e2 h1 h2
    exact h.fds x y e1 e2 (hlook x e1 h1).2 (hlook y e2 h2).2
  · intro x e1 h1
    exact h.files x e1 (hlook x e1 h1).2
  · simp [St.put]
  · intro b hb; simp [St.put, hb]

end Fly.Dispatch
