import Verif.Master.Spec

set_option linter.all false

namespace Fly.Master

/-- `k` workers more. -/
def forkN (k : Nat) (s : St) : St :=
  { s with table := s.table ++ List.range' s.next k, now := s.now + k,
           live := s.live ++ List.range' s.next k, next := s.next + k }

theorem forkN_zero (s : St) : forkN 0 s = s := by
  simp [forkN]

theorem forkN_succ (k : Nat) (s : St) : forkN k (fork s) = forkN (k + 1) s := by
  simp only [forkN, fork, List.range'_succ, List.append_assoc, List.singleton_append]
  congr 1 <;> omega

def lack (s : St) : Nat := ((if s.req ≤ s.max then s.req else s.max) - s.now).toNat

theorem spawnLoop_eq : ∀ (n : Nat) (s : St), lack s ≤ n → spawnLoop n s = some (forkN (lack s) s)
  | 0, s, h => by
    have : lack s = 0 := by omega
    rw [this, forkN_zero]
    simp only [spawnLoop]
    rw [if_neg]
    unfold lack at this
    split at this <;> omega
  | n + 1, s, h => by
    rw [spawnLoop]
    split
    · rename_i hc
      have h1 : lack s = lack (fork s) + 1 := by
        simp only [lack, fork]
        split <;> omega
      rw [spawnLoop_eq n (fork s) (by omega), forkN_succ, h1]
    · rename_i hc
      have : lack s = 0 := by
        unfold lack
        split <;> omega
      rw [this, forkN_zero]

theorem spawn_eq (s : St) (h : 0 < s.req) : spawn s = .run (forkN (lack s) s) := by
  unfold spawn
  rw [if_neg (by omega), spawnLoop_eq _ _ (by unfold lack; split <;> omega)]

theorem rebalance_eq (s : St) (h : 0 < s.req) : rebalance s = .run (forkN (lack s) s) := by
  unfold rebalance
  split
  · exact spawn_eq s h
  · have : lack s = 0 := by unfold lack; split <;> omega
    rw [this, forkN_zero]

theorem decrement_eq (s : St) (p : Nat) (h : 0 < s.req) :
    decrement s p = .run (forkN (lack (removeWorker s p)) (removeWorker s p)) := by
  unfold decrement
  apply rebalance_eq
  unfold removeWorker
  split <;> exact h

/-! ## Only ends: never too many -/

structure Inv (s : St) : Prop where
  req : 0 < s.req
  sub : s.live.Sublist s.table
  nd : s.table.Nodup
  lt : ∀ p ∈ s.table, p < s.next
  now : s.now = s.table.length
  le : s.table.length ≤ configured s.req s.max
  pend : ∀ i, s.pending = some i → i.pid ∉ s.live ∧ i.pid < s.next ∧ i.pid ∈ s.zombies
  zomb : ∀ p ∈ s.zombies, p < s.next

theorem nodup_append_range {l : List Nat} {n k : Nat} (h : l.Nodup) (hl : ∀ p ∈ l, p < n) :
    (l ++ List.range' n k).Nodup := by
  rw [List.nodup_append]
  refine ⟨h, List.nodup_range', ?_⟩
  intro a ha b hb
  rw [List.mem_range'_1] at hb
  have := hl a ha
  omega

theorem Inv.forkN {s : St} (h : Inv s) : Inv (forkN (lack s) s) := by
  have hnow := h.now
  refine ⟨h.req, ?_, ?_, ?_, ?_, ?_, ?_, ?_⟩
  · exact h.sub.append (List.Sublist.refl _)
  · exact nodup_append_range h.nd h.lt
  · intro p hp
    simp only [Master.forkN, List.mem_append, List.mem_range'_1] at hp ⊢
    rcases hp with hp | hp
    · have := h.lt p hp
      omega
    · omega
  · simp only [Master.forkN, List.length_append, List.length_range']
    omega
  · simp only [Master.forkN, List.length_append, List.length_range']
    have := h.le
    unfold configured at this ⊢
    unfold lack
    split at this <;> split <;> omega
  · intro i hi
    obtain ⟨h1, h2, h3⟩ := h.pend i hi
    refine ⟨?_, ?_, h3⟩
    · simp only [Master.forkN, List.mem_append, List.mem_range'_1, not_or]
      exact ⟨h1, by omega⟩
    · simp only [Master.forkN]
      omega
  · intro p hp
    have := h.zomb p hp
    simp only [Master.forkN]
    omega

theorem live_nodup {s : St} (h : Inv s) : s.live.Nodup := h.nd.sublist h.sub

theorem Inv.removeWorker {s : St} (h : Inv s) {p : Nat} (hp : p ∉ s.live) : Inv (removeWorker s p) := by
  unfold Master.removeWorker
  split
  · rename_i hm
    have hlen : (s.table.erase p).length + 1 = s.table.length := by
      rw [List.length_erase_of_mem hm]
      have := List.length_pos_of_mem hm
      omega
    refine ⟨h.req, ?_, h.nd.erase p, ?_, ?_, ?_, h.pend, h.zomb⟩
    · have := h.sub.erase p
      rwa [List.erase_of_not_mem hp] at this
    · intro q hq
      exact h.lt q (List.mem_of_mem_erase hq)
    · have := h.now
      simp only
      omega
    · have := h.le
      simp only
      omega
  · exact h

theorem Inv.kernel {s : St} (h : Inv s) (p : Nat) (c : Change) (hc : c.ends = true) :
    Inv (kernel s p c) := by
  unfold Master.kernel
  split
  · rename_i hm
    have hlt : p < s.next := h.lt p (h.sub.subset hm)
    have hnot : p ∉ s.live.erase p := by
      rw [(live_nodup h).mem_erase_iff]
      simp
    refine ⟨h.req, ?_, h.nd, h.lt, h.now, h.le, ?_, ?_⟩
    · simp only [hc, if_true]
      exact (List.erase_sublist).trans h.sub
    · intro i hi
      simp only [hc, if_true] at hi ⊢
      split at hi
      · rename_i j hj
        cases hi
        obtain ⟨h1, h2, h3⟩ := h.pend i hj
        exact ⟨fun hx => h1 (List.mem_of_mem_erase hx), h2, List.mem_append_left _ h3⟩
      · cases hi
        exact ⟨hnot, hlt, List.mem_append_right _ (by simp)⟩
    · intro q hq
      simp only [hc, if_true, List.mem_append, List.mem_singleton] at hq
      rcases hq with hq | hq
      · exact h.zomb q hq
      · exact hq ▸ hlt
  · exact h

theorem ends_of {e : Ev} {p c} (h : e = .child p c ∧ (Benign c ∨ ∃ n, c = .exited n)) : c.ends = true := by
  rcases h.2 with (h | h | h | h) | ⟨n, h⟩ <;> subst h <;> rfl

/-- What reading a notification about an ended worker does. -/
theorem handle_eq {s : St} (h : Inv s) {i : Info} (hi : s.pending = some i) :
    step s .handle = sigchld { s with pending := none } i ∧
    waitpid { s with pending := none } i.pid =
      some { s with pending := none, zombies := s.zombies.erase i.pid } ∧
    Inv { s with pending := none, zombies := s.zombies.erase i.pid } := by
  obtain ⟨h1, h2, h3⟩ := h.pend i hi
  refine ⟨?_, ?_, ?_⟩
  · simp only [step, hi]
  · simp only [waitpid, h3, if_true]
  · refine ⟨h.req, h.sub, h.nd, h.lt, h.now, h.le, ?_, ?_⟩
    · intro j hj
      exact absurd hj (by simp)
    · intro q hq
      exact h.zomb q (List.mem_of_mem_erase hq)

theorem step_cases {s : St} (h : Inv s) {i : Info} (hi : s.pending = some i) :
    (∃ t, step s .handle = .run t ∧ Inv t ∧
        ∃ u, u = removeWorker { s with pending := none, zombies := s.zombies.erase i.pid } i.pid ∧
          t = forkN (lack u) u) ∨
    (∃ t k, step s .handle = .ended t k) ∨ step s .handle = .abort := by
  obtain ⟨e1, e2, e3⟩ := handle_eq h hi
  have hp := (h.pend i hi).1
  have good : ∃ t, decrement { s with pending := none, zombies := s.zombies.erase i.pid } i.pid = .run t ∧ Inv t ∧
        ∃ u, u = removeWorker { s with pending := none, zombies := s.zombies.erase i.pid } i.pid ∧
          t = forkN (lack u) u := by
    refine ⟨_, decrement_eq _ _ h.req, ?_, _, rfl, rfl⟩
    exact (e3.removeWorker hp).forkN
  rw [e1]
  unfold sigchld
  rw [e2]
  simp only
  split
  all_goals first
    | exact Or.inl good
    | skip
  split
  · exact Or.inl good
  · split
    · exact Or.inr (Or.inl ⟨_, _, rfl⟩)
    · split
      · exact Or.inr (Or.inl ⟨_, _, rfl⟩)
      · split
        · exact Or.inl good
        · exact Or.inr (Or.inr rfl)

theorem Inv.run : ∀ (es : List Ev) {s t : St}, Inv s → OnlyEnds es → Master.run s es = .run t → Inv t
  | [], s, t, h, _, hr => by
    simp only [Master.run, Out.run.injEq] at hr
    exact hr ▸ h
  | e :: es, s, t, h, ho, hr => by
    have ho' : OnlyEnds es := fun x hx => ho x (List.mem_cons_of_mem _ hx)
    rw [Master.run] at hr
    rcases ho e List.mem_cons_self with he | ⟨p, c, he⟩
    · subst he
      cases hp : s.pending with
      | none =>
        simp only [step, hp] at hr
        exact Inv.run es h ho' hr
      | some i =>
        rcases step_cases h hp with ⟨u, h1, h2, _⟩ | ⟨u, k, h1⟩ | h1
        · rw [h1] at hr
          exact Inv.run es h2 ho' hr
        · rw [h1] at hr
          cases hr
        · rw [h1] at hr
          cases hr
    · have hc := ends_of he
      rw [he.1] at hr
      simp only [step] at hr
      exact Inv.run es (h.kernel p c hc) ho' hr

theorem config_keep (es : List Ev) : ∀ (s t : St), Master.run s es = .run t → t.req = s.req ∧ t.max = s.max := by
  have hfork : ∀ k (s : St), (forkN k s).req = s.req ∧ (forkN k s).max = s.max := fun _ _ => ⟨rfl, rfl⟩
  have hloop : ∀ n (s t : St), spawnLoop n s = some t → t.req = s.req ∧ t.max = s.max := by
    intro n
    induction n with
    | zero =>
      intro s t h
      simp only [spawnLoop] at h
      split at h <;> cases h
      exact ⟨rfl, rfl⟩
    | succ n ih =>
      intro s t h
      rw [spawnLoop] at h
      split at h
      · exact ih (fork s) t h
      · cases h
        exact ⟨rfl, rfl⟩
  have hspawn : ∀ (s t : St), spawn s = .run t → t.req = s.req ∧ t.max = s.max := by
    intro s t h
    unfold spawn at h
    split at h
    · cases h
    · split at h
      · rename_i u hu
        cases h
        exact hloop _ _ _ hu
      · cases h
  have hdec : ∀ (s t : St) p, decrement s p = .run t → t.req = s.req ∧ t.max = s.max := by
    intro s t p h
    have hrm : (removeWorker s p).req = s.req ∧ (removeWorker s p).max = s.max := by
      unfold removeWorker
      split <;> exact ⟨rfl, rfl⟩
    unfold decrement rebalance at h
    split at h
    · have := hspawn _ _ h
      rw [hrm.1, hrm.2] at this
      exact this
    · cases h
      exact hrm
  have hstep : ∀ (s t : St) e, step s e = .run t → t.req = s.req ∧ t.max = s.max := by
    intro s t e h
    cases e with
    | child p c =>
      simp only [step, Out.run.injEq] at h
      subst h
      unfold kernel
      split <;> exact ⟨rfl, rfl⟩
    | handle =>
      simp only [step] at h
      split at h
      · cases h
        exact ⟨rfl, rfl⟩
      · unfold sigchld at h
        split at h
        · cases h
        · rename_i u hu
          have hw : u.req = s.req ∧ u.max = s.max := by
            unfold waitpid at hu
            split at hu
            · cases hu
              exact ⟨rfl, rfl⟩
            · split at hu <;> cases hu
              exact ⟨rfl, rfl⟩
          rw [← hw.1, ← hw.2]
          split at h
          all_goals first
            | exact hdec _ _ _ h
            | skip
          split at h
          · exact hdec _ _ _ h
          · split at h
            · cases h
            · split at h
              · cases h
              · split at h
                · exact hdec _ _ _ h
                · cases h
    | term =>
      simp only [step, terminate] at h
      cases h
  induction es with
  | nil =>
    intro s t h
    simp only [Master.run, Out.run.injEq] at h
    subst h
    exact ⟨rfl, rfl⟩
  | cons e es ih =>
    intro s t h
    rw [Master.run] at h
    split at h
    · rename_i u hu
      have := hstep _ _ _ hu
      have := ih u t h
      omega
    · rename_i hne
      exact absurd h (hne t)

/-- The state after the workers were spawned. -/
def booted (req max : Int) (first : Nat) : St := forkN (configured req max) (St.init req max first)

theorem boot_eq (req max : Int) (first : Nat) (h : 0 < req) :
    spawn (St.init req max first) = .run (booted req max first) := by
  rw [spawn_eq _ h]
  have : lack (St.init req max first) = configured req max := by
    simp only [lack, configured, St.init]
    split <;> omega
  rw [this, booted]

theorem booted_inv (req max : Int) (first : Nat) (h : 0 < req) : Inv (booted req max first) := by
  refine ⟨h, List.Sublist.refl _, ?_, ?_, ?_, ?_, ?_, ?_⟩
  · simp only [booted, forkN, St.init, List.nil_append]
    exact List.nodup_range'
  · intro p hp
    simp only [booted, forkN, St.init, List.nil_append, List.mem_range'_1] at hp ⊢
    omega
  · simp only [booted, forkN, St.init, List.nil_append, List.length_range']
    omega
  · simp only [booted, forkN, St.init, List.nil_append, List.length_range']
    omega
  · intro i hi
    simp [booted, forkN, St.init] at hi
  · intro p hp
    simp [booted, forkN, St.init] at hp

theorem Inv.refresh {s : St} (h : Inv s) : Inv (refresh s) :=
  ⟨h.req, h.sub, h.nd, h.lt, h.now, h.le, fun i hi => by simp [Master.refresh] at hi, h.zomb⟩

/-! ## A worker whose end was not noticed -/

/-- The table keeps `g`, which is gone, and nothing will be said about `g`. -/
structure Ghost (g : Nat) (s : St) : Prop extends Inv s where
  mem : g ∈ s.table
  dead : g ∉ s.live
  quiet : ∀ i, s.pending = some i → i.pid ≠ g

theorem Ghost.lt' {g : Nat} {s : St} (h : Ghost g s) : s.live.length < configured s.req s.max := by
  have h1 := h.sub.erase g
  rw [List.erase_of_not_mem h.dead] at h1
  have h2 := h1.length_le
  rw [List.length_erase_of_mem h.mem] at h2
  have h3 := List.length_pos_of_mem h.mem
  have h4 := h.le
  omega

theorem Ghost.run (g : Nat) : ∀ (es : List Ev) {s t : St}, Ghost g s → OnlyEnds es → Master.run s es = .run t →
    Ghost g t
  | [], s, t, h, _, hr => by
    simp only [Master.run, Out.run.injEq] at hr
    exact hr ▸ h
  | e :: es, s, t, h, ho, hr => by
    have ho' : OnlyEnds es := fun x hx => ho x (List.mem_cons_of_mem _ hx)
    rw [Master.run] at hr
    rcases ho e List.mem_cons_self with he | ⟨p, c, he⟩
    · subst he
      cases hp : s.pending with
      | none =>
        simp only [step, hp] at hr
        exact Ghost.run g es h ho' hr
      | some i =>
        rcases step_cases h.toInv hp with ⟨u, h1, h2, v, hv, hu⟩ | ⟨u, k, h1⟩ | h1
        · rw [h1] at hr
          refine Ghost.run g es ⟨h2, ?_, ?_, ?_⟩ ho' hr
          · subst hu
            simp only [forkN]
            refine List.mem_append_left _ ?_
            subst hv
            unfold removeWorker
            split
            · exact (List.mem_erase_of_ne (Ne.symm (h.quiet i hp))).2 h.mem
            · exact h.mem
          · subst hu
            have hvl : v.live = s.live ∧ v.next = s.next := by
              subst hv
              unfold removeWorker
              split <;> exact ⟨rfl, rfl⟩
            simp only [forkN, List.mem_append, List.mem_range'_1, hvl.1, hvl.2, not_or]
            have := h.lt g h.mem
            exact ⟨h.dead, by omega⟩
          · intro j hj
            subst hu
            have hvp : v.pending = none := by
              subst hv
              unfold removeWorker
              split <;> rfl
            simp [forkN, hvp] at hj
        · rw [h1] at hr
          cases hr
        · rw [h1] at hr
          cases hr
    · have hc := ends_of he
      rw [he.1] at hr
      simp only [step] at hr
      refine Ghost.run g es ⟨h.toInv.kernel p c hc, ?_, ?_, ?_⟩ ho' hr
      · unfold kernel
        split <;> exact h.mem
      · unfold kernel
        split
        · simp only [hc, if_true]
          exact fun hx => h.dead (List.mem_of_mem_erase hx)
        · exact h.dead
      · intro j hj
        unfold kernel at hj
        split at hj
        · rename_i hm
          simp only at hj
          split at hj
          · rename_i k hk
            cases hj
            exact h.quiet _ hk
          · cases hj
            exact fun hx => h.dead (hx ▸ hm)
        · exact h.quiet j hj

/-! ## One by one -/

structure Full (s : St) : Prop extends Inv s where
  same : s.table = s.live
  idle : s.pending = none
  zs : s.zombies = []
  full : s.live.length = configured s.req s.max

theorem Full.round {s : St} (h : Full s) {p : Nat} {c : Change} (hm : p ∈ s.live) (hb : Benign c) :
    ∃ t, Master.run s [.child p c, .handle] = .run t ∧ Full t ∧
      t.live = s.live.erase p ++ [s.next] ∧ t.next = s.next + 1 ∧ t.req = s.req ∧ t.max = s.max := by
  have hc : c.ends = true := by
    rcases hb with h | h | h | h <;> subst h <;> rfl
  have hk : kernel s p c =
      { s with live := s.live.erase p, zombies := [p], pending := some ⟨p, c⟩ } := by
    unfold kernel
    simp only [hm, hc, if_true, h.idle, h.zs, List.nil_append]
  have hkp : (kernel s p c).pending = some ⟨p, c⟩ := by rw [hk]
  have hi := h.toInv.kernel p c hc
  have hs1 : ∀ o, step (kernel s p c) .handle = .run o → Master.run s [.child p c, .handle] = .run o := by
    intro o ho
    have : step s (.child p c) = .run (kernel s p c) := rfl
    rw [Master.run, this]
    simp only
    rw [Master.run, ho]
    rfl
  have hdec : step (kernel s p c) .handle =
      decrement { kernel s p c with pending := none, zombies := (kernel s p c).zombies.erase p } p := by
    obtain ⟨e1, e2, e3⟩ := handle_eq hi hkp
    rw [e1]
    unfold sigchld
    rw [e2]
    rcases hb with h | h | h | h <;> subst h <;> rfl
  have hreq : 0 < ({ kernel s p c with pending := none, zombies := (kernel s p c).zombies.erase p } : St).req := hi.req
  rw [hs1 _ (hdec.trans (decrement_eq _ _ hreq))]
  have hrm : removeWorker { kernel s p c with pending := none, zombies := (kernel s p c).zombies.erase p } p =
      { s with table := s.live.erase p, now := s.now - 1, live := s.live.erase p, zombies := [], pending := none } := by
    rw [hk]
    unfold removeWorker
    have : p ∈ s.table := by rw [h.same]; exact hm
    simp only [this, hm, if_true, h.same, List.erase_cons_head]
  rw [hrm]
  have hpos := List.length_pos_of_mem hm
  have hl : lack { s with table := s.live.erase p, now := s.now - 1, live := s.live.erase p, zombies := [], pending := none } = 1 := by
    have h1 := h.full
    have h2 := h.now
    rw [h.same] at h2
    unfold configured at h1
    unfold lack
    simp only
    split at h1 <;> split <;> omega
  rw [hl]
  have hlen : (s.live.erase p).length + 1 = s.live.length := by
    rw [List.length_erase_of_mem hm]
    omega
  have hnd := live_nodup h.toInv
  refine ⟨_, rfl, ⟨⟨h.req, List.Sublist.refl _, ?_, ?_, ?_, ?_, ?_, ?_⟩, rfl, rfl, rfl, ?_⟩, rfl, rfl, rfl, rfl⟩
  · refine nodup_append_range (hnd.erase p) ?_
    intro q hq
    exact h.lt q (by rw [h.same]; exact List.mem_of_mem_erase hq)
  · intro q hq
    simp only [forkN, List.mem_append, List.mem_range'_1] at hq ⊢
    rcases hq with hq | hq
    · have := h.lt q (by rw [h.same]; exact List.mem_of_mem_erase hq)
      omega
    · omega
  · have := h.now
    rw [h.same] at this
    simp only [forkN, List.length_append, List.length_range']
    omega
  · have := h.full
    simp only [forkN, List.length_append, List.length_range']
    omega
  · intro i hi'
    simp [forkN] at hi'
  · intro q hq
    simp [forkN] at hq
  · have := h.full
    simp only [forkN, List.length_append, List.length_range']
    omega

theorem Full.absent {s : St} (h : Full s) {p : Nat} {c : Change} (hm : p ∉ s.live) :
    Master.run s [.child p c, .handle] = .run s := by
  simp only [Master.run, step, kernel, hm, if_false, h.idle]

theorem run_append : ∀ (a b : List Ev) (s : St), Master.run s (a ++ b) =
    match Master.run s a with
    | .run t => Master.run t b
    | o => o
  | [], b, s => rfl
  | e :: a, b, s => by
    simp only [List.cons_append, Master.run]
    cases step s e with
    | run t => simp only; rw [run_append a b t]
    | _ => rfl

theorem booted_full (req max : Int) (first : Nat) (h : 0 < req) : Full (booted req max first) := by
  refine ⟨booted_inv req max first h, rfl, rfl, rfl, ?_⟩
  simp only [booted, forkN, St.init, List.nil_append, List.length_range']

theorem refresh_booted (req max : Int) (first : Nat) : refresh (booted req max first) = booted req max first := rfl

end Fly.Master
