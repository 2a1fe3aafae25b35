import Verif.Master.Lemmas

/-! # C43, C82, C83: the number of workers, reloading, shutting down -/

namespace Fly.Master

theorem serve_nil (req max : Int) (first : Nat) (h : 0 < req) (late : List Ev) :
    serve req max first [] late = run (booted req max first) late := by
  unfold serve
  rw [boot_eq req max first h]
  rfl

theorem oneByOne_full : ∀ (es : List (Nat × Change)) (s : St), Full s → (∀ e ∈ es, Benign e.2) →
    ∃ t, run s (oneByOne es) = .run t ∧ Full t ∧ t.req = s.req ∧ t.max = s.max
  | [], s, h, _ => ⟨s, rfl, h, rfl, rfl⟩
  | e :: es, s, h, hb => by
    have hs : oneByOne (e :: es) = [.child e.1 e.2, .handle] ++ oneByOne es := rfl
    rw [hs, run_append]
    by_cases hm : e.1 ∈ s.live
    · obtain ⟨t, h1, h2, _, _, h3, h4⟩ := h.round hm (hb e List.mem_cons_self)
      rw [h1]
      obtain ⟨u, g1, g2, g3, g4⟩ := oneByOne_full es t h2 (fun x hx => hb x (List.mem_cons_of_mem _ hx))
      exact ⟨u, g1, g2, g3.trans h3, g4.trans h4⟩
    · rw [h.absent hm]
      exact oneByOne_full es s h (fun x hx => hb x (List.mem_cons_of_mem _ hx))

/-- **C43** (partial: workers end one at a time, each end is noticed before the next, and none is stopped or
continued). After the start there are as many workers as configured. Whatever workers then end, as often as
they do, with success, by an error or by a signal, the number is again the configured one whenever the master
has heard of the end; the worker that ended is not among them and exactly one new one is. -/
theorem C43_partial (req max : Int) (first : Nat) (h : 0 < req) (es : List (Nat × Change))
    (hb : ∀ e ∈ es, Benign e.2) :
    ∃ s, serve req max first [] (oneByOne es) = .run s ∧ s.live.length = configured req max ∧ s.live.Nodup ∧
      ∀ p c, p ∈ s.live → Benign c →
        ∃ t n, serve req max first [] (oneByOne (es ++ [(p, c)])) = .run t ∧ n ∉ s.live ∧
          t.live = s.live.erase p ++ [n] ∧ p ∉ t.live := by
  rw [serve_nil _ _ _ h]
  obtain ⟨s, h1, h2, h3, h4⟩ := oneByOne_full es _ (booted_full req max first h) hb
  refine ⟨s, h1, ?_, live_nodup h2.toInv, ?_⟩
  · rw [h2.full, h3, h4]
    rfl
  · intro p c hm hc
    obtain ⟨t, g1, g2, g3, _⟩ := h2.round hm hc
    have hn : s.next ∉ s.live := fun hx => by
      have := h2.lt s.next (by rw [h2.same]; exact hx)
      omega
    refine ⟨t, s.next, ?_, hn, g3, ?_⟩
    · rw [serve_nil _ _ _ h]
      have : oneByOne (es ++ [(p, c)]) = oneByOne es ++ [.child p c, .handle] := by
        simp [oneByOne]
      rw [this, run_append, h1]
      exact g1
    · rw [g3, List.mem_append, not_or, (live_nodup h2.toInv).mem_erase_iff]
      refine ⟨fun hx => hx.1 rfl, fun hx => ?_⟩
      rw [List.mem_singleton] at hx
      exact hn (hx ▸ hm)

example : ∃ s, serve 3 100 1000 [] (oneByOne [(1001, .killed), (1003, .exited 12)]) = .run s ∧
    s.live = [1000, 1002, 1004] := ⟨_, rfl, by decide⟩

theorem foldl_inv : ∀ (es : List (Nat × Change)) {s : St}, Inv s → (∀ e ∈ es, e.2.ends = true) →
    Inv (es.foldl (fun s e => kernel s e.1 e.2) s) ∧
      (es.foldl (fun s e => kernel s e.1 e.2) s).req = s.req ∧
      (es.foldl (fun s e => kernel s e.1 e.2) s).max = s.max
  | [], s, h, _ => ⟨h, rfl, rfl⟩
  | e :: es, s, h, hb => by
    have := foldl_inv es (h.kernel e.1 e.2 (hb e List.mem_cons_self))
      (fun x hx => hb x (List.mem_cons_of_mem _ hx))
    have hk : (kernel s e.1 e.2).req = s.req ∧ (kernel s e.1 e.2).max = s.max := by
      unfold kernel
      split <;> exact ⟨rfl, rfl⟩
    rw [hk.1, hk.2] at this
    exact this

/-- **C43** (partial: no worker is stopped or continued). The number of workers never exceeds the configured
number, however many workers end, in whatever way and in whatever order the master hears of it. -/
theorem C43_never_more_partial (req max : Int) (first : Nat) (h : 0 < req) (early : List (Nat × Change))
    (late : List Ev) (he : ∀ e ∈ early, Benign e.2) (hl : OnlyEnds late) (s : St)
    (hs : serve req max first early late = .run s) : s.live.length ≤ configured req max := by
  unfold serve at hs
  rw [boot_eq req max first h] at hs
  simp only at hs
  have he' : ∀ e ∈ early, e.2.ends = true := by
    intro e hm
    rcases he e hm with h | h | h | h <;> rw [h] <;> rfl
  obtain ⟨h1, h2, h3⟩ := foldl_inv early (booted_inv req max first h) he'
  have h4 := (h1.refresh).run late hl hs
  have h5 := config_keep late _ _ hs
  have h6 := h4.le
  have h7 := h4.sub.length_le
  have h8 : s.req = req := h5.1.trans h2
  have h9 : s.max = max := h5.2.trans h3
  rw [h8, h9] at h6
  omega

example : ∃ s, serve 3 100 1000 [(1000, .killed)]
    [.child 1001 .killed, .child 1002 .dumped, .handle, .handle, .child 1003 (.exited 0), .handle] = .run s ∧
    s.live = [1004] := ⟨_, rfl, by decide⟩

/-- **C43** is false when workers are stopped (SIGSTOP, a debugger, a terminal): each stopped worker is taken
for one that ended and is replaced, and is still there, stopped or continued (unless the SIGCONT ends it, C154).
There is no bound on the number of worker processes. -/
theorem C43_stopped_refuted (req max : Int) (first : Nat) (h : 0 < configured req max) (k : Nat) :
    ∃ evs s, (∀ e ∈ evs, e = .handle ∨ ∃ p, e = .child p .stopped) ∧
      serve req max first [] evs = .run s ∧ s.live.length = configured req max + k ∧ s.live.Nodup := by
  have hreq : 0 < req := by
    unfold configured at h
    split at h <;> omega
  have key : ∀ k, ∃ evs s, (∀ e ∈ evs, e = .handle ∨ ∃ p, e = .child p .stopped) ∧
      run (booted req max first) evs = .run s ∧ s.live.length = configured req max + k ∧
      s.pending = none ∧ s.zombies = [] ∧ s.now = s.table.length ∧ s.table.length = configured req max ∧
      (∀ p ∈ s.table, p ∈ s.live) ∧ (∀ p ∈ s.live, p < s.next) ∧ s.live.Nodup := by
    intro k
    induction k with
    | zero =>
      have hb := booted_full req max first hreq
      refine ⟨[], _, by simp, rfl, hb.full, hb.idle, hb.zs, hb.now, ?_, ?_, ?_, ?_⟩
      · rw [hb.same]
        exact hb.full
      · rw [hb.same]
        exact fun p hp => hp
      · intro p hp
        exact hb.lt p (by rw [hb.same]; exact hp)
      · exact live_nodup hb.toInv
    | succ k ih =>
      obtain ⟨evs, s, h1, h2, h3, h4, h5, h6, h7, h8, h9, h10⟩ := ih
      have hcfg := config_keep evs _ _ h2
      cases ht : s.table with
      | nil =>
        rw [ht] at h7
        simp only [List.length_nil] at h7
        omega
      | cons w ws =>
        have hw : w ∈ s.live := h8 w (by rw [ht]; exact List.mem_cons_self)
        have hlen : (ws.length : Int) + 1 = s.now := by
          rw [h6, ht, List.length_cons]
          omega
        have hl : lack { s with table := ws, now := s.now - 1, pending := none } = 1 := by
          have e1 : s.req = req := hcfg.1
          have e2 : s.max = max := hcfg.2
          have e3 := h7
          rw [← h7] at h
          unfold configured at e3
          unfold lack
          simp only [e1, e2]
          split at e3 <;> split <;> omega
        have hreq' : 0 < s.req := by rw [hcfg.1]; exact hreq
        have hstep : run s [.child w .stopped, .handle] =
            .run (forkN 1 { s with table := ws, now := s.now - 1, pending := none }) := by
          have a1 : step s (.child w .stopped) = .run { s with pending := some ⟨w, .stopped⟩ } := by
            simp only [step, kernel, hw, if_true, h4, Change.ends, Bool.false_eq_true, if_false]
          have a2 : step { s with pending := some ⟨w, .stopped⟩ } .handle =
              decrement { s with pending := none } w := by
            simp only [step, sigchld, waitpid, h5, List.not_mem_nil, if_false, hw, if_true]
          have a3 : removeWorker { s with pending := none } w =
              { s with table := ws, now := s.now - 1, pending := none } := by
            simp only [removeWorker, ht, List.mem_cons_self, if_true, List.erase_cons_head]
          rw [run, a1]
          simp only
          rw [run, a2, decrement_eq _ _ (by exact hreq'), a3, hl]
          rfl
        refine ⟨evs ++ [.child w .stopped, .handle], _, ?_, by rw [run_append, h2]; exact hstep, ?_, rfl, ?_, ?_, ?_, ?_, ?_, ?_⟩
        · intro e he
          rw [List.mem_append] at he
          rcases he with he | he
          · exact h1 e he
          · simp only [List.mem_cons, List.not_mem_nil, or_false] at he
            rcases he with rfl | rfl
            · exact Or.inr ⟨w, rfl⟩
            · exact Or.inl rfl
        · simp only [forkN, List.length_append, List.length_range']
          omega
        · exact h5
        · simp only [forkN, List.length_append, List.length_range']
          omega
        · simp only [forkN, List.length_append, List.length_range']
          rw [← h7, ht, List.length_cons]
        · intro p hp
          simp only [forkN, List.mem_append] at hp ⊢
          rcases hp with hp | hp
          · exact Or.inl (h8 p (by rw [ht]; exact List.mem_cons_of_mem _ hp))
          · exact Or.inr hp
        · intro p hp
          simp only [forkN, List.mem_append, List.mem_range'_1] at hp ⊢
          rcases hp with hp | hp
          · have := h9 p hp
            omega
          · omega
        · exact nodup_append_range h10 h9
  obtain ⟨evs, s, h1, h2, h3, _, _, _, _, _, _, h10⟩ := key k
  exact ⟨evs, s, h1, by rw [serve_nil _ _ _ hreq]; exact h2, h3, h10⟩

example : 0 < configured 3 100 := by decide

/-- **C43** is false when two workers end before the master reads its signals: only one SIGCHLD is pending at
a time, and the master waits only for the worker it names. The other one is never replaced: after any further
ends there are fewer workers than configured, for ever. -/
theorem C43_two_ends_refuted (req max : Int) (first : Nat) (p q : Nat) (c d : Change)
    (hp : first ≤ p ∧ p < first + configured req max) (hq : first ≤ q ∧ q < first + configured req max)
    (hne : p ≠ q) (hc : Benign c) (hd : Benign d) (late : List Ev) (hl : OnlyEnds late) :
    (∃ s, serve req max first [] [.child p c, .child q d, .handle] = .run s ∧
        s.live.length + 1 = configured req max ∧ s.pending = none) ∧
    ∀ s, serve req max first [] ([.child p c, .child q d, .handle] ++ late) = .run s →
      s.live.length < configured req max := by
  have hreq : 0 < req := by
    obtain ⟨h1, h2⟩ := hp
    unfold configured at h2
    split at h2 <;> omega
  have hce : c.ends = true := by rcases hc with h | h | h | h <;> rw [h] <;> rfl
  have hde : d.ends = true := by rcases hd with h | h | h | h <;> rw [h] <;> rfl
  have hB := booted_full req max first hreq
  have hl0 : (booted req max first).live = List.range' first (configured req max) := by
    simp [booted, forkN, St.init]
  have hpl : p ∈ (booted req max first).live := by
    rw [hl0, List.mem_range'_1]
    exact hp
  have hql : q ∈ (booted req max first).live := by
    rw [hl0, List.mem_range'_1]
    exact hq
  generalize hb : booted req max first = b at *
  have i1 := hB.toInv.kernel p c hce
  have i2 := i1.kernel q d hde
  have k1 : kernel b p c = { b with live := b.live.erase p, zombies := [p], pending := some ⟨p, c⟩ } := by
    simp only [kernel, hpl, hce, if_true, hB.idle, hB.zs, List.nil_append]
  have hql' : q ∈ b.live.erase p := (List.mem_erase_of_ne (Ne.symm hne)).2 hql
  have k2 : kernel (kernel b p c) q d =
      { b with live := (b.live.erase p).erase q, zombies := [p, q], pending := some ⟨p, c⟩ } := by
    rw [k1]
    simp only [kernel, hql', hde, if_true, List.cons_append, List.nil_append]
  have hpend : (kernel (kernel b p c) q d).pending = some ⟨p, c⟩ := by rw [k2]
  obtain ⟨e1, e2, e3⟩ := handle_eq i2 hpend
  have hdec : step (kernel (kernel b p c) q d) .handle =
      decrement { kernel (kernel b p c) q d with pending := none, zombies := (kernel (kernel b p c) q d).zombies.erase p } p := by
    rw [e1]
    unfold sigchld
    rw [e2]
    rcases hc with h | h | h | h <;> subst h <;> rfl
  have hpt : p ∈ b.table := by rw [hB.same]; exact hpl
  have hrm : removeWorker { kernel (kernel b p c) q d with pending := none, zombies := (kernel (kernel b p c) q d).zombies.erase p } p =
      { b with table := b.table.erase p, now := b.now - 1, live := (b.live.erase p).erase q, zombies := [q], pending := none } := by
    rw [k2]
    simp only [removeWorker, hpt, if_true, List.erase_cons_head]
  have hlack : lack { b with table := b.table.erase p, now := b.now - 1, live := (b.live.erase p).erase q, zombies := [q], pending := none } = 1 := by
    have h1 := hB.full
    have h2 := hB.now
    rw [hB.same] at h2
    have h3 := List.length_pos_of_mem hpl
    unfold configured at h1
    unfold lack
    simp only
    split at h1 <;> split <;> omega
  have hfin : step (kernel (kernel b p c) q d) .handle = .run (forkN 1
      { b with table := b.table.erase p, now := b.now - 1, live := (b.live.erase p).erase q, zombies := [q], pending := none }) := by
    have hreq' : 0 < ({ kernel (kernel b p c) q d with pending := none, zombies := (kernel (kernel b p c) q d).zombies.erase p } : St).req := i2.req
    rw [hdec.trans (decrement_eq _ _ hreq'), hrm, hlack]
  have hrun : ∀ es, run b ([.child p c, .child q d, .handle] ++ es) = run (forkN 1
      { b with table := b.table.erase p, now := b.now - 1, live := (b.live.erase p).erase q, zombies := [q], pending := none }) es := by
    intro es
    have a1 : step b (.child p c) = .run (kernel b p c) := rfl
    have a2 : step (kernel b p c) (.child q d) = .run (kernel (kernel b p c) q d) := rfl
    simp only [List.cons_append, List.nil_append]
    rw [run, a1]
    simp only
    rw [run, a2]
    simp only
    rw [run, hfin]
  have hcfg : b.req = req ∧ b.max = max := by subst hb; exact ⟨rfl, rfl⟩
  have hnd := live_nodup hB.toInv
  refine ⟨⟨_, by rw [serve_nil _ _ _ hreq, hb]; exact hrun [], ?_, rfl⟩, ?_⟩
  · have h1 := hB.full
    rw [hcfg.1, hcfg.2] at h1
    have h2 := List.length_pos_of_mem hpl
    have h3 := List.length_pos_of_mem hql'
    simp only [forkN, List.length_append, List.length_range', List.length_erase_of_mem hql',
      List.length_erase_of_mem hpl] at *
    omega
  · intro s hs
    rw [serve_nil _ _ _ hreq, hb, hrun] at hs
    have hstepinv := step_cases i2 hpend
    rw [hfin] at hstepinv
    rcases hstepinv with ⟨t, g1, g2, _⟩ | ⟨t, k, g1⟩ | g1
    · simp only [Out.run.injEq] at g1
      rw [g1] at hs
      have hg : Ghost q t := by
        refine ⟨g2, ?_, ?_, ?_⟩
        · subst g1
          simp only [forkN]
          refine List.mem_append_left _ ?_
          rw [hB.same]
          exact hql'
        · subst g1
          simp only [forkN, List.mem_append, not_or, List.mem_range'_1]
          refine ⟨?_, ?_⟩
          · rw [(hnd.erase p).mem_erase_iff]
            exact fun hx => hx.1 rfl
          · have := hB.lt q (by rw [hB.same]; exact hql)
            omega
        · intro i hi
          subst g1
          simp [forkN] at hi
      have h5 := config_keep late _ _ hs
      have h6 := (Ghost.run q late hg hl hs).lt'
      rw [h5.1, h5.2] at h6
      subst g1
      simp only [forkN, hcfg.1, hcfg.2] at h6
      exact h6
    · cases g1
    · cases g1

example : ∃ s, serve 4 100 1000 [] ([.child 1000 .killed, .child 1003 (.exited 0), .handle] ++
    [.handle, .child 1002 .killed, .handle, .child 1004 .killed, .handle]) = .run s ∧ s.live.length = 3 :=
  ⟨_, rfl, by decide⟩

/-- **C43** is false for a worker that ends before the master has set up its signals: setting them up throws
the notification away, and the worker is never replaced. -/
theorem C43_early_end_refuted (req max : Int) (first : Nat) (q : Nat) (d : Change)
    (hq : first ≤ q ∧ q < first + configured req max) (hd : Benign d) (late : List Ev) (hl : OnlyEnds late) :
    (∃ s, serve req max first [(q, d)] [] = .run s ∧ s.live.length + 1 = configured req max) ∧
    ∀ s, serve req max first [(q, d)] late = .run s → s.live.length < configured req max := by
  have hreq : 0 < req := by
    obtain ⟨h1, h2⟩ := hq
    unfold configured at h2
    split at h2 <;> omega
  have hde : d.ends = true := by rcases hd with h | h | h | h <;> rw [h] <;> rfl
  have hB := booted_full req max first hreq
  have hl0 : (booted req max first).live = List.range' first (configured req max) := by
    simp [booted, forkN, St.init]
  have hql : q ∈ (booted req max first).live := by
    rw [hl0, List.mem_range'_1]
    exact hq
  have hcfg : (booted req max first).req = req ∧ (booted req max first).max = max := ⟨rfl, rfl⟩
  have hsv : ∀ es, serve req max first [(q, d)] es = run (refresh (kernel (booted req max first) q d)) es := by
    intro es
    unfold serve
    rw [boot_eq req max first hreq]
    rfl
  generalize hb : booted req max first = b at *
  have hk : refresh (kernel b q d) = { b with live := b.live.erase q, zombies := [q], pending := none } := by
    simp only [refresh, kernel, hql, hde, if_true, hB.zs, List.nil_append]
  have hi := (hB.toInv.kernel q d hde).refresh
  refine ⟨⟨_, hsv [], ?_⟩, ?_⟩
  · rw [hk]
    have h1 := hB.full
    rw [hcfg.1, hcfg.2] at h1
    have h2 := List.length_pos_of_mem hql
    simp only [List.length_erase_of_mem hql]
    omega
  · intro s hs
    rw [hsv] at hs
    have hg : Ghost q (refresh (kernel b q d)) := by
      refine ⟨hi, ?_, ?_, ?_⟩
      · rw [hk]
        simp only [hB.same]
        exact hql
      · rw [hk]
        simp only [(live_nodup hB.toInv).mem_erase_iff]
        exact fun hx => hx.1 rfl
      · intro i hi'
        rw [hk] at hi'
        simp at hi'
    have h5 := config_keep late _ _ hs
    have h6 := (Ghost.run q late hg hl hs).lt'
    rw [h5.1, h5.2, hk] at h6
    simp only [hcfg.1, hcfg.2] at h6
    exact h6

example : ∃ s, serve 4 100 1000 [(1001, .exited 0)] [.handle, .child 1000 .killed, .handle] = .run s ∧
    s.live.length = 3 := ⟨_, rfl, by decide⟩

/-- **C43** is false for a worker that ends with a status of its own, such as 1 when it cannot be set up: the
master aborts, and nothing replaces workers any more. Statuses 10 and 11 end the server in an orderly way. -/
theorem C43_status_refuted (req max : Int) (first : Nat) (es : List (Nat × Change)) (hb : ∀ e ∈ es, Benign e.2)
    (s : St) (hs : serve req max first [] (oneByOne es) = .run s) (h : 0 < req) (p n : Nat) (hp : p ∈ s.live)
    (h0 : n ≠ 0) (h12 : n ≠ 12) :
    serve req max first [] (oneByOne es ++ [.child p (.exited n), .handle]) =
      if n = 10 ∨ n = 11 then .ended { s with table := [], now := 0, live := s.live.erase p } s.table else .abort := by
  rw [serve_nil _ _ _ h] at hs ⊢
  obtain ⟨t, h1, h2, _⟩ := oneByOne_full es _ (booted_full req max first h) hb
  rw [h1] at hs
  simp only [Out.run.injEq] at hs
  subst hs
  rw [run_append, h1]
  simp only
  have a1 : step t (.child p (.exited n)) =
      .run { t with live := t.live.erase p, zombies := [p], pending := some ⟨p, .exited n⟩ } := by
    simp only [step, kernel, hp, Change.ends, if_true, h2.idle, h2.zs, List.nil_append]
  have a2 : step { t with live := t.live.erase p, zombies := [p], pending := some ⟨p, .exited n⟩ } .handle =
      if n = 10 ∨ n = 11 then .ended { t with table := [], now := 0, live := t.live.erase p } t.table else .abort := by
    have hz := h2.zs
    have hid := h2.idle
    have hnow := h2.now
    have e : t.now - (t.table.length : Int) = 0 := by omega
    simp only [step, sigchld, waitpid, List.mem_singleton, if_true, List.erase_cons_head, h0, if_false, h12, terminate, e]
    by_cases h10 : n = 10
    · simp only [h10, if_true, true_or, hz, hid]
    · by_cases h11 : n = 11
      · simp only [h11, if_true, or_true, hz, hid]
        rfl
      · simp only [h10, h11, if_false, or_self]
  rw [run, a1]
  simp only
  rw [run, a2]
  by_cases hn : n = 10 ∨ n = 11
  · simp only [hn, if_true]
  · simp only [hn, if_false]

example : serve 2 100 1000 [] [.child 1001 (.exited 1), .handle] = .abort := rfl

/-! ## C83: shutting down -/

theorem inv_mem {s : St} (h : Inv s) : ∀ p ∈ s.live, p ∈ s.table := fun _ hp => h.sub.subset hp

/-- **C83** (partial: no worker was stopped or continued before). When the server is ended by SIGINT or
SIGTERM every worker that runs is told to end. -/
theorem C83_partial (req max : Int) (first : Nat) (h : 0 < req) (early : List (Nat × Change)) (late : List Ev)
    (he : ∀ e ∈ early, Benign e.2) (hl : OnlyEnds late) (s : St)
    (hs : serve req max first early late = .run s) :
    ∃ t k, serve req max first early (late ++ [.term]) = .ended t k ∧ t.live = s.live ∧ ∀ p ∈ s.live, p ∈ k := by
  unfold serve at hs ⊢
  rw [boot_eq req max first h] at hs ⊢
  simp only at hs ⊢
  have he' : ∀ e ∈ early, e.2.ends = true := by
    intro e hm
    rcases he e hm with h | h | h | h <;> rw [h] <;> rfl
  obtain ⟨h1, h2, h3⟩ := foldl_inv early (booted_inv req max first h) he'
  have h4 := (h1.refresh).run late hl hs
  rw [run_append, hs]
  exact ⟨_, _, rfl, rfl, inv_mem h4⟩

example : ∃ t, serve 3 100 1000 [] [.child 1001 .killed, .handle, .term] = .ended t [1000, 1002, 1003] ∧
    t.live = [1000, 1002, 1003] := ⟨_, rfl, by decide⟩

/-- **C83** is false once a worker was stopped and continued: it runs and serves, but is not told to end.  (This is
for a worker that has not set up its signals yet; once it has, the SIGCONT it reads ends it, see C154.) -/
theorem C83_stopped_refuted (req max : Int) (first : Nat) (p : Nat)
    (hp : first ≤ p ∧ p < first + configured req max) :
    ∃ t k, serve req max first [] [.child p .stopped, .handle, .child p .continued, .handle, .term] = .ended t k ∧
      p ∈ t.live ∧ p ∉ k := by
  have hreq : 0 < req := by
    obtain ⟨h1, h2⟩ := hp
    unfold configured at h2
    split at h2 <;> omega
  have hB := booted_full req max first hreq
  have hl0 : (booted req max first).live = List.range' first (configured req max) := by
    simp [booted, forkN, St.init]
  have hpl : p ∈ (booted req max first).live := by
    rw [hl0, List.mem_range'_1]
    exact hp
  rw [serve_nil _ _ _ hreq]
  generalize booted req max first = b at *
  have hpt : p ∈ b.table := by rw [hB.same]; exact hpl
  have hnd := hB.nd
  have hlt := hB.lt p hpt
  have a1 : step b (.child p .stopped) = .run { b with pending := some ⟨p, .stopped⟩ } := by
    simp only [step, kernel, hpl, if_true, hB.idle, Change.ends, Bool.false_eq_true, if_false]
  have a2 : step { b with pending := some ⟨p, .stopped⟩ } .handle = decrement { b with pending := none } p := by
    simp only [step, sigchld, waitpid, hB.zs, List.not_mem_nil, if_false, hpl, if_true]
  have a3 : removeWorker { b with pending := none } p =
      { b with table := b.table.erase p, now := b.now - 1, pending := none } := by
    simp only [removeWorker, hpt, if_true]
  obtain ⟨c1, hc1⟩ : ∃ c1, c1 = forkN (lack (removeWorker { b with pending := none } p)) (removeWorker { b with pending := none } p) := ⟨_, rfl⟩
  have a4 : decrement { b with pending := none } p = .run c1 := by
    rw [hc1]
    exact decrement_eq _ _ hB.req
  have m1 : p ∈ c1.live := by
    rw [hc1, a3]
    exact List.mem_append_left _ hpl
  have m2 : p ∉ c1.table := by
    rw [hc1, a3]
    simp only [forkN, List.mem_append, not_or, List.mem_range'_1]
    refine ⟨?_, by omega⟩
    rw [hnd.mem_erase_iff]
    exact fun hx => hx.1 rfl
  have m3 : c1.pending = none := by rw [hc1, a3]; rfl
  have m4 : c1.zombies = [] := by rw [hc1, a3]; exact hB.zs
  have m5 : 0 < c1.req := by rw [hc1, a3]; exact hB.req
  have m6 : p < c1.next := by
    rw [hc1, a3]
    simp only [forkN]
    omega
  have b1 : step c1 (.child p .continued) = .run { c1 with pending := some ⟨p, .continued⟩ } := by
    simp only [step, kernel, m1, if_true, m3, Change.ends, Bool.false_eq_true, if_false]
  have b2 : step { c1 with pending := some ⟨p, .continued⟩ } .handle = decrement { c1 with pending := none } p := by
    simp only [step, sigchld, waitpid, m4, List.not_mem_nil, if_false, m1, if_true]
  have b3 : removeWorker { c1 with pending := none } p = { c1 with pending := none } := by
    simp only [removeWorker, m2, if_false]
  have b4 : decrement { c1 with pending := none } p =
      .run (forkN (lack { c1 with pending := none }) { c1 with pending := none }) := by
    have := decrement_eq { c1 with pending := none } p m5
    rwa [b3] at this
  have fin : run b [.child p .stopped, .handle, .child p .continued, .handle, .term] =
      terminate (forkN (lack { c1 with pending := none }) { c1 with pending := none }) := by
    rw [run, a1]
    simp only
    rw [run, a2, a4]
    simp only
    rw [run, b1]
    simp only
    rw [run, b2, b4]
    rfl
  refine ⟨_, _, fin, ?_, ?_⟩
  · exact List.mem_append_left _ m1
  · simp only [forkN, List.mem_append, not_or, List.mem_range'_1]
    exact ⟨m2, by omega⟩

example : (1000 ≤ 1002 ∧ 1002 < 1000 + configured 3 100) := by decide

/-! ## C82: reloading -/

/-- **C82** (partial: every change but writing the file). In debug mode the application is loaded again when
its file is renamed, removed, or its times or permissions change; reading it does nothing. -/
theorem C82_partial :
    fileChange true .touch = .reload ∧ fileChange true .move = .reload ∧ fileChange true .delete = .reload ∧
      ∀ debug, fileChange debug .look = .continue := by
  refine ⟨by decide, by decide, by decide, ?_⟩
  intro debug
  cases debug <;> decide

/-- **C82** is false for the change people make: saving the file in place aborts the master, with or without
debug mode, since the event that is asked for is not one that is expected. -/
theorem C82_save_refuted (debug : Bool) : fileChange debug .save = .abort := by
  cases debug <;> decide

/-- **C82** is false without debug mode: there too the application is loaded again, because the flag is kept
and never looked at. -/
theorem C82_production_refuted (op : FileOp) (debug : Bool) : fileChange debug op = fileChange true op := by
  cases debug <;> cases op <;> decide

/-- What is asked of the kernel and what is understood differ: of the single events asked for, exactly the two
kinds "closed after writing" and "no longer watched" abort the master. -/
theorem C82_masks (ws : List Watch) (w : Watch) (hw : w ∈ ws) (m : Nat)
    (hm : m = IN_ATTRIB ∨ m = IN_CLOSE_WRITE ∨ m = IN_MOVE_SELF ∨ m = IN_DELETE_SELF ∨ m = IN_IGNORED) :
    reload ws w.wd m = .abort ↔ m = IN_CLOSE_WRITE ∨ m = IN_IGNORED := by
  have hs : ∃ v, searchWp ws w.wd = some v := by
    induction ws with
    | nil => cases hw
    | cons a as ih =>
      rw [searchWp]
      split
      · exact ⟨a, rfl⟩
      · rename_i hne
        rcases List.mem_cons.1 hw with h | h
        · exact absurd (h ▸ rfl) hne
        · exact ih h
  obtain ⟨v, hv⟩ := hs
  unfold reload
  rw [hv]
  simp only
  rcases hm with h | h | h | h | h <;> subst h <;> decide

example : reload [⟨1, true⟩, ⟨2, false⟩] 2 IN_CLOSE_WRITE = .abort := by decide

end Fly.Master
