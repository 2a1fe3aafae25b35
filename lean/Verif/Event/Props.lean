import Verif.Event.Lemmas

namespace Fly.Event

/-! ## C40: time arithmetic -/

/-- **C40**, addition. -/
theorem C40_add (now t : Time) (hn : Norm now) (ht : Norm t) :
    Norm (addFromNow now t) ∧ (addFromNow now t).us = now.us + t.us := add_us now t hn ht

theorem toInt_small (x : Int) (h0 : -2147483648 ≤ x) (h1 : x ≤ 2147483647) : toInt x = x := by unfold toInt; omega

/-- **C40**, subtraction, for seconds of the epoch that fit an `int` (up to 2038). -/
theorem C40_sub_partial (a b : Time) (ha : Norm a) (hb : Norm b) (ha0 : 0 ≤ a.sec) (ha1 : a.sec < 2147483648) (hb0 : 0 ≤ b.sec)
    (hb1 : b.sec < 2147483648) : ∃ t, subTime a b = some t ∧ Norm t ∧ t.us = a.us - b.us := by
  unfold Norm at *
  unfold subTime subInt
  rw [toInt_small _ (by omega) (by omega), toInt_small _ (by omega) (by omega), if_pos (by omega)]
  simp only [Option.map_some, Option.some.injEq, exists_eq_left']
  unfold Time.us
  split
  · simp only; omega
  · simp only; omega

/-- **C40**, comparison, for the same times. -/
theorem C40_cmp_partial (a b : Time) (ha : Norm a) (hb : Norm b) (ha0 : 0 ≤ a.sec) (ha1 : a.sec < 2147483648) (hb0 : 0 ≤ b.sec)
    (hb1 : b.sec < 2147483648) : ∃ c, cmpTime a b = some c ∧ (c = 1 ↔ b.us < a.us) ∧ (c = -1 ↔ a.us < b.us) ∧ (c = 0 ↔ a.us = b.us) := by
  unfold Norm at *
  have h : subInt (toInt a.sec) (toInt b.sec) = some (a.sec - b.sec) := by
    rw [toInt_small _ (by omega) (by omega), toInt_small _ (by omega) (by omega)]
    exact if_pos (by omega)
  unfold cmpTime
  rw [h]
  simp only [Option.map_some, Option.some.injEq, exists_eq_left']
  unfold Time.us
  split
  · omega
  · split
    · omega
    · split
      · omega
      · split <;> omega

/-- **C40** refuted: every time from 2038 on compares as earlier than every time before, or the comparison is undefined. -/
theorem C40_after_2038_refuted (a b : Time) (ha0 : 2147483648 ≤ a.sec) (ha1 : a.sec < 4294967296) (hb0 : 0 < b.sec)
    (hb1 : b.sec < 2147483648) : cmpTime a b = none ∨ cmpTime a b = some (-1) := by
  have h1 : toInt a.sec = a.sec - 4294967296 := by unfold toInt; omega
  have h2 := toInt_small b.sec (by omega) (by omega)
  by_cases hc : -2147483648 ≤ a.sec - 4294967296 - b.sec
  · right
    have h : subInt (toInt a.sec) (toInt b.sec) = some (a.sec - 4294967296 - b.sec) := by
      rw [h1, h2]; exact if_pos (by omega)
    simp only [cmpTime, h, Option.map_some, Option.some.injEq]
    rw [if_neg (by omega), if_pos (by omega)]
  · left
    have h : subInt (toInt a.sec) (toInt b.sec) = none := by
      rw [h1, h2]; exact if_neg (by omega)
    simp only [cmpTime, h, Option.map_none]

/-- **C40**, milliseconds. -/
theorem C40_msec (m : Int) (h : 0 ≤ m) : Norm (ofMsec m) ∧ (ofMsec m).us = m * 1000 := by
  unfold Norm ofMsec Time.us
  simp only
  rw [Int.tdiv_eq_ediv_of_nonneg h, Int.tmod_eq_emod_of_nonneg h]
  omega

example : Norm ⟨1700000000, 999999⟩ ∧ addFromNow ⟨1700000000, 999999⟩ ⟨15, 1⟩ = ⟨1700000016, 0⟩ ∧
    subTime ⟨1700000016, 0⟩ ⟨1700000000, 999999⟩ = some ⟨15, 1⟩ ∧ cmpTime ⟨5, 7⟩ ⟨5, 9⟩ = some (-1) ∧ ofMsec 2500 = ⟨2, 500000⟩ := by
  simp [Norm]; decide

example : cmpTime ⟨2147483648, 0⟩ ⟨2147483647, 0⟩ = none ∧ cmpTime ⟨2147483648, 0⟩ ⟨0, 0⟩ = some (-1) ∧
    cmpTime ⟨4294967295, 0⟩ ⟨1700000000, 0⟩ = some (-1) := by decide

/-! ## C39: the timer index -/

/-- **C39**.  No history misbehaves; after it the index holds exactly the registered events with a deadline, each once, and reads
their current deadline; it is in the order of deadlines; every event knows its node, events without node know that. -/
theorem C39_index_exact (ev : Nat → Ev) (os : List Op) (hok : AllOk (init ev) ⟨[], []⟩ os) :
    ∃ s, run (init ev) os = some s ∧
      (∀ e d, (∃ x ∈ (world os).timers, x.e = e ∧ x.deadline = some d) ↔
        ∃ n ∈ s.index.tree.toList, n.data = e ∧ (s.ev e).abs.us = d) ∧
      (s.index.tree.toList.map (·.data)).Nodup ∧
      s.index.tree.toList.Pairwise (fun a b => (s.ev a.data).abs.us ≤ (s.ev b.data).abs.us) ∧
      (∀ n ∈ s.index.tree.toList, s.index.handles n.data = some n.addr) ∧
      (∀ e, (∀ n ∈ s.index.tree.toList, n.data ≠ e) → s.index.handles e = none) ∧
      s.index.count = s.index.tree.toList.length ∧
      s.mon = (world os).timers.map (·.e) ∧ s.unmon = (world os).files := by
  obtain ⟨s, h1, hi⟩ := run_inv os _ _ (init_inv ev) hok
  have hw : os.foldl specStep ⟨[], []⟩ = world os := rfl
  rw [hw] at hi
  refine ⟨s, h1, ?_, ?_, ?_, ?_, ?_, hi.ci.rb.count, hi.mon, hi.unmon⟩
  · intro e d
    constructor
    · rintro ⟨x, hx, rfl, hd⟩
      have hf : x.e ∈ finite (world os) := (mem_finite _ _).2 ⟨x, hx, rfl, by rw [hd]; simp⟩
      obtain ⟨n, hn, hk⟩ := ci_entry hi.ci hf
      refine ⟨n, hn, ?_, ((hi.evs x hx).2.2.2.2 d hd).2⟩
      rw [(ci_item hi.ci hn).2.1, hk]
    · rintro ⟨n, hn, he, hd⟩
      obtain ⟨h2, h3, h4⟩ := ci_item hi.ci hn
      obtain ⟨x, hx, hxe, hxd⟩ := (mem_finite _ _).1 h2
      rw [h3] at he
      refine ⟨x, hx, by rw [hxe, he], ?_⟩
      cases hdd : x.deadline with
      | none => exact absurd hdd hxd
      | some d' =>
        have := ((hi.evs x hx).2.2.2.2 d' hdd).2
        rw [hxe, he, hd] at this
        rw [this]
  · have : s.index.tree.toList.map (·.data) = s.index.tree.toList.map (·.key) :=
      List.map_congr_left fun n hn => (ci_item hi.ci hn).2.1
    rw [this]
    have hp := hi.ci.rb.abs.map (·.key)
    have h2 : (s.index.tree.toList.map RB.Entry.item).map (·.key) = s.index.tree.toList.map (·.key) := by
      rw [List.map_map]; rfl
    have h3 : ((finite (world os)).map it).map (·.key) = finite (world os) := by
      rw [List.map_map]
      have : ((fun i : RB.Item Nat Nat => i.key) ∘ it) = id := rfl
      rw [this, List.map_id]
    rw [h2, h3] at hp
    exact (hp.nodup_iff).2 hi.ci.nodup
  · refine List.Pairwise.imp_of_mem ?_ hi.ci.rb.sorted
    intro a b ha hb hc
    obtain ⟨ha1, ha2, -⟩ := ci_item hi.ci ha
    obtain ⟨hb1, hb2, -⟩ := ci_item hi.ci hb
    have hN : ∀ k ∈ finite (world os), Norm (s.ev k).abs := by
      intro k hk
      obtain ⟨x, hx, hxe, hxd⟩ := (mem_finite _ _).1 hk
      cases hdd : x.deadline with
      | none => exact absurd hdd hxd
      | some d => rw [← hxe]; exact ((hi.evs x hx).2.2.2.2 d hdd).1
    have h4 := hN _ ha1
    have h5 := hN _ hb1
    rw [ha2, hb2]
    rw [cmp_lt] at hc
    unfold Norm Time.us at *
    omega
  · intro n hn
    obtain ⟨-, h2, h3⟩ := ci_item hi.ci hn
    rw [h2]
    exact hi.ci.rb.handles n hn _ h3
  · intro e he
    cases hc : s.index.handles e with
    | none => rfl
    | some a =>
      exfalso
      obtain ⟨n, hn, hk⟩ := ci_entry hi.ci (hi.ci.hand e (by rw [hc]; simp))
      exact he n hn (by rw [(ci_item hi.ci hn).2.1, hk])

/-! ## C36, C37: marking -/

/-- **C36**.  After any history, marking at a time marks every timer whose deadline has passed. -/
theorem C36_expired_are_marked (ev : Nat → Ev) (os : List Op) (hok : AllOk (init ev) ⟨[], []⟩ os) (s : Mgr)
    (hr : run (init ev) os = some s) (now : Time) (hn : Norm now) (x : Timer) (hx : x ∈ (world os).timers) (d : Int)
    (hd : x.deadline = some d) (hp : d ≤ now.us) : ((mark s now).ev x.e).expired = true := by
  have hi := reach ev os hok s hr
  rw [mark_spec s _ hi now x hx]
  have h := (hi.evs x hx).2.2.2.2 d hd
  have : (s.ev x.e).abs.sec ≤ now.sec := by
    unfold Norm Time.us at *
    omega
  simp [hd, this]

/-- **C37**, what holds: a timer newly marked has a deadline in the current second or earlier, so it is marked less than a second
early, and events without deadline are never marked. -/
theorem C37_less_than_a_second_partial (ev : Nat → Ev) (os : List Op) (hok : AllOk (init ev) ⟨[], []⟩ os) (s : Mgr)
    (hr : run (init ev) os = some s) (now : Time) (hn : Norm now) (x : Timer) (hx : x ∈ (world os).timers)
    (h0 : (s.ev x.e).expired = false) (h1 : ((mark s now).ev x.e).expired = true) :
    ∃ d, x.deadline = some d ∧ d / 1000000 ≤ now.us / 1000000 ∧ d < now.us + 1000000 := by
  have hi := reach ev os hok s hr
  rw [mark_spec s _ hi now x hx, h0, Bool.false_or, decide_eq_true_eq] at h1
  cases hd : x.deadline with
  | none => exact absurd hd h1.1
  | some d =>
    have h := (hi.evs x hx).2.2.2.2 d hd
    refine ⟨d, rfl, ?_, ?_⟩
    · unfold Norm Time.us at *; omega
    · unfold Norm Time.us at *; omega

/-- **C37** refuted: after any history every timer whose deadline is still to come in the current second is marked. -/
theorem C37_same_second_refuted (ev : Nat → Ev) (os : List Op) (hok : AllOk (init ev) ⟨[], []⟩ os) (s : Mgr)
    (hr : run (init ev) os = some s) (now : Time) (hn : Norm now) (x : Timer) (hx : x ∈ (world os).timers) (d : Int)
    (hd : x.deadline = some d) (_hlater : now.us < d) (hsame : d / 1000000 = now.us / 1000000) :
    ((mark s now).ev x.e).expired = true := by
  have hi := reach ev os hok s hr
  rw [mark_spec s _ hi now x hx]
  have h := (hi.evs x hx).2.2.2.2 d hd
  have : (s.ev x.e).abs.sec ≤ now.sec := by
    unfold Norm Time.us at *
    omega
  simp [hd, this]

/-- A timer due in 15 seconds and one due in 2, an event without timeout, a log write, changes and a removal. -/
def demoOps : List Op :=
  [.add 1 true false true ⟨15, 0⟩ ⟨100, 300000⟩ 901, .add 2 true false true ⟨2, 0⟩ ⟨100, 300000⟩ 902, .add 3 true true false ⟨0, 0⟩ ⟨100, 400000⟩ 903,
   .add 4 false false false ⟨0, 0⟩ ⟨100, 400000⟩ 904, .modify 2 false true false none ⟨101, 0⟩ 902, .modify 1 false false true (some ⟨3, 0⟩) ⟨101, 0⟩ 905,
   .extend 1 ⟨101, 500000⟩ ⟨101, 500001⟩ 901, .remove 4]

def freshB (s : Mgr) (n : Nat) : Bool := s.index.tree.toList.all fun x => x.addr != n

def normB (t : Time) : Bool := 0 ≤ t.usec && t.usec < 1000000

def okB (s : Mgr) (w : World) : Op → Bool
  | .add e _ _ _ t now n => (w.timers.all fun x => x.e != e) && !w.files.contains e && normB t && normB now && freshB s n
  | .modify e inf inh _ t now n =>
    (w.timers.any fun x => x.e == e && (!inh || inf || x.deadline.isSome)) && t.all normB && normB now &&
    match deleteIndex s e with | some s' => freshB s' n | none => true
  | .extend e now now' n => (w.timers.any fun x => x.e == e) && normB now && normB now' &&
    match deleteIndex s e with | some s' => freshB s' n | none => true
  | .remove e => (w.timers.any fun x => x.e == e) || w.files.contains e
  | .tick now => normB now

def allOkB : Mgr → World → List Op → Bool
  | _, _, [] => true
  | s, w, o :: os => okB s w o && match step s o with | some s' => allOkB s' (specStep w o) os | none => true

theorem normB_sound (t : Time) (h : normB t = true) : Norm t := by simpa [normB, Norm] using h

theorem freshB_sound (s : Mgr) (n : Nat) (h : freshB s n = true) : Fresh s n := by simpa [freshB, Fresh] using h

theorem allOkB_sound : ∀ (os : List Op) (s : Mgr) (w : World), allOkB s w os = true → AllOk s w os
  | [], _, _, _ => trivial
  | o :: os, s, w, h => by
    simp only [allOkB, Bool.and_eq_true] at h
    obtain ⟨h1, h2⟩ := h
    have hrest : ∀ s', step s o = some s' → AllOk s' (specStep w o) os := by
      intro s' hs
      rw [hs] at h2
      exact allOkB_sound os s' _ h2
    cases o with
    | add e mon inf handler t now n =>
      simp only [okB, Bool.and_eq_true] at h1
      obtain ⟨⟨⟨⟨a, b⟩, c⟩, d⟩, f⟩ := h1
      exact ⟨⟨by simpa using a, by simpa using b, normB_sound _ c, normB_sound _ d⟩, freshB_sound _ _ f, hrest⟩
    | modify e inf inh clear t now n =>
      simp only [okB, Bool.and_eq_true] at h1
      obtain ⟨⟨⟨a, b⟩, c⟩, d⟩ := h1
      refine ⟨⟨?_, ?_, normB_sound _ c⟩, ?_, hrest⟩
      · simp only [List.any_eq_true, Bool.and_eq_true, beq_iff_eq, Bool.or_eq_true, Bool.not_eq_true'] at a
        obtain ⟨x, hx, he, ha⟩ := a
        refine ⟨x, hx, he, ?_⟩
        intro hinh
        rcases ha with (ha | ha) | ha
        · rw [hinh] at ha; simp at ha
        · exact Or.inl ha
        · right; intro hc; rw [hc] at ha; simp at ha
      · intro t' ht'
        simp only [Option.mem_def] at ht'
        subst ht'
        exact normB_sound _ b
      · intro s' hs
        rw [hs] at d
        exact freshB_sound _ _ d
    | extend e now now' n =>
      simp only [okB, Bool.and_eq_true] at h1
      obtain ⟨⟨⟨a, b⟩, c⟩, d⟩ := h1
      refine ⟨⟨by simpa using a, normB_sound _ b, normB_sound _ c⟩, ?_, hrest⟩
      intro s' hs
      rw [hs] at d
      exact freshB_sound _ _ d
    | remove e =>
      refine ⟨?_, trivial, hrest⟩
      simpa [okB, Legal] using h1
    | tick now => exact ⟨normB_sound _ h1, trivial, hrest⟩

def ev0 : Nat → Ev := fun _ => ⟨⟨0, 0⟩, ⟨0, 0⟩, false, false, false, false, false, false⟩

example : AllOk (init ev0) ⟨[], []⟩ demoOps := allOkB_sound _ _ _ (by decide +kernel)

example : world demoOps = ⟨[⟨1, some 104500000, 3000000, true⟩, ⟨2, some 102300000, 2000000, true⟩, ⟨3, none, 0, false⟩], []⟩ := by
  decide +kernel

/-- At 102.0 s timer 2, due at 102.3 s, is marked, timer 1 is not. -/
example : ((run (init ev0) demoOps).map fun s => ((mark s ⟨102, 0⟩).ev 1).expired) = some false ∧
    ((run (init ev0) demoOps).map fun s => ((mark s ⟨102, 0⟩).ev 2).expired) = some true := by decide +kernel

/-! ## C38: the poll timeout -/

theorem milliDiff_near (t now : Time) (ht : Norm t) (hn : Norm now) (h0 : -2147480000000 < t.us - now.us) (h1 : t.us - now.us < 2147480000000) :
    (t.us ≤ now.us → milliDiff t now ≤ 0) ∧ (now.us < t.us → 0 ≤ milliDiff t now ∧ 1000 * milliDiff t now - (t.us - now.us) < 1000 ∧
      (t.us - now.us) - 1000 * milliDiff t now < 1000) := by
  unfold Norm Time.us at *
  unfold milliDiff
  have hd : (t.usec - now.usec).tdiv 1000 = if 0 ≤ t.usec - now.usec then (t.usec - now.usec) / 1000 else -((now.usec - t.usec) / 1000) := by
    split
    · rename_i h; exact Int.tdiv_eq_ediv_of_nonneg h
    · rename_i h
      have : t.usec - now.usec = -(now.usec - t.usec) := by omega
      rw [this, Int.neg_tdiv, Int.tdiv_eq_ediv_of_nonneg (by omega)]
  rw [hd]
  rw [toInt_small (1000 * (t.sec - now.sec)) (by omega) (by omega)]
  split
  · rw [toInt_small _ (by omega) (by omega)]
    omega
  · rw [toInt_small _ (by omega) (by omega)]
    omega

/-- **C38**.  After any history: without deadlines the loop waits for ever; otherwise, if the first deadline is within 24 days of
now, it does not wait when that has passed, and else waits until then, to a precision of a millisecond. -/
theorem C38_poll_timeout_partial (ev : Nat → Ev) (os : List Op) (hok : AllOk (init ev) ⟨[], []⟩ os) (s : Mgr)
    (hr : run (init ev) os = some s) (now : Time) (hn : Norm now) :
    ((∀ x ∈ (world os).timers, x.deadline = none) → pollTimeout s now = -1) ∧
    (∀ x ∈ (world os).timers, ∀ d, x.deadline = some d → (∀ y ∈ (world os).timers, ∀ d', y.deadline = some d' → d ≤ d') →
      -2147480000000 < d - now.us → d - now.us < 2147480000000 →
      (d ≤ now.us → pollTimeout s now = 0) ∧
      (now.us < d → 0 ≤ pollTimeout s now ∧ 1000 * pollTimeout s now - (d - now.us) < 1000 ∧ (d - now.us) - 1000 * pollTimeout s now < 1000)) := by
  have hi := reach ev os hok s hr
  obtain ⟨n1, n2⟩ := nearest_spec s _ hi
  refine ⟨fun h => by simp [pollTimeout, n1.2 h], ?_⟩
  intro x hx d hd hmin hlo hhi
  unfold pollTimeout
  cases hne : nearest s with
  | none =>
    have := n1.1 hne x hx
    rw [hd] at this
    simp at this
  | some e =>
    obtain ⟨y, hy, hye, d', hd', hmin'⟩ := n2 e hne
    have heq : d' = d := by
      have h1 := hmin y hy d' hd'
      have h2 := hmin' x hx d hd
      omega
    subst heq
    obtain ⟨g1, g2⟩ := (hi.evs y hy).2.2.2.2 d' hd'
    rw [hye] at g1 g2
    have hm := milliDiff_near (s.ev e).abs now g1 hn (by rw [g2]; exact hlo) (by rw [g2]; exact hhi)
    rw [g2] at hm
    simp only
    refine ⟨?_, ?_⟩
    · intro h
      have := hm.1 h
      split <;> omega
    · intro h
      have := hm.2 h
      rw [if_neg (by omega)]
      exact this

/-- **C38** refuted: if the first deadline is 25 to 49 days away the loop does not wait at all (it spins). -/
theorem C38_far_deadline_spins_refuted (ev : Nat → Ev) (os : List Op) (hok : AllOk (init ev) ⟨[], []⟩ os) (s : Mgr)
    (hr : run (init ev) os = some s) (now : Time) (hn : Norm now) (x : Timer) (hx : x ∈ (world os).timers) (d : Int)
    (hd : x.deadline = some d) (hmin : ∀ y ∈ (world os).timers, ∀ d', y.deadline = some d' → d ≤ d')
    (h1 : 2160000000000 ≤ d - now.us) (h2 : d - now.us ≤ 4233600000000) : pollTimeout s now = 0 := by
  have hi := reach ev os hok s hr
  obtain ⟨n1, n2⟩ := nearest_spec s _ hi
  unfold pollTimeout
  cases hne : nearest s with
  | none =>
    have := n1.1 hne x hx
    rw [hd] at this
    simp at this
  | some e =>
    obtain ⟨y, hy, hye, d', hd', hmin'⟩ := n2 e hne
    have heq : d' = d := by
      have h1 := hmin y hy d' hd'
      have h2 := hmin' x hx d hd
      omega
    subst heq
    obtain ⟨g1, g2⟩ := (hi.evs y hy).2.2.2.2 d' hd'
    rw [hye] at g1 g2
    have hneg : milliDiff (s.ev e).abs now < 0 := by
      generalize (s.ev e).abs = t at g1 g2
      unfold Norm Time.us at *
      unfold milliDiff
      have h3 : toInt (1000 * (t.sec - now.sec)) = 1000 * (t.sec - now.sec) - 4294967296 := by unfold toInt; omega
      have h4 : (t.usec - now.usec).tdiv 1000 < 1000 ∧ -1000 < (t.usec - now.usec).tdiv 1000 := by
        by_cases h : 0 ≤ t.usec - now.usec
        · rw [Int.tdiv_eq_ediv_of_nonneg h]; omega
        · have : t.usec - now.usec = -(now.usec - t.usec) := by omega
          rw [this, Int.neg_tdiv, Int.tdiv_eq_ediv_of_nonneg (by omega)]
          omega
      rw [h3, toInt_small _ (by omega) (by omega)]
      omega
    simp only
    rw [if_pos hneg]

example : (run (init ev0) demoOps).map (fun s => pollTimeout s ⟨101, 600000⟩) = some 700 := by decide +kernel

/-- A timeout of thirty days. -/
def monthOps : List Op := [.add 1 true false true ⟨2592000, 0⟩ ⟨100, 0⟩ 901]

example : AllOk (init ev0) ⟨[], []⟩ monthOps ∧ (run (init ev0) monthOps).map (fun s => pollTimeout s ⟨101, 0⟩) = some 0 :=
  ⟨allOkB_sound _ _ _ (by decide +kernel), by decide +kernel⟩

/-! ## C76: expired timers fire -/

theorem unregisterAll_inv : ∀ (es : List Nat) (s : Mgr) (w : World), Inv s w → es.Nodup → (∀ e ∈ es, ∃ x ∈ w.timers, x.e = e) →
    ∃ s', unregisterAll s es = some s' ∧ Inv s' { w with timers := w.timers.filter fun x => decide (x.e ∉ es) } ∧ s'.ev = s.ev
  | [], s, w, hi, _, _ => by
    refine ⟨s, rfl, ?_, rfl⟩
    have : (w.timers.filter fun x => decide (x.e ∉ ([] : List Nat))) = w.timers := by simp
    rw [this]
    exact hi
  | e :: es, s, w, hi, hn, hm => by
    obtain ⟨x, hx, hxe⟩ := hm e (by simp)
    obtain ⟨s1, h1, h2, h3⟩ := remove_inv s w hi e (Or.inl ⟨x, hx, hxe⟩)
    rw [List.nodup_cons] at hn
    have hef : e ∉ w.files := fun hc => (List.nodup_append.1 hi.nodup).2.2 e (by rw [← hxe]; exact List.mem_map_of_mem hx) e hc rfl
    obtain ⟨s2, h4, h5, h6⟩ := unregisterAll_inv es s1 _ h2 hn.2 (by
      intro e' he'
      obtain ⟨y, hy, hye⟩ := hm e' (by simp [he'])
      refine ⟨y, ?_, hye⟩
      simp only [specStep, List.mem_filter]
      refine ⟨hy, ?_⟩
      simp only [ne_eq, decide_not, Bool.not_eq_true', decide_eq_false_iff_not]
      rw [hye]
      rintro rfl
      exact hn.1 he')
    refine ⟨s2, by simp [unregisterAll, h1, h4], ?_, by rw [h6, h3]⟩
    have e1 : (w.files.filter fun x => decide (x ≠ e)) = w.files := by
      rw [List.filter_eq_self]
      intro y hy
      simp only [ne_eq, decide_not, Bool.not_eq_true', decide_eq_false_iff_not]
      rintro rfl
      exact hef hy
    have e2 : (w.timers.filter fun x => decide (x.e ∉ e :: es)) = (w.timers.filter fun x => decide (x.e ≠ e)).filter fun x => decide (x.e ∉ es) := by
      rw [List.filter_filter]
      apply List.filter_congr
      intro y _
      by_cases h1 : y.e = e <;> by_cases h2 : y.e ∈ es <;> simp [h1, h2]
    simp only [specStep, e1] at h5
    rw [e2]
    exact h5

/-- **C76**, what holds.  After any history, a turn of the loop in which nothing is ready calls the expired handler of every timer
that has one and whose deadline has passed, and unregisters it; only timers marked now or before are fired. -/
theorem C76_quiet_turn_fires_partial (ev : Nat → Ev) (os : List Op) (hok : AllOk (init ev) ⟨[], []⟩ os) (s : Mgr)
    (hr : run (init ev) os = some s) (now : Time) (hn : Norm now) :
    ∃ s' f, loop s [⟨now, 0, []⟩] = some (s', f) ∧
      (∀ x ∈ (world os).timers, ∀ d, x.deadline = some d → d ≤ now.us → x.handler = true → x.e ∈ f) ∧
      (∀ e ∈ f, e ∉ s'.mon ∧ (∀ n ∈ s'.index.tree.toList, n.data ≠ e) ∧ ∃ x ∈ (world os).timers, x.e = e ∧ x.handler = true ∧
        ((s.ev e).expired = true ∨ ∃ d, x.deadline = some d ∧ d < now.us + 1000000)) ∧
      (∀ x ∈ (world os).timers, x.e ∉ f → x.e ∈ s'.mon) := by
  have hi := reach ev os hok s hr
  have hi' := mark_inv s _ hi now
  have hmem : ∀ e, e ∈ fired (mark s now) ↔ ∃ x ∈ (world os).timers, x.e = e ∧ ((mark s now).ev e).expired = true ∧ x.handler = true := by
    intro e
    simp only [fired, List.mem_filter, hi'.mon, List.mem_map, Bool.and_eq_true]
    constructor
    · rintro ⟨⟨x, hx, rfl⟩, h1, h2⟩
      rw [(hi'.evs x hx).2.2.2.1] at h2
      exact ⟨x, hx, rfl, h1, h2⟩
    · rintro ⟨x, hx, rfl, h1, h2⟩
      refine ⟨⟨x, hx, rfl⟩, h1, ?_⟩
      rw [(hi'.evs x hx).2.2.2.1]
      exact h2
  have hnd : (fired (mark s now)).Nodup := by
    unfold fired
    rw [hi'.mon]
    exact ((List.nodup_append.1 hi'.nodup).1).filter _
  obtain ⟨s2, h1, h2, h3⟩ := unregisterAll_inv (fired (mark s now)) (mark s now) _ hi' hnd (by
    intro e he
    obtain ⟨x, hx, hxe, _⟩ := (hmem e).1 he
    exact ⟨x, hx, hxe⟩)
  refine ⟨s2, fired (mark s now), ?_, ?_, ?_, ?_⟩
  · simp [loop, turnFires, h1, run]
  · intro x hx d hd hp hh
    refine (hmem _).2 ⟨x, hx, rfl, ?_, hh⟩
    exact C36_expired_are_marked ev os hok s hr now hn x hx d hd hp
  · intro e he
    obtain ⟨x, hx, hxe, hexp, hh⟩ := (hmem e).1 he
    refine ⟨?_, ?_, x, hx, hxe, hh, ?_⟩
    · rw [h2.mon]
      simp only [List.mem_map, List.mem_filter, not_exists, not_and, and_imp]
      intro y hy hye he'
      rw [he'] at hye
      simp [he] at hye
    · intro n hn' hne
      obtain ⟨g1, g2, -⟩ := ci_item h2.ci hn'
      rw [← g2, hne] at g1
      obtain ⟨y, hy, hye, -⟩ := (mem_finite _ _).1 g1
      simp only [List.mem_filter] at hy
      rw [hye] at hy
      simp [he] at hy
    · cases h0 : (s.ev e).expired with
      | true => exact Or.inl rfl
      | false =>
        right
        rw [← hxe] at h0 hexp
        obtain ⟨d, hd, -, hd2⟩ := C37_less_than_a_second_partial ev os hok s hr now hn x hx h0 hexp
        exact ⟨d, hd, hd2⟩
  · intro x hx hxf
    rw [h2.mon]
    simp only [List.mem_map, List.mem_filter]
    exact ⟨x, ⟨hx, by simp [hxf]⟩, rfl⟩

/-- **C76** refuted: as long as in every turn some event is ready, no expired handler is ever called, however long deadlines have
passed. -/
theorem C76_busy_loop_starves_refuted : ∀ (ts : List Turn) (s : Mgr), (∀ t ∈ ts, t.ready ≠ 0) → ∀ s' f, loop s ts = some (s', f) → f = []
  | [], s, _, s', f, h => by
    simp only [loop, Option.some.injEq, Prod.mk.injEq] at h
    exact h.2.symm
  | t :: ts, s, hb, s', f, h => by
    simp only [loop, turnFires, if_neg (hb t (by simp)), Option.bind_eq_some_iff, Option.map_eq_some_iff] at h
    obtain ⟨s1, h1, s2, h2, ⟨s3, f3⟩, h3, h4⟩ := h
    simp only [List.nil_append, Prod.mk.injEq] at h4
    rw [← h4.2]
    exact C76_busy_loop_starves_refuted ts s2 (fun t ht => hb t (by simp [ht])) s3 f3 h3

/-- Ten seconds after its deadline a connection is still there; the turn that is not busy closes it. -/
example : ((run (init ev0) demoOps).bind fun s => loop s [⟨⟨112, 0⟩, 1, []⟩, ⟨⟨113, 0⟩, 2, []⟩]).map (·.2) = some [] ∧
    ((run (init ev0) demoOps).bind fun s => loop s [⟨⟨112, 0⟩, 1, []⟩, ⟨⟨113, 0⟩, 0, []⟩]).map (·.2) = some [1, 2] := by decide +kernel

/-- **C37** refuted: an HTTP/2 connection that is marked in the turn in which it receives a frame keeps the mark although its
deadline moves, and the next turn without ready events closes it however far its deadline is. -/
theorem C37_extended_still_closed_refuted (ev : Nat → Ev) (os : List Op) (now1 now2 now2' now3 : Time) (n : Nat) (x : Timer)
    (hok : AllOk (init ev) ⟨[], []⟩ (os ++ [.tick now1, .extend x.e now2 now2' n])) (s : Mgr)
    (hr : run (init ev) (os ++ [.tick now1, .extend x.e now2 now2' n]) = some s) (hx : x ∈ (world os).timers) (hh : x.handler = true)
    (d : Int) (hd : x.deadline = some d) (hp : d ≤ now1.us) (h3 : Norm now3) :
    (∃ y ∈ (world (os ++ [.tick now1, .extend x.e now2 now2' n])).timers, y.e = x.e ∧ y.deadline = some (now2.us + x.length)) ∧
    ∃ s' f, loop s [⟨now3, 0, []⟩] = some (s', f) ∧ x.e ∈ f := by
  -- split the history
  have split : ∀ (os os' : List Op) (s0 : Mgr) (w0 : World), AllOk s0 w0 (os ++ os') → ∀ s, run s0 (os ++ os') = some s →
      ∃ s1, run s0 os = some s1 ∧ AllOk s0 w0 os ∧ AllOk s1 (os.foldl specStep w0) os' ∧ run s1 os' = some s := by
    intro os
    induction os with
    | nil => intro os' s0 w0 h s hr; exact ⟨s0, rfl, trivial, h, hr⟩
    | cons o os ih =>
      intro os' s0 w0 h s hr
      simp only [List.cons_append, run, Option.bind_eq_some_iff] at hr
      obtain ⟨s1, h1, h2⟩ := hr
      obtain ⟨hl, hm, hrest⟩ := h
      obtain ⟨s2, g1, g2, g3, g4⟩ := ih os' s1 _ (hrest s1 h1) s h2
      refine ⟨s2, by simp [run, h1, g1], ⟨hl, hm, ?_⟩, g3, g4⟩
      intro s1' hs1'
      rw [h1] at hs1'
      simp only [Option.some.injEq] at hs1'
      subst hs1'
      exact g2
  obtain ⟨s1, g1, g2, g3, g4⟩ := split os _ _ _ hok s hr
  have hi := reach ev os g2 s1 g1
  have hi1 := mark_inv s1 _ hi now1
  obtain ⟨hl1, -, hrest⟩ := g3
  obtain ⟨hl2, hm2, -⟩ := hrest _ rfl
  have hmk := C36_expired_are_marked ev os g2 s1 g1 now1 hl1 x hx d hd hp
  have hev := hi1.evs x hx
  have hA := add_us now2 ((mark s1 now1).ev x.e).timeout hl2.2.1 hev.2.1
  let v : Ev := { (mark s1 now1).ev x.e with abs := addFromNow now2 ((mark s1 now1).ev x.e).timeout, infinity := false, inherit := true, modify := true }
  obtain ⟨s', h1, h2, h4⟩ := modify_inv (mark s1 now1) _ hi1 x.e v x hx rfl now2' n hl2.2.2 rfl hev.1 hev.2.1 (fun _ _ => hA.1) hm2
  have hss : s' = s := by
    have : ((restart (mark s1 now1) x.e now2).set x.e fun v => { v with infinity := false, inherit := true, modify := true }) = (mark s1 now1).set x.e fun _ => v := by
      simp only [restart, setDeadline, Mgr.set, v]
      congr 1
      funext y
      by_cases hy : y = x.e <;> simp [hy]
    simp only [run, step, Option.bind_some] at g4
    rw [this, h1] at g4
    simpa using g4
  subst hss
  have hW : world (os ++ [.tick now1, .extend x.e now2 now2' n]) = (world os).upd x.e fun y => ⟨x.e, some (now2.us + y.length), y.length, y.handler⟩ := by
    simp [world, List.foldl_append, specStep]
  have hy : (⟨x.e, some (now2.us + x.length), x.length, x.handler⟩ : Timer) ∈ (world (os ++ [.tick now1, .extend x.e now2 now2' n])).timers := by
    rw [hW]
    simp only [World.upd, List.mem_map]
    exact ⟨x, hx, by simp⟩
  refine ⟨⟨_, hy, rfl, rfl⟩, ?_⟩
  have hexp : (s'.ev x.e).expired = true := by
    have := h4 x.e
    simp only [if_true] at this
    rw [this]
    exact hmk
  have hiF := reach ev _ hok s' hr
  obtain ⟨s'', f, e1, -, -, e4⟩ := C76_quiet_turn_fires_partial ev _ hok s' hr now3 h3
  refine ⟨s'', f, e1, ?_⟩
  have hf : f = fired (mark s' now3) := by
    simp only [loop, turnFires, if_true, run, Option.bind_eq_some_iff, Option.map_some, Option.some.injEq, List.append_nil, Prod.mk.injEq] at e1
    obtain ⟨-, -, -, -, -, h⟩ := e1
    exact h.symm
  rw [hf]
  simp only [fired, List.mem_filter, Bool.and_eq_true]
  refine ⟨?_, ?_, ?_⟩
  · rw [(mark_rest s' now3).2.1, hiF.mon]
    exact List.mem_map.2 ⟨_, hy, rfl⟩
  · have := mark_spec s' _ hiF now3 _ hy
    simp only at this
    rw [this, hexp]; rfl
  · rw [(mark_fields s' now3 x.e).2.2.2]
    have := (hiF.evs _ hy).2.2.2.1
    simp only at this
    rw [this, hh]

/-- Connection 2, due at 102.3 s, gets a frame at 102.4 s and is due at 104.4 s then; a turn at 102.5 s closes it. -/
example : AllOk (init ev0) ⟨[], []⟩ (demoOps ++ [.tick ⟨102, 400000⟩, .extend 2 ⟨102, 400100⟩ ⟨102, 400200⟩ 909]) ∧
    ((run (init ev0) (demoOps ++ [.tick ⟨102, 400000⟩, .extend 2 ⟨102, 400100⟩ ⟨102, 400200⟩ 909])).bind fun s =>
      loop s [⟨⟨102, 500000⟩, 0, []⟩]).map (·.2) = some [2] :=
  ⟨allOkB_sound _ _ _ (by decide +kernel), by decide +kernel⟩

end Fly.Event
