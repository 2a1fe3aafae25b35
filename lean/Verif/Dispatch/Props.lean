import Verif.Dispatch.Run

namespace Fly.Dispatch

/-- What holds whenever the server waits. -/
structure Wait (s : St) : Prop where
  inv : Inv s
  clean : Clean s
  masked : s.masked = false
  unmon : s.unmon = []

theorem turn_ready (W X : World) (n : Nat) (s : St) (as : List Nat) : turn W X n s (.ready as) = (batch W s as).bind (drain W n) := rfl
theorem turn_timeout (W X : World) (n : Nat) (s : St) (as : List Nat) : turn W X n s (.timeout as) = (expire X s as).bind (drain W n) := rfl

theorem mem_written {l : Nat} {m : Bool} {o : Outcome} : ∀ {t : List Obs}, .write l m o ∈ t → l ∈ written t
  | [], h => by simp at h
  | y :: t, h => by
    rcases List.mem_cons.1 h with hy | hy
    · subst hy; exact List.mem_cons_self ..
    · cases y
      · show l ∈ written t; exact mem_written hy
      · exact List.mem_cons_of_mem _ (mem_written hy)
      · show l ∈ written t; exact mem_written hy

theorem Wait.pend {s : St} (h : Wait s) : pend s = [] := by unfold Fly.Dispatch.pend; rw [h.unmon]; rfl

theorem Wait.ready {s : St} (h : Wait s) {as : List Nat} (hl : Legit s (.ready as)) : as.Nodup ∧ ∀ a ∈ as, a ∈ s.mon := by
  refine ⟨hl.1, fun a ha => ?_⟩
  obtain ⟨fd, hk⟩ := hl.2 a ha
  obtain ⟨e, g1, g2, _⟩ := (h.inv.kern fd a).1 hk
  exact (h.inv.mon a).2 ⟨e, g1, g2⟩

theorem Wait.timeout {s : St} (h : Wait s) {as : List Nat} (hl : Legit s (.timeout as)) : as.Nodup ∧ ∀ a ∈ as, a ∈ s.mon :=
  ⟨List.Sublist.nodup hl h.inv.mondup, fun _ ha => List.Sublist.subset hl ha⟩

/-- With too few passes for the log entries the second loop is not finished. -/
theorem drain_few {W : World} (hW : Contract W) : ∀ (n : Nat) (s s' : St), Inv s → Clean s → s.masked = false → drain W n s = .run s' → s.unmon.length ≤ n := by
  intro n
  induction n with
  | zero =>
    intro s s' _ _ _ h
    unfold drain at h
    cases hu : s.unmon with
    | nil => exact Nat.le_refl _
    | cons a l => rw [hu] at h; cases h
  | succ n ih =>
    intro s s' hi hc hm h
    cases hu : s.unmon with
    | nil => exact Nat.zero_le _
    | cons a rest =>
      rw [drain.eq_def] at h; dsimp only at h; rw [hu] at h; dsimp only at h
      obtain ⟨e, he, hem⟩ := (hi.unmon a).1 (by rw [hu]; exact List.mem_cons_self ..)
      obtain ⟨o, s1, _, _, hd⟩ := dispatch_line hW hi a e he hem
      by_cases hf : fatalB e o = true
      · rw [if_pos hf] at hd; rw [hd] at h; cases h
      · rw [if_neg hf] at hd
        obtain ⟨d0, d1, d2, d3, d4, d5, d6, d7⟩ := hd
        rw [d0] at h
        have hc1 : Clean s1 := by
          intro b e' hb hm'
          have hba : b ≠ a := by intro e2; subst e2; rw [d3] at hb; cases hb
          exact hc b e' (by rw [← d4 b hba]; exact hb) hm'
        have := ih s1 s' d1 hc1 d5 h
        rw [d6, hu, List.erase_cons_head] at this
        simp; omega

/-- The signal mask during the calls of a turn. -/
def Wake.mask : Wake → Bool
  | .ready _ => true
  | .timeout _ => false

/-- Whether an event stays registered. -/
def Wake.kept : Wake → Outcome → Bool
  | .ready _, o => !o.fails && o.flag.keep
  | .timeout _, _ => false

/-- Everything about a turn after which the server waits again. -/
theorem turn_run {W X : World} (hW : Contract W) (hX : Contract X) {s : St} (h : Wait s) {w : Wake} (hl : Legit s w) {n : Nat} {s' : St}
    (ht : turn W X n s w = .run s') : ∃ t t2 sm, s'.trace = s.trace ++ (t ++ t2) ∧ BEff w.kept w.mask s w.events t sm ∧ Wait s' ∧
      calls t2 = [] ∧ (∀ fd, .close fd ∉ t2) ∧ (∀ l m o, .write l m o ∈ t2 → m = true) ∧ written t2 = produced t ∧ s'.next = sm.next ∧
      (∀ b e, sm.heap b = some e → e.monitorable = true → s'.heap b = some e) ∧ (∀ b, sm.heap b = none → s'.heap b = none) := by
  have key : ∀ sm t, BEff w.kept w.mask s w.events t sm → drain W n sm = .run s' → ∃ t t2 sm, s'.trace = s.trace ++ (t ++ t2) ∧ BEff w.kept w.mask s w.events t sm ∧ Wait s' ∧
      calls t2 = [] ∧ (∀ fd, .close fd ∉ t2) ∧ (∀ l m o, .write l m o ∈ t2 → m = true) ∧ written t2 = produced t ∧ s'.next = sm.next ∧
      (∀ b e, sm.heap b = some e → e.monitorable = true → s'.heap b = some e) ∧ (∀ b, sm.heap b = none → s'.heap b = none) := by
    intro sm t hb hd
    obtain ⟨s2, t2, r1, r2, r3, r4, r5⟩ := drain_eff hW n sm hb.inv hb.clean hb.masked (drain_few hW n sm s' hb.inv hb.clean hb.masked hd)
    rcases r5 with ⟨q1, q2, q3, q4, q5, q6, q7, q8, q9⟩ | ⟨q1, _⟩
    · rw [q1] at hd; cases hd
      refine ⟨t, t2, sm, by rw [r1, hb.trace, List.append_assoc], hb, ⟨q2, q3, q4, q5⟩, r2, r3, r4, ?_, q6, q8, q9⟩
      rw [q7, hb.pend, h.pend]; rfl
    · rw [q1] at hd; cases hd
  cases w with
  | ready as =>
    obtain ⟨h1, h2⟩ := h.ready hl
    rcases batch_eff hW as s h.inv h.clean h.masked h1 h2 with ⟨sm, t, r, b, _⟩ | ⟨sm, t, as', a, e, o, u, r, _⟩
    · refine key sm t b ?_
      rw [turn_ready, r] at ht; exact ht
    · rw [turn_ready, r] at ht; cases ht
  | timeout as =>
    obtain ⟨h1, h2⟩ := h.timeout hl
    obtain ⟨sm, t, r, b⟩ := expire_eff hX as s h.inv h.clean h.masked h1 h2
    refine key sm t b ?_
    rw [turn_timeout, r] at ht; exact ht

theorem later_wait {W X : World} (hW : Contract W) (hX : Contract X) {s s' : St} (h : Wait s) (hl : Later W X s s') : Wait s' := by
  induction hl with
  | here => exact h
  | turn s1 s2 w n _ h2 h3 ih => obtain ⟨_, _, _, _, _, h4, _⟩ := turn_run hW hX ih h2 h3; exact h4

theorem reach_wait {W X : World} (hW : Contract W) (hX : Contract X) {es : List Ev} (hb : Begin es) {s : St} (hr : Reach W X es s) : Wait s := by
  obtain ⟨h1, h2, h3, h4, _⟩ := start_inv hb
  exact later_wait hW hX ⟨h1, h2, h3, h4⟩ hr

/-- **C146**.  Whenever the server waits and is told which connections are ready, then, for all handlers: every one of them has its handler called
exactly once, in the order of the report, with signals blocked; every log entry the handlers asked for is written, in order, before the
server waits again; no released event is touched and both loops come to an end.  The only exception is a handler reporting an error that is
to end the process (or failing on an event marked so): then the process ends after this call, and the calls and entries before it have taken
place as they should. -/
theorem C146_ready_are_handled_once (W X : World) (hW : Contract W) (hX : Contract X) (es : List Ev) (hb : Begin es) (s : St) (hr : Reach W X es s)
    (as : List Nat) (hl : Legit s (.ready as)) :
    ∃ N, ∀ n, N ≤ n →
      (∃ s' t, turn W X n s (.ready as) = .run s' ∧ s'.trace = s.trace ++ t ∧ calls t = as ∧ written t = produced t ∧ Masked t ∧
        (∀ a o, .call a true o ∈ t → ∀ e, s.heap a = some e → ¬ Fatal e o)) ∨
      (∃ s' t u, turn W X n s (.ready as) = .ended s' ∧ s'.trace = s.trace ++ t ∧ calls t <+: as ∧ written t <+: produced t ∧ Masked t ∧
        ((∃ a e o, t = u ++ .call a true o :: closing e o ∧ s.heap a = some e ∧ Fatal e o) ∨
         (calls t = as ∧ ∃ l o, t = u ++ [.write l true o] ∧ ∃ x ∈ o.errs, x = .emerg ∨ x = .crit ∨ x = .err))) := by
  have hw := reach_wait hW hX hb hr
  obtain ⟨h1, h2⟩ := hw.ready hl
  rcases batch_eff hW as s hw.inv hw.clean hw.masked h1 h2 with ⟨sm, t, r, b, nf⟩ | ⟨sm, t, as', a, e, o, u, r, r1, r2, r3, r4, r5, r6, r7, r8⟩
  · refine ⟨sm.unmon.length, fun n hn => ?_⟩
    obtain ⟨s2, t2, k1, k2, k3, k4, k5⟩ := drain_eff hW n sm b.inv b.clean b.masked hn
    have hturn : turn W X n s (.ready as) = drain W n sm := by rw [turn_ready, r]; rfl
    have hp : pend sm = produced t := by rw [b.pend, hw.pend]; rfl
    have hprod : produced t2 = [] := by
      clear k5 k1 k3 k4 hturn
      induction t2 with
      | nil => rfl
      | cons y t2 ih => cases y with
        | call a m o => cases k2
        | write l m o => exact ih k2
        | close fd => exact ih k2
    have htr : s2.trace = s.trace ++ (t ++ t2) := by rw [k1, b.trace, List.append_assoc]
    have hmask : Masked (t ++ t2) := by
      refine ⟨?_, ?_⟩
      · intro a m o hx
        rcases List.mem_append.1 hx with hx | hx
        · exact b.mask a m o hx
        · have := mem_calls hx; rw [k2] at this; cases this
      · intro l m o hx
        rcases List.mem_append.1 hx with hx | hx
        · have := mem_written hx; rw [b.written] at this; cases this
        · exact k4 l m o hx
    have hcalls : calls (t ++ t2) = as := by rw [calls_append, b.calls, k2, List.append_nil]
    rcases k5 with ⟨q1, q2, q3, q4, q5, q6, q7, q8, q9⟩ | ⟨q1, q2, u, l, o, q3, q4⟩
    · refine .inl ⟨s2, t ++ t2, by rw [hturn, q1], htr, hcalls, ?_, hmask, ?_⟩
      · rw [written_append, produced_append, b.written, q7, hp, hprod]; simp
      · intro a o hx e he
        rcases List.mem_append.1 hx with hx | hx
        · exact nf a o hx e he
        · have := mem_calls hx; rw [k2] at this; cases this
    · refine .inr ⟨s2, t ++ t2, t ++ u, by rw [hturn, q1], htr, ?_, ?_, hmask, .inr ⟨hcalls, l, o, by rw [q3, List.append_assoc], q4⟩⟩
      · rw [hcalls]; exact List.prefix_refl _
      · rw [written_append, produced_append, b.written, hprod, List.append_nil, ← hp]; exact q2
  · refine ⟨0, fun n _ => .inr ⟨sm, t, u, ?_, r1, ?_, ?_, ⟨r8, ?_⟩, .inl ⟨a, e, o, r5, r4, r6⟩⟩⟩
    · rw [turn_ready, r]; rfl
    · rw [r3]; exact r2
    · rw [r7]; exact List.nil_prefix
    · intro l m o hx
      have := mem_written hx; rw [r7] at this; cases this

/-- **C146**, waits that run out: the expired handler of every expired connection is called exactly once, in the order of registration, and
the log entries asked for are written. -/
theorem C146_expired_are_handled_once (W X : World) (hW : Contract W) (hX : Contract X) (es : List Ev) (hb : Begin es) (s : St) (hr : Reach W X es s)
    (as : List Nat) (hl : Legit s (.timeout as)) :
    ∃ N, ∀ n, N ≤ n → ∃ s' t, s'.trace = s.trace ++ t ∧ calls t = as ∧
      ((turn W X n s (.timeout as) = .run s' ∧ written t = produced t) ∨
       (turn W X n s (.timeout as) = .ended s' ∧ written t <+: produced t ∧
         ∃ u l o, t = u ++ [.write l true o] ∧ ∃ x ∈ o.errs, x = .emerg ∨ x = .crit ∨ x = .err)) := by
  have hw := reach_wait hW hX hb hr
  obtain ⟨h1, h2⟩ := hw.timeout hl
  obtain ⟨sm, t, r, b⟩ := expire_eff hX as s hw.inv hw.clean hw.masked h1 h2
  refine ⟨sm.unmon.length, fun n hn => ?_⟩
  obtain ⟨s2, t2, k1, k2, k3, k4, k5⟩ := drain_eff hW n sm b.inv b.clean b.masked hn
  have hturn : turn W X n s (.timeout as) = drain W n sm := by rw [turn_timeout, r]; rfl
  have hp : pend sm = produced t := by rw [b.pend, hw.pend]; rfl
  have hprod : produced t2 = [] := by
    clear k5 k1 k3 k4 hturn
    induction t2 with
    | nil => rfl
    | cons y t2 ih => cases y with
      | call a m o => cases k2
      | write l m o => exact ih k2
      | close fd => exact ih k2
  refine ⟨s2, t ++ t2, by rw [k1, b.trace, List.append_assoc], by rw [calls_append, b.calls, k2, List.append_nil], ?_⟩
  rcases k5 with ⟨q1, q2, q3, q4, q5, q6, q7, q8, q9⟩ | ⟨q1, q2, u, l, o, q3, q4⟩
  · refine .inl ⟨by rw [hturn, q1], ?_⟩
    rw [written_append, produced_append, b.written, q7, hp, hprod]; simp
  · refine .inr ⟨by rw [hturn, q1], ?_, t ++ u, l, o, by rw [q3, List.append_assoc], q4⟩
    rw [written_append, produced_append, b.written, hprod, List.append_nil, ← hp]; exact q2

theorem mem_kern_iff {s : St} (h : Wait s) (fd a : Nat) : (fd, a) ∈ s.kern ↔ a ∈ s.mon ∧ ∃ e, s.heap a = some e ∧ e.fd = fd := by
  rw [h.inv.kern, h.inv.mon]
  constructor
  · rintro ⟨e, g1, g2, g3, _⟩; exact ⟨⟨e, g1, g2⟩, e, g1, g3⟩
  · rintro ⟨⟨e, g1, g2⟩, e', g3, g4⟩
    rw [g1] at g3; cases g3
    exact ⟨e, g1, g2, g4, h.clean a e g1 g2⟩

/-- **C147**.  What becomes of a connection is decided by its own handler alone: after the turn it is still registered exactly if the handler
did not fail and left it marked to be kept; its descriptor is closed exactly once if the handler closed it or failed (also if both), and
not at all otherwise. -/
theorem C147_failing_are_closed_once (W X : World) (hW : Contract W) (hX : Contract X) (es : List Ev) (hb : Begin es) (s : St) (hr : Reach W X es s)
    (as : List Nat) (hl : Legit s (.ready as)) (n : Nat) (s' : St) (ht : turn W X n s (.ready as) = .run s') (a : Nat) (ha : a ∈ as) :
    ∃ t e o, s'.trace = s.trace ++ t ∧ s.heap a = some e ∧ .call a true o ∈ t ∧
      (a ∈ s'.mon ↔ o.fails = false ∧ Keeps o.flag) ∧ ((e.fd, a) ∈ s'.kern ↔ o.fails = false ∧ Keeps o.flag) ∧
      t.count (.close e.fd) = (if o.closes = true ∨ o.fails = true then 1 else 0) := by
  have hw := reach_wait hW hX hb hr
  obtain ⟨t, t2, sm, p1, b, p3, p4, p5, p6, p7, p8, p9, p10⟩ := turn_run hW hX hw hl ht
  obtain ⟨e, o, g1, g2, g3, g4⟩ := b.own a ha
  obtain ⟨e', l1, l2⟩ := (hw.inv.mon a).1 ((hw.ready hl).2 a ha)
  rw [g1] at l1; cases l1
  have hk : a ∈ s'.mon ↔ o.fails = false ∧ o.flag.keep = true := by
    rw [p3.inv.mon]
    cases hx : (!o.fails && o.flag.keep) with
    | true =>
      rw [show Wake.kept (.ready as) o = true from hx] at g3
      rw [p9 a _ g3 l2]
      rw [Bool.and_eq_true] at hx
      exact ⟨fun _ => ⟨by simpa using hx.1, hx.2⟩, fun _ => ⟨_, rfl, l2⟩⟩
    | false =>
      rw [show Wake.kept (.ready as) o = false from hx] at g3
      rw [p10 a g3]
      constructor
      · rintro ⟨_, hh, _⟩; cases hh
      · rintro ⟨hh1, hh2⟩; rw [hh1, hh2] at hx; cases hx
  have hkk : o.flag.keep = true ↔ Keeps o.flag := by
    unfold Flag.keep Keeps; simp [Bool.or_eq_true, or_assoc]
  rw [hkk] at hk
  refine ⟨t ++ t2, e, o, p1, g1, List.mem_append_left _ g2, hk, ?_, ?_⟩
  · rw [mem_kern_iff p3]
    constructor
    · exact fun hh => hk.1 hh.1
    · intro hh
      refine ⟨hk.2 hh, ?_⟩
      have : Wake.kept (.ready as) o = true := by show (!o.fails && o.flag.keep) = true; rw [hh.1, hkk.2 hh.2]; rfl
      rw [this] at g3
      exact ⟨_, p9 a _ g3 l2, rfl⟩
  · rw [List.count_append, g4, List.count_eq_zero.2 (p5 _)]
    cases o.closes <;> cases o.fails <;> rfl

/-- **C147**, waits that run out: every expired connection is removed, and its descriptor closed exactly once if its handler closed it or failed. -/
theorem C147_expired_are_removed (W X : World) (hW : Contract W) (hX : Contract X) (es : List Ev) (hb : Begin es) (s : St) (hr : Reach W X es s)
    (as : List Nat) (hl : Legit s (.timeout as)) (n : Nat) (s' : St) (ht : turn W X n s (.timeout as) = .run s') (a : Nat) (ha : a ∈ as) :
    ∃ t e o, s'.trace = s.trace ++ t ∧ s.heap a = some e ∧ .call a false o ∈ t ∧ a ∉ s'.mon ∧ (∀ fd, (fd, a) ∉ s'.kern) ∧
      t.count (.close e.fd) = (if o.closes = true ∨ o.fails = true then 1 else 0) := by
  have hw := reach_wait hW hX hb hr
  obtain ⟨t, t2, sm, p1, b, p3, p4, p5, p6, p7, p8, p9, p10⟩ := turn_run hW hX hw hl ht
  obtain ⟨e, o, g1, g2, g3, g4⟩ := b.own a ha
  have hm : a ∉ s'.mon := by
    intro hx
    obtain ⟨e', k1, _⟩ := (p3.inv.mon a).1 hx
    rw [p10 a g3] at k1; cases k1
  refine ⟨t ++ t2, e, o, p1, g1, List.mem_append_left _ g2, hm, fun fd hx => hm ((mem_kern_iff p3 fd a).1 hx).1, ?_⟩
  rw [List.count_append, g4, List.count_eq_zero.2 (p5 _)]
  cases o.closes <;> cases o.fails <;> rfl

theorem gone_stays {W X : World} (hW : Contract W) (hX : Contract X) {s : St} (h : Wait s) (a : Nat) (ha : a < s.next) (hg : s.heap a = none) {s' : St}
    (hl : Later W X s s') : s'.heap a = none ∧ a < s'.next ∧ ∃ t, s'.trace = s.trace ++ t ∧ a ∉ calls t := by
  induction hl with
  | here => exact ⟨hg, ha, [], by simp, by simp [calls]⟩
  | turn s1 s2 w n h1 h2 h3 ih =>
    obtain ⟨i1, i2, t, i3, i4⟩ := ih
    have hw1 := later_wait hW hX h h1
    obtain ⟨u, u2, sm, p1, b, p3, p4, p5, p6, p7, p8, p9, p10⟩ := turn_run hW hX hw1 h2 h3
    have hna : a ∉ w.events := by
      intro hx
      obtain ⟨e, _, g1, _⟩ := b.own a hx
      rw [i1] at g1; cases g1
    refine ⟨p10 a (by rw [b.others a i2 hna]; exact i1), by rw [p8]; exact Nat.lt_of_lt_of_le i2 b.next, t ++ (u ++ u2), by rw [p1, i3, List.append_assoc], ?_⟩
    rw [calls_append, calls_append, b.calls, p4]
    simp [i4, hna]

/-- **C147**, ever after: a connection that was removed in a turn is never handled again. -/
theorem C147_removed_never_again (W X : World) (hW : Contract W) (hX : Contract X) (es : List Ev) (hb : Begin es) (s : St) (hr : Reach W X es s)
    (w : Wake) (hl : Legit s w) (n : Nat) (s' : St) (ht : turn W X n s w = .run s') (a : Nat) (ha : a ∈ s.mon) (hg : a ∉ s'.mon)
    (s2 : St) (hl2 : Later W X s' s2) : a ∉ s2.mon ∧ ∃ t, s2.trace = s'.trace ++ t ∧ a ∉ calls t := by
  have hw := reach_wait hW hX hb hr
  obtain ⟨t, t2, sm, p1, b, p3, p4, p5, p6, p7, p8, p9, p10⟩ := turn_run hW hX hw hl ht
  obtain ⟨e, g1, g2⟩ := (hw.inv.mon a).1 ha
  have hnone : s'.heap a = none := by
    cases hx : s'.heap a with
    | none => rfl
    | some e' =>
      exfalso
      by_cases hin : a ∈ w.events
      · obtain ⟨e2, o, k1, _, k3, _⟩ := b.own a hin
        rw [g1] at k1; cases k1
        by_cases hk : w.kept o = true
        · rw [if_pos hk] at k3
          exact hg ((p3.inv.mon a).2 ⟨_, p9 a _ k3 g2, g2⟩)
        · rw [if_neg hk] at k3; rw [p10 a k3] at hx; cases hx
      · have := b.others a (hw.inv.next _ _ g1) hin
        rw [g1] at this
        exact hg ((p3.inv.mon a).2 ⟨_, p9 a _ this g2, g2⟩)
  have hlt : a < s'.next := by rw [p8]; exact Nat.lt_of_lt_of_le (hw.inv.next _ _ g1) b.next
  obtain ⟨q1, _, u, q2, q3⟩ := gone_stays hW hX p3 a hlt hnone hl2
  refine ⟨?_, u, q2, q3⟩
  intro hx
  obtain ⟨e', k1, _⟩ := ((later_wait hW hX p3 hl2).inv.mon a).1 hx
  rw [q1] at k1; cases k1

/-- **C148**.  A connection that is neither ready nor expired is left alone, whatever the handlers of the others do (fail, close, register, log):
its event is unchanged and still watched, and its descriptor is not closed. -/
theorem C148_others_are_left_alone (W X : World) (hW : Contract W) (hX : Contract X) (es : List Ev) (hb : Begin es) (s : St) (hr : Reach W X es s)
    (w : Wake) (hl : Legit s w) (n : Nat) (s' : St) (ht : turn W X n s w = .run s') (b : Nat) (e : Ev) (hbm : b ∈ s.mon) (he : s.heap b = some e)
    (hnot : b ∉ w.events) :
    b ∈ s'.mon ∧ s'.heap b = some e ∧ (e.fd, b) ∈ s'.kern ∧ e.fd ∈ s'.files ∧ ∃ t, s'.trace = s.trace ++ t ∧ .close e.fd ∉ t ∧ b ∉ calls t := by
  have hw := reach_wait hW hX hb hr
  obtain ⟨t, t2, sm, p1, be, p3, p4, p5, p6, p7, p8, p9, p10⟩ := turn_run hW hX hw hl ht
  obtain ⟨e', g1, g2⟩ := (hw.inv.mon b).1 hbm
  rw [he] at g1; cases g1
  have h1 : s'.heap b = some e := p9 b e (by rw [be.others b (hw.inv.next _ _ he) hnot]; exact he) g2
  have h2 : b ∈ s'.mon := (p3.inv.mon b).2 ⟨e, h1, g2⟩
  refine ⟨h2, h1, (mem_kern_iff p3 _ _).2 ⟨h2, e, h1, rfl⟩, p3.inv.files b e h1 g2 (p3.clean b e h1 g2), t ++ t2, p1, ?_, ?_⟩
  · intro hx
    rcases List.mem_append.1 hx with hx | hx
    · obtain ⟨c, c1, ec, c2, c3⟩ := be.closes _ hx
      have hcm : c ∈ s.mon := by
        cases w with
        | ready as => exact (hw.ready hl).2 c c1
        | timeout as => exact (hw.timeout hl).2 c c1
      obtain ⟨e2, k1, k2⟩ := (hw.inv.mon c).1 hcm
      rw [c2] at k1; cases k1
      have := hw.inv.fds c b ec e c2 he k2 g2 (hw.clean c ec c2 k2) (hw.clean b e he g2) c3
      exact hnot (this ▸ c1)
    · exact p5 _ hx
  · rw [calls_append, be.calls, p4]; simp [hnot]

/-- **C148**, bookkeeping: whenever the server waits, it watches exactly the descriptors of its registered connections, each once, all of them open; no
log entry is outstanding and signals are not blocked. -/
theorem C148_watched_are_registered (W X : World) (hW : Contract W) (hX : Contract X) (es : List Ev) (hb : Begin es) (s : St) (hr : Reach W X es s) :
    (∀ fd a, (fd, a) ∈ s.kern ↔ a ∈ s.mon ∧ ∃ e, s.heap a = some e ∧ e.fd = fd) ∧
    (∀ fd a b, (fd, a) ∈ s.kern → (fd, b) ∈ s.kern → a = b) ∧ (∀ fd a, (fd, a) ∈ s.kern → fd ∈ s.files) ∧
    s.mon.Nodup ∧ s.unmon = [] ∧ s.masked = false := by
  have hw := reach_wait hW hX hb hr
  refine ⟨mem_kern_iff hw, ?_, ?_, hw.inv.mondup, hw.unmon, hw.masked⟩
  · intro fd a b h1 h2
    obtain ⟨e, g1, g2, g3, g4⟩ := (hw.inv.kern fd a).1 h1
    obtain ⟨e', k1, k2, k3, k4⟩ := (hw.inv.kern fd b).1 h2
    exact hw.inv.fds a b e e' g1 k1 g2 k2 g4 k4 (by rw [g3, k3])
  · intro fd a h1
    obtain ⟨e, g1, g2, g3, g4⟩ := (hw.inv.kern fd a).1 h1
    rw [← g3]; exact hw.inv.files a e g1 g2 g4

/-! ### Example: a listening socket (descriptor 3) that accepts a connection whenever it is ready and logs that; connections with an even
descriptor fail, the others are answered, logged and kept; expired connections are closed. -/

def exLine (n : Nat) : Ev := ⟨1, false, Flag.zero, false, n⟩
def exKeep : Flag := ⟨false, false, true, false, false⟩
def exConn (fd : Nat) : Ev := ⟨fd, true, Flag.zero, false, 0⟩
def exListen : Ev := ⟨3, true, ⟨true, false, false, false, false⟩, true, 0⟩
def exFree (s : St) : Nat := s.files.foldl Nat.max 0 + 1

def exW : World := fun s a =>
  match s.heap a with
  | none => ⟨Flag.zero, false, [], false, []⟩
  | some e =>
    if e.monitorable = false then ⟨Flag.zero, false, [], false, []⟩
    else if e.fd = 3 then ⟨⟨true, false, false, false, false⟩, false, [], false, [exConn (exFree s), exLine (exFree s)]⟩
    else if e.fd % 2 = 0 then ⟨exKeep, false, [.warn], true, []⟩
    else ⟨exKeep, false, [], false, [exLine (100 + e.fd)]⟩

def exX : World := fun s a =>
  match s.heap a with
  | none => ⟨Flag.zero, false, [], false, []⟩
  | some e => if e.monitorable = false then ⟨Flag.zero, false, [], false, []⟩ else ⟨Flag.closeEv, true, [], false, [exLine (200 + e.fd)]⟩

theorem le_foldl_max : ∀ (l : List Nat) (k x : Nat), (x ≤ k ∨ x ∈ l) → x ≤ l.foldl Nat.max k
  | [], k, x, h => by rcases h with h | h; exact h; cases h
  | y :: l, k, x, h => by
    rw [List.foldl_cons]
    apply le_foldl_max l
    rcases h with h | h
    · exact .inl (Nat.le_trans h (Nat.le_max_left ..))
    · rcases List.mem_cons.1 h with h | h
      · exact .inl (h ▸ Nat.le_max_right ..)
      · exact .inr h

theorem exFree_new (s : St) : exFree s ∉ s.files := by
  intro h
  have := le_foldl_max s.files 0 _ (.inr h)
  unfold exFree at this; omega

theorem exW_ok : Contract exW := by
  have cases4 : ∀ s a, (exW s a = ⟨Flag.zero, false, [], false, []⟩) ∨
      (exW s a = ⟨⟨true, false, false, false, false⟩, false, [], false, [exConn (exFree s), exLine (exFree s)]⟩) ∨
      (exW s a = ⟨exKeep, false, [.warn], true, []⟩) ∨ (∃ k, exW s a = ⟨exKeep, false, [], false, [exLine k]⟩) := by
    intro s a
    unfold exW
    cases s.heap a with
    | none => exact .inl rfl
    | some e =>
      dsimp only
      split
      · exact .inl rfl
      · split
        · exact .inr (.inl rfl)
        · split
          · exact .inr (.inr (.inl rfl))
          · exact .inr (.inr (.inr ⟨_, rfl⟩))
  refine ⟨?_, ?_, ?_, ?_, ?_⟩
  · intro s a; rcases cases4 s a with h | h | h | ⟨k, h⟩ <;> rw [h] <;> rfl
  · intro s a; rcases cases4 s a with h | h | h | ⟨k, h⟩ <;> rw [h] <;> intro hc <;> cases hc
  · intro s a e he hm
    rcases cases4 s a with h | h | h | ⟨k, h⟩ <;> rw [h] at he <;> simp at he
    · rcases he with he | he
      · subst he; exact ⟨exFree_new s, rfl⟩
      · subst he; cases hm
    · subst he; cases hm
  · intro s a; rcases cases4 s a with h | h | h | ⟨k, h⟩ <;> rw [h] <;> simp [exConn, exLine]
  · intro s a e he hm
    unfold exW; rw [he]; dsimp only; rw [if_pos hm]; exact ⟨rfl, rfl, rfl, rfl⟩

theorem exX_ok : Contract exX := by
  have cases2 : ∀ s a, (exX s a = ⟨Flag.zero, false, [], false, []⟩) ∨ (∃ k, exX s a = ⟨Flag.closeEv, true, [], false, [exLine k]⟩) := by
    intro s a
    unfold exX
    cases s.heap a with
    | none => exact .inl rfl
    | some e =>
      dsimp only
      split
      · exact .inl rfl
      · exact .inr ⟨_, rfl⟩
  refine ⟨?_, ?_, ?_, ?_, ?_⟩
  · intro s a; rcases cases2 s a with h | ⟨k, h⟩ <;> rw [h] <;> rfl
  · intro s a; rcases cases2 s a with h | ⟨k, h⟩ <;> rw [h] <;> intro hc
    · cases hc
    · rfl
  · intro s a e he hm
    rcases cases2 s a with h | ⟨k, h⟩ <;> rw [h] at he <;> simp at he
    subst he; cases hm
  · intro s a; rcases cases2 s a with h | ⟨k, h⟩ <;> rw [h] <;> simp [exLine]
  · intro s a e he hm
    unfold exX; rw [he]; dsimp only; rw [if_pos hm]; exact ⟨rfl, rfl, rfl, rfl⟩

example : Begin [exListen] := by unfold Begin; decide +kernel

/-- Three connections are accepted (4, 5, 6), then all are ready together with the socket; 4 and 6 fail and are closed, 5 is answered, 7 is accepted;
then 5 expires. -/
def exRun : Res :=
  (turn exW exX 9 (start [exListen]) (.ready [0])).bind fun s =>
  (turn exW exX 9 s (.ready [0])).bind fun s =>
  (turn exW exX 9 s (.ready [0])).bind fun s =>
  (turn exW exX 9 s (.ready [3, 0, 1, 5])).bind fun s => turn exW exX 9 s (.timeout [3])

def exTrace : Res → List Obs
  | .run s => s.trace
  | _ => []

def exMon : Res → List Nat × List (Nat × Nat)
  | .run s => (s.mon, s.kern)
  | _ => ([], [])

example : calls (exTrace exRun) = [0, 0, 0, 3, 0, 1, 5, 3] ∧ written (exTrace exRun) = [4, 5, 6, 105, 7, 205] ∧
    (exTrace exRun).filter (fun o => match o with | .close _ => true | _ => false) = [.close 4, .close 6, .close 5] ∧
    exMon exRun = ([0, 8], [(3, 0), (7, 8)]) := by decide +kernel

end Fly.Dispatch
