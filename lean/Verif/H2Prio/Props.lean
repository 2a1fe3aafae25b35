import Verif.H2Prio.Lemmas

/-! # Properties C131–C133: PRIORITY frames -/

namespace Fly.H2P

/-- The usual frames of a client: a stream depends on the root, not exclusively. -/
def toRoot (sid weight : Nat) : Frame := ⟨sid, false, 0, weight⟩

/-- **C131, the part that holds.**  On a connection on which nothing has been recorded yet, any number of
PRIORITY frames for different streams depending on the root (not exclusively), none of them heavier than
one that came two or more frames before it, is processed in at most one more round than there are frames
each, without touching memory that is not a live stream; afterwards the root's dependent streams are
exactly those streams in order of arrival, each with the recorded weight. -/
theorem C131_priorities_recorded_partial (h : Heap) (r : Node) (hr : h 0 = some r) (hc : r.count = 0) (fs : List Frame)
    (hf : ∀ f ∈ fs, f.sid ≠ 0 ∧ f.dep = 0 ∧ f.exclusive = false) (hnd : (fs.map (·.sid)).Nodup) (hfall : Falling fs)
    (fuel : Nat) (hfu : fs.length < fuel) :
    ∃ h', onFrames fuel h fs = .done h' ∧ ringIs h' 0 (fs.map (·.sid)) ∧
      ∀ f ∈ fs, ∃ n, h' f.sid = some n ∧ n.weight = storedWeight f.weight := by
  obtain ⟨h', h1, h2⟩ := flat_run fs [] h (flat_start h r hr hc) hf (by simp) (by simpa using hnd) (by simpa using hfall)
    fuel (by simpa using hfu)
  rw [List.nil_append] at h2
  refine ⟨h', h1, ?_, h2.weights⟩
  obtain ⟨q, hq, hq1, hq2⟩ := h2.root
  refine ⟨q, hq, ?_⟩
  cases fs with
  | nil => exact hq1 rfl
  | cons f t =>
    obtain ⟨e1, e2⟩ := hq2 f t rfl
    refine ⟨e1, e2, ?_⟩
    obtain ⟨n, hn, _⟩ := h2.weights f (by simp)
    exact follow_linked h' f.sid _ f.sid _ rfl (h2.linked f t rfl) ⟨n, hn⟩

/-- The streams a well-known browser creates at the start of a connection. -/
example : (∀ f ∈ [toRoot 3 200, toRoot 5 100, toRoot 7 0], f.sid ≠ 0 ∧ f.dep = 0 ∧ f.exclusive = false) ∧
    (onFrames 10 start [toRoot 3 200, toRoot 5 100, toRoot 7 0]).doneWith
      (fun h => (h 0).map (·.deps) = some 3 && follow h 4 3 = [3, 5, 7, 3]) := by decide +kernel

example : Falling [toRoot 3 200, toRoot 5 100, toRoot 7 0] := by
  intro pre mid post f g h hm
  match pre, mid, h, hm with
  | [], [x], h, _ =>
    simp at h
    obtain ⟨rfl, rfl, rfl, rfl⟩ := h
    simp [storedWeight, toRoot]
  | [], x :: y :: t, h, _ =>
    have := congrArg List.length h
    simp at this
  | _ :: p, x :: t, h, _ =>
    have := congrArg List.length h
    simp at this
    omega

/-- **C131 refuted: unknown dependency.**  On any connection, a PRIORITY frame that names a stream which
was never opened, or which has been answered and closed, dereferences a null pointer (RFC 7540 §5.3.1:
such a stream gets the default priority). -/
theorem C131_unknown_dependency_crashes_refuted (fuel : Nat) (h : Heap) (f : Frame) (hd : h f.dep = none)
    (hs : f.dep ≠ f.sid) : onPriority fuel h f = .crash := by
  obtain ⟨h1, s, hh1, -, -, ho, -, -⟩ := weighted h f
  unfold onPriority rebalance
  rw [hh1, ho _ hs, hd]

example : (onPriority 5 start ⟨3, false, 1, 15⟩).isCrash := by decide

/-- **C131 refuted: endless loop.**  On any connection on which nothing has been recorded yet: three
streams depend on the root, the third heavier than the first; a fourth that is not heavier than the first
two is never processed.  The first three frames are processed; the worker then serves nobody any more. -/
theorem C131_heavier_stream_loops_refuted (h : Heap) (r : Node) (hr : h 0 = some r) (hc : r.count = 0)
    (a b c d : Frame) (hf : ∀ f ∈ [a, b, c, d], f.sid ≠ 0 ∧ f.dep = 0 ∧ f.exclusive = false)
    (hnd : ([a, b, c, d].map (·.sid)).Nodup)
    (h1 : storedWeight a.weight < storedWeight c.weight) (h2 : storedWeight d.weight ≤ storedWeight a.weight)
    (h3 : storedWeight d.weight ≤ storedWeight b.weight) :
    (∀ fuel, 3 ≤ fuel → ∃ h', onFrames fuel h [a, b, c] = .done h') ∧ Forever h [a, b, c, d] := by
  have hnd' := hnd
  simp only [List.map_cons, List.map_nil, List.nodup_cons, List.mem_cons, List.not_mem_nil, or_false, not_or] at hnd
  obtain ⟨⟨hab, hac, had⟩, ⟨hbc, hbd⟩, hcd, -⟩ := hnd
  have hfa := hf a (by simp)
  have hfb := hf b (by simp)
  have hfc := hf c (by simp)
  have hfd := hf d (by simp)
  have two : ∀ fuel, 3 ≤ fuel → ∃ h', onFrames fuel h [a, b] = .done h' ∧ Flat h' [a, b] := by
    intro fuel hfu
    have := flat_run [a, b] [] h (flat_start h r hr hc) (fun f hx => hf f (by simp at hx ⊢; rcases hx with e | e <;> simp [e]))
      (by simp) (by simp [hab])
      (by
        intro pre mid post f g he hm
        have := congrArg List.length he
        have := List.length_pos_iff.2 hm
        simp at *
        omega) fuel (by simp; omega)
    simpa using this
  have split3 : ∀ fuel h', onFrames fuel h [a, b] = .done h' → ∀ l, onFrames fuel h (a :: b :: l) = onFrames fuel h' l := by
    intro fuel h' e l
    simp only [onFrames] at e ⊢
    split at e
    · rename_i h1 e1
      split at e
      · rename_i h2 e2
        have e := Res.done.inj e
        subst e
        rfl
      · rename_i e2; rw [e] at e2; exact absurd rfl (e2 h')
    · rename_i e2; rw [e] at e2; exact absurd rfl (e2 h')
  have three : ∀ fuel, 3 ≤ fuel → ∃ h' h'', onFrames fuel h [a, b] = .done h' ∧ onPriority fuel h' c = .done h'' ∧
      (∃ r, h'' 0 = some r ∧ r.count ≠ 0 ∧ r.deps = c.sid) ∧
      (∃ n, h'' a.sid = some n ∧ n.next = b.sid ∧ n.weight = storedWeight a.weight) ∧
      (∃ n, h'' b.sid = some n ∧ n.next = a.sid ∧ n.weight = storedWeight b.weight) ∧
      (∃ n, h'' c.sid = some n ∧ n.next = b.sid ∧ n.weight = storedWeight c.weight) := by
    intro fuel hfu
    obtain ⟨h', e1, e2⟩ := two fuel hfu
    obtain ⟨f, rfl⟩ : ∃ f, fuel = f + 1 := ⟨fuel - 1, by omega⟩
    obtain ⟨h'', e3⟩ := heavier_third h' a b c e2 hfa.1 hfb.1 hfc.1 hab hac hbc hfc.2.1 hfc.2.2 h1 f
    exact ⟨h', h'', e1, e3⟩
  constructor
  · intro fuel hfu
    obtain ⟨h', h'', e1, e2, -⟩ := three fuel hfu
    refine ⟨h'', ?_⟩
    rw [split3 fuel h' e1]
    simp only [onFrames, e2]
  · intro fuel
    by_cases hfu : 3 ≤ fuel
    · obtain ⟨h', h'', e1, e2, ⟨q, q1, q2, q3⟩, ⟨na, a1, a2, a3⟩, ⟨nb, b1, b2, b3⟩, ⟨nc, c1, c2, c3⟩⟩ := three fuel hfu
      rw [split3 fuel h' e1]
      have : onPriority fuel h'' d = .running := by
        obtain ⟨g, s, hg, hs, hsw, ho, -, -⟩ := weighted h'' d
        have hwalk : walk g c.sid s.weight fuel c.sid = .running := by
          refine walk_forever g c.sid s.weight (fun x => x = a.sid ∨ x = b.sid ∨ x = c.sid) ?_ fuel c.sid (by simp)
          intro x hx
          rcases hx with rfl | rfl | rfl
          · exact ⟨na, by rw [ho _ had, a1], by simp [a2], by rw [a2]; exact hbc, by omega⟩
          · exact ⟨nb, by rw [ho _ hbd, b1], by simp [b2], by rw [b2]; exact hac, by omega⟩
          · exact ⟨nc, by rw [ho _ hcd, c1], by simp [c2], by rw [c2]; exact hbc, by omega⟩
        unfold onPriority
        rw [hg, hfd.2.1, hfd.2.2]
        unfold rebalance depsAdd
        simp only [ho 0 (fun e => hfd.1 e.symm), q1, q2, if_false, Bool.false_eq_true, hs, q3, hwalk]
      simp only [onFrames, e2, this]
    · -- fewer rounds than needed for the first three frames
      have small : ∀ f, f < 3 → onFrames f h [a, b, c, d] = .running := by
        intro f hf3
        obtain ⟨ha1, sa, hha, hsa, hswa, hoa, -, -⟩ := weighted h a
        have ea : onPriority f h a = .done (upd (upd ha1 0 fun x => { x with deps := a.sid, count := 1 }) a.sid
            fun x => { x with next := a.sid, prev := a.sid }) := by
          unfold onPriority
          rw [hha, hfa.2.1, hfa.2.2]
          simp [rebalance, hoa 0 (fun e => hfa.1 e.symm), hr, hc]
        generalize hg1 : upd (upd ha1 0 fun x => { x with deps := a.sid, count := 1 }) a.sid
            (fun x => { x with next := a.sid, prev := a.sid }) = g1 at ea
        have g1r : g1 0 = some { r with deps := a.sid, count := 1 } := by
          rw [← hg1, upd_other _ _ _ _ (fun e => hfa.1 e.symm), upd_same, hoa 0 (fun e => hfa.1 e.symm), hr]; rfl
        have g1a : g1 a.sid = some { sa with next := a.sid, prev := a.sid } := by
          rw [← hg1, upd_same, upd_other _ _ _ _ hfa.1, hsa]; rfl
        obtain ⟨hb1, sb, hhb, hsb, hswb, hob, -, -⟩ := weighted g1 b
        rw [onFrames, ea]
        simp only
        rw [onFrames]
        match f, hf3 with
        | 0, _ =>
          have : onPriority 0 g1 b = .running := by
            unfold onPriority
            rw [hhb, hfb.2.1, hfb.2.2]
            unfold rebalance depsAdd
            simp [hob 0 (fun e => hfb.1 e.symm), g1r, hsb, walk]
          rw [this]
        | f + 1, hf3 =>
          obtain ⟨h', e1, e2⟩ := two 3 (by omega)
          have eb : onPriority (f + 1) g1 b = onPriority 3 g1 b := by
            unfold onPriority
            rw [hhb, hfb.2.1, hfb.2.2]
            unfold rebalance depsAdd
            have hw : ∀ k, walk hb1 a.sid sb.weight (k + 1) a.sid = .last a.sid := by
              intro k; rw [walk, hob _ hab, g1a]; simp
            simp only [hob 0 (fun e => hfb.1 e.symm), g1r, hsb, hw f, hw 2]
          have e3 : onPriority 3 g1 b = .done h' := by
            have ea' : onPriority 3 h a = .done g1 := by
              unfold onPriority
              rw [hha, hfa.2.1, hfa.2.2]
              simp only [rebalance, hoa 0 (fun e => hfa.1 e.symm), hr, hc]
              simp only [Bool.false_eq_true, if_false, if_true, hg1]
            simp only [onFrames, ea'] at e1
            split at e1
            · rename_i x ex; rw [ex, Res.done.inj e1]
            · rename_i ex; rw [e1] at ex; exact absurd rfl (ex h')
          rw [eb, e3]
          simp only
          obtain ⟨h'', e4, ⟨q, q1, q2, q3⟩, ⟨na, a1, a2, a3⟩, ⟨nb, b1, b2, b3⟩, ⟨nc, c1, c2, c3⟩⟩ :=
            heavier_third h' a b c e2 hfa.1 hfb.1 hfc.1 hab hac hbc hfc.2.1 hfc.2.2 h1 f
          have : onPriority (f + 1) h'' d = .running := by
            obtain ⟨g, s, hg, hs, hsw, ho, -, -⟩ := weighted h'' d
            have hwalk : walk g c.sid s.weight (f + 1) c.sid = .running := by
              refine walk_forever g c.sid s.weight (fun x => x = a.sid ∨ x = b.sid ∨ x = c.sid) ?_ (f + 1) c.sid (by simp)
              intro x hx
              rcases hx with rfl | rfl | rfl
              · exact ⟨na, by rw [ho _ had, a1], by simp [a2], by rw [a2]; exact hbc, by omega⟩
              · exact ⟨nb, by rw [ho _ hbd, b1], by simp [b2], by rw [b2]; exact hac, by omega⟩
              · exact ⟨nc, by rw [ho _ hcd, c1], by simp [c2], by rw [c2]; exact hbc, by omega⟩
            unfold onPriority
            rw [hg, hfd.2.1, hfd.2.2]
            unfold rebalance depsAdd
            simp only [ho 0 (fun e => hfd.1 e.symm), q1, q2, if_false, Bool.false_eq_true, hs, q3, hwalk]
          simp only [onFrames, e4, this]
      exact small fuel (by omega)

/-- Four ordinary frames of a client. -/
example : (onFrames 1000 start [toRoot 1 15, toRoot 3 15, toRoot 5 31]).doneWith (fun _ => true) ∧
    (onFrames 1000 start [toRoot 1 15, toRoot 3 15, toRoot 5 31, toRoot 7 7]).isRunning := by
  decide +kernel

/-- **C131 refuted: use after free.**  Once priorities have been recorded and the stream recorded first
has been answered and closed, the next PRIORITY frame that depends on the root reads the freed stream. -/
theorem C131_closed_stream_used_refuted (h : Heap) (r : Node) (hr : h 0 = some r) (hc : r.count = 0) (a : Frame)
    (fs : List Frame) (hf : ∀ f ∈ a :: fs, f.sid ≠ 0 ∧ f.dep = 0 ∧ f.exclusive = false)
    (hnd : ((a :: fs).map (·.sid)).Nodup) (hfall : Falling (a :: fs)) (g : Frame) (hg0 : g.sid ≠ 0) (hgd : g.dep = 0)
    (hga : g.sid ≠ a.sid) (fuel fuel' : Nat) (hfu : (a :: fs).length < fuel) :
    ∃ h', onFrames fuel h (a :: fs) = .done h' ∧ onPriority (fuel' + 1) (release h' a.sid) g = .crash := by
  obtain ⟨h', h1, h2⟩ := flat_run (a :: fs) [] h (flat_start h r hr hc) hf (by simp) (by simpa using hnd)
    (by simpa using hfall) fuel (by simpa using hfu)
  rw [List.nil_append] at h2
  refine ⟨h', h1, ?_⟩
  obtain ⟨q, hq, -, hq2⟩ := h2.root
  obtain ⟨e1, e2⟩ := hq2 a fs rfl
  have ha0 := (hf a (by simp)).1
  obtain ⟨k, s, hk, hs, -, ho, -, -⟩ := weighted (release h' a.sid) g
  have k0 : k 0 = some q := by rw [ho 0 (fun e => hg0 e.symm)]; simp only [release]; rw [if_neg (fun e => ha0 e.symm), hq]
  have ka : k a.sid = none := by rw [ho _ (fun e => hga e.symm)]; simp [release]
  unfold onPriority
  rw [hk, hgd]
  unfold rebalance depsAdd
  simp only [k0, e1, hs, e2, walk, ka, if_false]
  cases g.exclusive <;> simp

example : (onFrames 10 start [toRoot 1 15]).doneWith
    (fun h => (onPriority 10 (release h 1) (toRoot 3 15)).isCrash) := by decide +kernel

/-! ## C132: the weight -/

/-- **C132, the part that holds.**  Every weight a client can give except the largest is recorded as sent. -/
theorem C132_weight_recorded_partial (w : Nat) (hw : w < 255) : storedWeight w = rfcWeight w := by
  unfold storedWeight rfcWeight; omega

/-- **C132 refuted.**  The largest weight, 256, is recorded as 0: below every weight a client can give to
another stream. -/
theorem C132_largest_weight_refuted : storedWeight 255 = 0 ∧ ∀ w, w < 255 → storedWeight 255 < storedWeight w := by
  refine ⟨rfl, fun w hw => ?_⟩
  unfold storedWeight; omega

/-! ## C133: streams depending on streams -/

/-- **C133, the part that holds.**  The first stream that depends on a live stream without recorded
dependents becomes its only dependent stream. -/
theorem C133_first_dependent_partial (fuel : Nat) (h : Heap) (f : Frame) (n : Node) (hn : h f.dep = some n)
    (hc : n.count = 0) (hs : f.dep ≠ f.sid) (he : f.exclusive = false) :
    ∃ h', onPriority fuel h f = .done h' ∧ ringIs h' f.dep [f.sid] := by
  obtain ⟨h1, s, hh1, hss, -, ho, -, -⟩ := weighted h f
  have hd : h1 f.dep = some n := by rw [ho _ hs, hn]
  refine ⟨upd (upd h1 f.dep fun x => { x with deps := f.sid, count := 1 }) f.sid fun x => { x with next := f.sid, prev := f.sid },
    ?_, { n with deps := f.sid, count := 1 }, ?_, by simp, rfl, ?_⟩
  · unfold onPriority
    rw [hh1, he]
    simp [rebalance, hd, hc]
  · rw [upd_other _ _ _ _ hs, upd_same, hd]; rfl
  · have es : upd (upd h1 f.dep fun x => { x with deps := f.sid, count := 1 }) f.sid
        (fun x => { x with next := f.sid, prev := f.sid }) f.sid = some { s with next := f.sid, prev := f.sid } := by
      rw [upd_same, upd_other _ _ _ _ (fun e => hs e.symm), hss]; rfl
    simp [follow, es]

example : (onFrames 10 start [toRoot 1 15, ⟨3, false, 1, 15⟩]).doneWith (fun h => (h 1).map (·.deps) = some 3) := by
  decide +kernel

/-- **C133 refuted: second dependent.**  A stream that was recorded as the second dependent of the root
can have no dependents: a stream said to depend on it (and no heavier than it) is put into the root's list
between the two, and the second stream's own list stays itself. -/
theorem C133_second_dependent_refuted (a b c : Frame) (ha : a = toRoot a.sid a.weight) (hb : b = toRoot b.sid b.weight)
    (hnd : [0, a.sid, b.sid, c.sid].Nodup) (hd : c.dep = b.sid) (he : c.exclusive = false)
    (hw : storedWeight c.weight ≤ storedWeight b.weight) (fuel : Nat) (hfu : 3 ≤ fuel) :
    ∃ h', onFrames fuel start [a, b, c] = .done h' ∧ (∃ n, h' b.sid = some n ∧ n.deps = b.sid) ∧
      ringIs h' 0 [a.sid, c.sid, b.sid] := by
  simp only [List.nodup_cons, List.mem_cons, List.not_mem_nil, or_false, not_or] at hnd
  obtain ⟨⟨h0a, h0b, h0c⟩, ⟨hab, hac⟩, hbc, -⟩ := hnd
  have hfa : a.dep = 0 ∧ a.exclusive = false := by rw [ha]; exact ⟨rfl, rfl⟩
  have hfb : b.dep = 0 ∧ b.exclusive = false := by rw [hb]; exact ⟨rfl, rfl⟩
  -- first frame
  obtain ⟨k1, sa, hk1, hsa, hswa, hoa, -, -⟩ := weighted start a
  have s0 : start 0 = some (created 0) := rfl
  generalize hg1 : upd (upd k1 0 fun x => { x with deps := a.sid, count := 1 }) a.sid
      (fun x => { x with next := a.sid, prev := a.sid }) = g1
  have e1 : onPriority fuel start a = .done g1 := by
    unfold onPriority
    rw [hk1, hfa.1, hfa.2]
    simp only [rebalance, hoa 0 h0a, s0, created, Bool.false_eq_true, if_false, if_true, hg1]
  have g1r : g1 0 = some ⟨16, a.sid, 0, 0, 1⟩ := by
    rw [← hg1, upd_other _ _ _ _ h0a, upd_same, hoa 0 h0a]; rfl
  have g1a : g1 a.sid = some { sa with next := a.sid, prev := a.sid } := by
    rw [← hg1, upd_same, upd_other _ _ _ _ (fun e => h0a e.symm), hsa]; rfl
  have g1o : ∀ x, x ≠ 0 → x ≠ a.sid → g1 x = none := by
    intro x hx hxa
    rw [← hg1, upd_other _ _ _ _ hxa, upd_other _ _ _ _ hx, hoa x hxa]; simp [start, hx]
  -- second frame
  obtain ⟨k2, sb, hk2, hsb, hswb, hob, hnew, -⟩ := weighted g1 b
  have hsb' := hnew (g1o _ (fun e => h0b e.symm) (fun e => hab e.symm))
  have hw2 : walk k2 a.sid sb.weight fuel a.sid = .last a.sid := by
    obtain ⟨f, rfl⟩ : ∃ f, fuel = f + 1 := ⟨fuel - 1, by omega⟩
    rw [walk, hob _ hab, g1a]; simp
  generalize hg2 : upd (upd (upd (upd k2 a.sid fun x => { x with next := b.sid }) b.sid fun x => { x with prev := a.sid })
      b.sid fun x => { x with next := a.sid }) b.sid (fun x => { x with count := x.count + 1 }) = g2
  have e2 : onPriority fuel g1 b = .done g2 := by
    unfold onPriority
    rw [hk2, hfb.1, hfb.2]
    unfold rebalance depsAdd
    simp only [hob 0 h0b, g1r, Bool.false_eq_true, if_false, hsb, hw2, hg2, Nat.succ_ne_self]
  have g2r : g2 0 = some ⟨16, a.sid, 0, 0, 1⟩ := by
    rw [← hg2, upd_other _ _ _ _ h0b, upd_other _ _ _ _ h0b, upd_other _ _ _ _ h0b, upd_other _ _ _ _ h0a, hob 0 h0b, g1r]
  have g2a : g2 a.sid = some { sa with next := b.sid, prev := a.sid } := by
    rw [← hg2, upd_other _ _ _ _ hab, upd_other _ _ _ _ hab, upd_other _ _ _ _ hab, upd_same, hob _ hab, g1a]; rfl
  have g2b : g2 b.sid = some ⟨storedWeight b.weight, b.sid, a.sid, a.sid, 1⟩ := by
    rw [← hg2, upd_same, upd_same, upd_same, upd_other _ _ _ _ (fun e => hab e.symm), hsb, hsb']; rfl
  -- third frame
  obtain ⟨k3, sc, hk3, hsc, hswc, hoc, -, -⟩ := weighted g2 c
  have hw3 : walk k3 b.sid sc.weight fuel b.sid = .last a.sid := by
    obtain ⟨f, rfl⟩ : ∃ f, fuel = f + 2 := ⟨fuel - 2, by omega⟩
    rw [walk, hoc _ hbc, g2b]
    simp only
    rw [if_neg hab, if_neg (by omega), walk, hoc _ hac, g2a]
    simp
  generalize hg3 : upd (upd (upd (upd k3 a.sid fun x => { x with next := c.sid }) c.sid fun x => { x with prev := a.sid })
      c.sid fun x => { x with next := b.sid }) c.sid (fun x => { x with count := x.count + 1 }) = g3
  have e3 : onPriority fuel g2 c = .done g3 := by
    unfold onPriority
    rw [hk3, hd, he]
    unfold rebalance depsAdd
    simp only [hoc _ hbc, g2b, Bool.false_eq_true, if_false, hsc, hw3, hg3, Nat.succ_ne_self]
  have g3r : g3 0 = some ⟨16, a.sid, 0, 0, 1⟩ := by
    rw [← hg3, upd_other _ _ _ _ h0c, upd_other _ _ _ _ h0c, upd_other _ _ _ _ h0c, upd_other _ _ _ _ h0a, hoc 0 h0c, g2r]
  have g3a : g3 a.sid = some { sa with next := c.sid, prev := a.sid } := by
    rw [← hg3, upd_other _ _ _ _ hac, upd_other _ _ _ _ hac, upd_other _ _ _ _ hac, upd_same, hoc _ hac, g2a]; rfl
  have g3b : g3 b.sid = some ⟨storedWeight b.weight, b.sid, a.sid, a.sid, 1⟩ := by
    rw [← hg3, upd_other _ _ _ _ hbc, upd_other _ _ _ _ hbc, upd_other _ _ _ _ hbc, upd_other _ _ _ _ (fun e => hab e.symm),
      hoc _ hbc, g2b]
  have g3c : g3 c.sid = some { sc with prev := a.sid, next := b.sid, count := sc.count + 1 } := by
    rw [← hg3, upd_same, upd_same, upd_same, upd_other _ _ _ _ (fun e => hac e.symm), hsc]; rfl
  refine ⟨g3, by simp only [onFrames, e1, e2, e3], ⟨_, g3b, rfl⟩, _, g3r, by simp, rfl, ?_⟩
  simp [follow, g3a, g3b, g3c]

/-- The tree of a well-known browser: 9 depends on 7, but is put among the root's streams. -/
example : (onFrames 10 start [toRoot 3 200, toRoot 5 100, toRoot 7 0, ⟨9, false, 7, 0⟩, ⟨11, false, 3, 0⟩]).doneWith
    (fun h => (h 7).map (·.deps) = some 7 && follow h 5 3 = [3, 5, 9, 7, 3] && (h 3).map (·.deps) = some 11) := by
  decide +kernel

theorem upd_deps (h : Heap) (a s : Nat) (f : Node → Node) (hf : ∀ x, (f x).deps = x.deps) :
    (upd h a f s).map (·.deps) = (h s).map (·.deps) := by
  unfold upd
  split
  · rename_i e; subst e; cases h s <;> simp [hf]
  · rfl

theorem depsAdd_deps (fuel : Nat) (h h' : Heap) (p s : Nat) (hps : s ≠ p) (hd : depsAdd fuel h p s = .done h') :
    (h' s).map (·.deps) = (h s).map (·.deps) := by
  unfold depsAdd at hd
  split at hd
  · split at hd
    · simp at hd
    · simp at hd
    · split at hd
      · simp at hd
      · split at hd
        · simp at hd
        · have hd := Res.done.inj hd
          subst hd
          rw [upd_deps _ _ _ _ (by simp)]
          split
          · rw [upd_other _ _ _ _ hps, upd_deps _ _ _ _ (by simp), upd_deps _ _ _ _ (by simp)]
          · rw [upd_deps _ _ _ _ (by simp), upd_deps _ _ _ _ (by simp), upd_deps _ _ _ _ (by simp)]
    · have hd := Res.done.inj hd
      subst hd
      rw [upd_deps _ _ _ _ (by simp), upd_deps _ _ _ _ (by simp), upd_deps _ _ _ _ (by simp),
        upd_deps _ _ _ _ (by simp)]
  · simp at hd

/-- **C133 refuted: exclusive dependency.**  On any connection, a new stream that depends exclusively on a
live stream becomes that stream's first dependent, but takes over none of its former dependents
(RFC 7540 §5.3.3): its own list stays empty. -/
theorem C133_exclusive_adopts_nobody_refuted (fuel : Nat) (h h' : Heap) (f : Frame) (hs : f.dep ≠ f.sid)
    (hnew : h f.sid = none) (he : f.exclusive = true) (hd : onPriority fuel h f = .done h') :
    (h' f.sid).map (·.deps) = some f.sid ∧ (h' f.dep).map (·.deps) = some f.sid ∧
      (h' f.dep).map (·.count) = some 1 := by
  obtain ⟨h1, s, hh1, hss, -, ho, hn, -⟩ := weighted h f
  have hs1 : s.deps = f.sid := by rw [hn hnew]; rfl
  unfold onPriority at hd
  rw [hh1, he] at hd
  unfold rebalance at hd
  split at hd
  · simp at hd
  · rename_i n hpn
    simp only [if_true] at hd
    have fin : ∀ k : Heap, (k f.sid).map (·.deps) = some f.sid → (∃ m, k f.dep = some m) →
        h' = (upd k f.dep fun x => { x with deps := f.sid, count := 1 }) →
        (h' f.sid).map (·.deps) = some f.sid ∧ (h' f.dep).map (·.deps) = some f.sid ∧
        (h' f.dep).map (·.count) = some 1 := by
      intro k hk ⟨m, hm⟩ e
      subst e
      refine ⟨by rw [upd_other _ _ _ _ (fun e => hs e.symm)]; exact hk, ?_, ?_⟩
      · rw [upd_same, hm]; rfl
      · rw [upd_same, hm]; rfl
    split at hd
    · exact fin h1 (by simp [hss, hs1]) ⟨n, hpn⟩ (Res.done.inj hd).symm
    · split at hd
      · rename_i k hk
        refine fin k ?_ ?_ (Res.done.inj hd).symm
        · rw [depsAdd_deps fuel h1 k f.dep f.sid (fun e => hs e.symm) hk, hss]; simp [hs1]
        · -- the parent stays in memory
          have live : ∀ (g : Heap) (a x : Nat) (u : Node → Node), (∃ m, g x = some m) → ∃ m, upd g a u x = some m := by
            intro g a x u ⟨m, hm⟩
            unfold upd
            split
            · rename_i e; subst e; exact ⟨u m, by rw [hm]; rfl⟩
            · exact ⟨m, hm⟩
          unfold depsAdd at hk
          rw [hpn, hss] at hk
          simp only at hk
          split at hk
          · simp at hk
          · simp at hk
          · split at hk
            · simp at hk
            · split at hk
              · simp at hk
              · have hk := Res.done.inj hk
                subst hk
                apply live
                split
                · exact live _ _ _ _ (live _ _ _ _ (live _ _ _ _ ⟨n, hpn⟩))
                · exact live _ _ _ _ (live _ _ _ _ (live _ _ _ _ ⟨n, hpn⟩))
          · have hk := Res.done.inj hk
            subst hk
            exact live _ _ _ _ (live _ _ _ _ (live _ _ _ _ (live _ _ _ _ ⟨n, hpn⟩)))
      · rename_i hk
        rw [hd] at hk
        exact absurd rfl (hk h')

example : (onFrames 10 start [toRoot 1 15, toRoot 3 15, ⟨5, true, 0, 7⟩]).doneWith
    (fun h => (h 5).map (·.deps) = some 5 && (h 0).map (·.deps) = some 5) := by decide +kernel

end Fly.H2P
