import Verif.H2Prio.Spec

namespace Fly.H2P

theorem upd_same (h : Heap) (a : Nat) (f : Node → Node) : upd h a f a = (h a).map f := by simp [upd]
theorem upd_other (h : Heap) (a x : Nat) (f : Node → Node) (hx : x ≠ a) : upd h a f x = h x := by simp [upd, hx]

/-- Each stream of the list points at the next one, the last one at `first`. -/
def Linked (h : Heap) (first : Nat) : List Nat → Prop
  | [] => True
  | [a] => ∃ n, h a = some n ∧ n.next = first
  | a :: b :: t => (∃ n, h a = some n ∧ n.next = b) ∧ Linked h first (b :: t)

/-- Only the links matter. -/
theorem Linked_congr (h h' : Heap) (first : Nat) (l : List Nat)
    (hh : ∀ a ∈ l, ∀ n, h a = some n → ∃ m, h' a = some m ∧ m.next = n.next) (hl : Linked h first l) :
    Linked h' first l := by
  induction l with
  | nil => trivial
  | cons a t ih =>
    cases t with
    | nil =>
      obtain ⟨n, h1, h2⟩ := hl
      obtain ⟨m, h3, h4⟩ := hh a (by simp) n h1
      exact ⟨m, h3, by rw [h4, h2]⟩
    | cons b t =>
      obtain ⟨⟨n, h1, h2⟩, h5⟩ := hl
      obtain ⟨m, h3, h4⟩ := hh a (by simp) n h1
      exact ⟨⟨m, h3, by rw [h4, h2]⟩, ih (fun x hx => hh x (by simp at hx ⊢; exact Or.inr hx)) h5⟩

/-- Appending a stream behind the last one. -/
theorem Linked_snoc (h h' : Heap) (first s : Nat) (l : List Nat) (last : Nat)
    (hh : ∀ a ∈ l, ∀ n, h a = some n → ∃ m, h' a = some m ∧ m.next = n.next)
    (hlast : ∃ m, h' last = some m ∧ m.next = s) (hs : ∃ m, h' s = some m ∧ m.next = first)
    (hl : Linked h first (l ++ [last])) : Linked h' first (l ++ [last, s]) := by
  induction l with
  | nil => exact ⟨hlast, hs⟩
  | cons a t ih =>
    have hh' : ∀ x ∈ t, ∀ n, h x = some n → ∃ m, h' x = some m ∧ m.next = n.next :=
      fun x hx => hh x (by simp [hx])
    cases t with
    | nil =>
      obtain ⟨⟨n, h1, h2⟩, h5⟩ := hl
      obtain ⟨m, h3, h4⟩ := hh a (by simp) n h1
      exact ⟨⟨m, h3, by rw [h4, h2]⟩, hlast, hs⟩
    | cons b t =>
      obtain ⟨⟨n, h1, h2⟩, h5⟩ := hl
      obtain ⟨m, h3, h4⟩ := hh a (by simp) n h1
      exact ⟨⟨m, h3, by rw [h4, h2]⟩, ih hh' h5⟩

theorem follow_linked (h : Heap) (first : Nat) (l : List Nat) (a : Nat) (t : List Nat) (hl : l = a :: t)
    (h1 : Linked h first l) (hf : ∃ n, h first = some n) : follow h (l.length + 1) a = l ++ [first] := by
  subst hl
  induction t generalizing a with
  | nil =>
    obtain ⟨n, h2, h3⟩ := h1
    simp only [List.length_cons, List.length_nil, follow, h2, h3]
    obtain ⟨m, h4⟩ := hf
    simp [h4]
  | cons b t ih =>
    obtain ⟨⟨n, h2, h3⟩, h4⟩ := h1
    rw [List.length_cons, follow, h2]
    simp only [h3]
    rw [ih b h4]
    rfl

/-- A ring without lighter streams is walked to its last stream. -/
theorem walk_last (h : Heap) (first w : Nat) (l : List Nat) (last : Nat) (fuel : Nat) (a : Nat) (t : List Nat)
    (he : l ++ [last] = a :: t) (hl : Linked h first (l ++ [last])) (hn : first ∉ t)
    (hw : ∀ x ∈ l, ∀ n, h x = some n → ¬ n.weight < w) (hf : l.length < fuel) :
    walk h first w fuel a = .last last := by
  induction l generalizing a t fuel with
  | nil =>
    simp at he
    obtain ⟨rfl, rfl⟩ := he
    obtain ⟨n, h1, h2⟩ := hl
    obtain ⟨f, rfl⟩ : ∃ f, fuel = f + 1 := ⟨fuel - 1, by simp at hf; omega⟩
    simp [walk, h1, h2]
  | cons b l ih =>
    simp only [List.cons_append, List.cons.injEq] at he
    obtain ⟨rfl, rfl⟩ := he
    obtain ⟨f, rfl⟩ : ∃ f, fuel = f + 1 := ⟨fuel - 1, by simp at hf; omega⟩
    cases hlt : l ++ [last] with
    | nil => simp at hlt
    | cons c u =>
      rw [List.cons_append, hlt] at hl
      obtain ⟨⟨n, h1, h2⟩, h3⟩ := hl
      have hb := hw b (by simp) n h1
      rw [hlt] at hn
      simp at hn
      rw [walk, h1]
      simp only
      rw [if_neg (by rw [h2]; omega), if_neg hb, h2]
      exact ih f c u hlt (by rw [hlt]; exact h3) hn.2 (fun x hx => hw x (by simp [hx]))
        (by simp at hf; omega)

/-- The root's ring holds the streams of the frames in order of arrival, with their weights. -/
structure Flat (h : Heap) (fs : List Frame) : Prop where
  root : ∃ r, h 0 = some r ∧ (fs = [] → r.count = 0) ∧ (∀ f t, fs = f :: t → r.count ≠ 0 ∧ r.deps = f.sid)
  linked : ∀ f t, fs = f :: t → Linked h f.sid (fs.map (·.sid))
  weights : ∀ f ∈ fs, ∃ n, h f.sid = some n ∧ n.weight = storedWeight f.weight

theorem flat_step (h : Heap) (fs : List Frame) (f : Frame) (hi : Flat h fs) (hs : f.sid ≠ 0)
    (hd : f.dep = 0) (he : f.exclusive = false) (hnd : (fs.map (·.sid)).Nodup) (h0 : ∀ g ∈ fs, g.sid ≠ 0)
    (hnew : ∀ g ∈ fs, g.sid ≠ f.sid)
    (hw : ∀ g ∈ fs.dropLast, storedWeight f.weight ≤ storedWeight g.weight) (fuel : Nat) (hf : fs.length < fuel) :
    ∃ h', onPriority fuel h f = .done h' ∧ Flat h' (fs ++ [f]) := by
  obtain ⟨r, hr, hr1, hr2⟩ := hi.root
  -- the heap with the stream and its weight
  generalize hh1 : upd (withStream h f.sid) f.sid (fun x => { x with weight := storedWeight f.weight }) = h1
  have hother : ∀ x, x ≠ f.sid → h1 x = h x := by
    intro x hx
    rw [← hh1, upd_other _ _ _ _ hx, withStream]
    cases h f.sid with
    | some n => rfl
    | none => simp [hx]
  obtain ⟨s, hss, hsw⟩ : ∃ s, h1 f.sid = some s ∧ s.weight = storedWeight f.weight := by
    rw [← hh1, upd_same, withStream]
    cases hx : h f.sid with
    | some n => exact ⟨{ n with weight := storedWeight f.weight }, by simp [hx], rfl⟩
    | none => exact ⟨{ created f.sid with weight := storedWeight f.weight }, by simp, rfl⟩
  have hroot : h1 0 = some r := by rw [hother 0 (by omega), hr]
  have hold : ∀ g ∈ fs, h1 g.sid = h g.sid := fun g hg => hother _ (hnew g hg)
  have hgo : onPriority fuel h f = rebalance fuel h1 f.sid 0 false := by
    unfold onPriority; rw [hh1, hd, he]
  cases fs with
  | nil =>
    have hc := hr1 rfl
    refine ⟨upd (upd h1 0 fun x => { x with deps := f.sid, count := 1 }) f.sid fun x => { x with next := f.sid, prev := f.sid },
      ?_, ?_⟩
    · rw [hgo]; simp [rebalance, hroot, hc]
    · have e0 : upd (upd h1 0 fun x => { x with deps := f.sid, count := 1 }) f.sid (fun x => { x with next := f.sid, prev := f.sid }) 0
          = some { r with deps := f.sid, count := 1 } := by
        rw [upd_other _ _ _ _ (by omega), upd_same, hroot]; rfl
      have es : upd (upd h1 0 fun x => { x with deps := f.sid, count := 1 }) f.sid (fun x => { x with next := f.sid, prev := f.sid }) f.sid
          = some { s with next := f.sid, prev := f.sid } := by
        rw [upd_same, upd_other _ _ _ _ (by omega), hss]; rfl
      refine ⟨⟨_, e0, by simp, ?_⟩, ?_, ?_⟩
      · intro g t hg; simp at hg; obtain ⟨rfl, _⟩ := hg; simp
      · intro g t hg
        simp at hg; obtain ⟨rfl, _⟩ := hg
        exact ⟨_, es, rfl⟩
      · intro g hg
        simp at hg; subst hg
        exact ⟨_, es, hsw⟩
  | cons g t =>
    obtain ⟨hc, hdeps⟩ := hr2 g t rfl
    have hlk := hi.linked g t rfl
    obtain ⟨init, last, hil⟩ : ∃ init last, (g :: t).map (·.sid) = init ++ [last] :=
      ⟨((g :: t).map (·.sid)).dropLast, ((g :: t).map (·.sid)).getLast (by simp), (List.dropLast_concat_getLast _).symm⟩
    have hmem : ∀ x ∈ init ++ [last], ∃ q ∈ g :: t, q.sid = x := by
      intro x hx
      rw [← hil, List.mem_map] at hx
      exact hx
    have hlk1 : Linked h1 g.sid (init ++ [last]) := by
      rw [← hil]
      refine Linked_congr h h1 _ _ ?_ hlk
      intro a ha n hn
      obtain ⟨q, hq, rfl⟩ := hmem a (by rw [← hil]; exact ha)
      exact ⟨n, by rw [hold q hq, hn], rfl⟩
    have hlast : last ≠ f.sid ∧ last ≠ 0 := by
      obtain ⟨q, hq, rfl⟩ := hmem last (by simp)
      exact ⟨hnew q hq, h0 q hq⟩
    have hlen : init.length + 1 = (g :: t).length := by
      have := congrArg List.length hil; simpa using this.symm
    have hwalk : walk h1 g.sid s.weight fuel g.sid = .last last := by
      refine walk_last h1 g.sid s.weight init last fuel g.sid (t.map (·.sid)) ?_ hlk1 ?_ ?_ (by omega)
      · rw [← hil]; rfl
      · simp only [List.map_cons, List.nodup_cons] at hnd; exact hnd.1
      · intro x hx n hn
        have hx' : x ∈ (g :: t).dropLast.map (·.sid) := by
          rw [List.map_dropLast, hil, List.dropLast_concat]; exact hx
        rw [List.mem_map] at hx'
        obtain ⟨q, hq', rfl⟩ := hx'
        have hq := (List.dropLast_sublist _).subset hq'
        obtain ⟨m, h2, h3⟩ := hi.weights q hq
        rw [hold q hq, h2] at hn
        have hn := Option.some.inj hn
        subst hn
        rw [h3, hsw]
        have := hw q hq'
        omega
    obtain ⟨ln, hln⟩ : ∃ n, h1 last = some n := by
      obtain ⟨q, hq, rfl⟩ := hmem last (by simp)
      obtain ⟨m, h2, _⟩ := hi.weights q hq
      exact ⟨m, by rw [hold q hq, h2]⟩
    generalize hh2 : upd (upd (upd (upd h1 last fun x => { x with next := f.sid }) f.sid fun x => { x with prev := last })
        f.sid fun x => { x with next := g.sid }) f.sid (fun x => { x with count := x.count + 1 }) = h2
    have hdone : onPriority fuel h f = .done h2 := by
      rw [hgo]
      unfold rebalance depsAdd
      simp only [hroot, hc, if_false, Bool.false_eq_true, hss, hdeps, hwalk, hh2]
    have e2 : h2 f.sid = some { s with prev := last, next := g.sid, count := s.count + 1 } := by
      rw [← hh2, upd_same, upd_same, upd_same, upd_other _ _ _ _ (by omega), hss]; rfl
    have el : h2 last = some { ln with next := f.sid } := by
      rw [← hh2, upd_other _ _ _ _ hlast.1, upd_other _ _ _ _ hlast.1, upd_other _ _ _ _ hlast.1, upd_same, hln]; rfl
    have eo : ∀ x, x ≠ f.sid → x ≠ last → h2 x = h1 x := by
      intro x h3 h4
      rw [← hh2, upd_other _ _ _ _ h3, upd_other _ _ _ _ h3, upd_other _ _ _ _ h3, upd_other _ _ _ _ h4]
    refine ⟨h2, hdone, ⟨r, ?_, by simp, ?_⟩, ?_, ?_⟩
    · rw [eo 0 (by omega) (fun e => hlast.2 e.symm), hroot]
    · intro q u hq; simp at hq; obtain ⟨rfl, _⟩ := hq; exact ⟨hc, hdeps⟩
    · intro q u hq
      simp at hq; obtain ⟨rfl, _⟩ := hq
      rw [List.map_append, hil]
      simp only [List.map_cons, List.map_nil, List.append_assoc, List.cons_append, List.nil_append]
      refine Linked_snoc h1 h2 g.sid f.sid init last ?_ ⟨_, el, rfl⟩ ⟨_, e2, rfl⟩ hlk1
      intro a ha n hn
      have hal : a ≠ last := by
        rw [hil, List.nodup_append] at hnd
        exact hnd.2.2 a ha last (by simp)
      obtain ⟨q, hq, rfl⟩ := hmem a (by simp [ha])
      exact ⟨n, by rw [eo _ (hnew q hq) hal, hn], rfl⟩
    · intro q hq
      rw [List.mem_append] at hq
      rcases hq with hq | hq
      · obtain ⟨m, h3, h4⟩ := hi.weights q hq
        by_cases hql : q.sid = last
        · refine ⟨_, by rw [hql]; exact el, ?_⟩
          have : h1 q.sid = some ln := by rw [hql, hln]
          rw [hold q hq, h3] at this
          rw [← Option.some.inj this]; exact h4
        · exact ⟨m, by rw [eo _ (hnew q hq) hql, hold q hq, h3], h4⟩
      · simp at hq; subst hq
        exact ⟨_, e2, hsw⟩

theorem flat_run (fs : List Frame) : ∀ (gs : List Frame) (h : Heap), Flat h gs →
    (∀ f ∈ fs, f.sid ≠ 0 ∧ f.dep = 0 ∧ f.exclusive = false) → (∀ g ∈ gs, g.sid ≠ 0) →
    ((gs ++ fs).map (·.sid)).Nodup → Falling (gs ++ fs) →
    ∀ fuel, (gs ++ fs).length < fuel → ∃ h', onFrames fuel h fs = .done h' ∧ Flat h' (gs ++ fs) := by
  induction fs with
  | nil => intro gs h hi _ _ _ _ fuel _; exact ⟨h, rfl, by simpa using hi⟩
  | cons f fs ih =>
    intro gs h hi hf hg hnd hp fuel hfu
    obtain ⟨h1, h2, h3⟩ := hf f (by simp)
    have hnd' := hnd
    rw [List.map_append, List.nodup_append] at hnd'
    obtain ⟨h', e1, e2⟩ := flat_step h gs f hi h1 h2 h3 hnd'.1 hg
      (fun g hgm => hnd'.2.2 g.sid (List.mem_map_of_mem hgm) f.sid (by simp))
      (fun g hgm => by
        obtain ⟨pre, mid, hpm⟩ := List.append_of_mem hgm
        have hne : gs ≠ [] := by intro e; rw [e] at hgm; simp at hgm
        refine hp pre (mid ++ [gs.getLast hne]) fs g f ?_ (by simp)
        conv => lhs; rw [← List.dropLast_concat_getLast hne, hpm]
        simp) fuel (by simp at hfu; omega)
    have eq : gs ++ f :: fs = (gs ++ [f]) ++ fs := by simp
    obtain ⟨h'', e3, e4⟩ := ih (gs ++ [f]) h' e2 (fun x hx => hf x (by simp [hx]))
      (by intro g hgm; simp at hgm; rcases hgm with hgm | rfl <;> first | exact h1 | exact hg g hgm)
      (by rw [← eq]; exact hnd) (by rw [← eq]; exact hp) fuel (by rw [← eq]; exact hfu)
    refine ⟨h'', ?_, by rw [eq]; exact e4⟩
    simp only [onFrames, e1, e3]

/-- A ring into which the list of streams leads but which does not lead back. -/
theorem walk_forever (h : Heap) (first w : Nat) (S : Nat → Prop)
    (hS : ∀ a, S a → ∃ n, h a = some n ∧ S n.next ∧ n.next ≠ first ∧ ¬ n.weight < w) (fuel a : Nat) (ha : S a) :
    walk h first w fuel a = .running := by
  induction fuel generalizing a with
  | zero => rfl
  | succ fuel ih =>
    obtain ⟨n, h1, h2, h3, h4⟩ := hS a ha
    rw [walk, h1]
    simp only
    rw [if_neg h3, if_neg h4]
    exact ih _ h2

/-- The heap of a frame's stream after its creation and its new weight. -/
theorem weighted (h : Heap) (f : Frame) :
    ∃ h1 s, upd (withStream h f.sid) f.sid (fun x => { x with weight := storedWeight f.weight }) = h1 ∧
      h1 f.sid = some s ∧ s.weight = storedWeight f.weight ∧ (∀ x, x ≠ f.sid → h1 x = h x) ∧
      (h f.sid = none → s = { created f.sid with weight := storedWeight f.weight }) ∧
      (∀ n, h f.sid = some n → s = { n with weight := storedWeight f.weight }) := by
  cases hx : h f.sid with
  | some n =>
    refine ⟨_, { n with weight := storedWeight f.weight }, rfl, ?_, rfl, ?_, by simp, ?_⟩
    · rw [upd_same, withStream, hx]; simp [hx]
    · intro x h1; rw [upd_other _ _ _ _ h1, withStream, hx]
    · intro m hm; rw [Option.some.inj hm]
  | none =>
    refine ⟨_, { created f.sid with weight := storedWeight f.weight }, rfl, ?_, rfl, ?_, by simp, by simp⟩
    · rw [upd_same, withStream, hx]; simp
    · intro x h1; rw [upd_other _ _ _ _ h1, withStream, hx]; simp [h1]

/-- A third stream heavier than the first becomes the root's first stream, but no other stream points at it. -/
theorem heavier_third (h : Heap) (a b c : Frame) (hi : Flat h [a, b]) (ha : a.sid ≠ 0) (hb : b.sid ≠ 0) (hc : c.sid ≠ 0)
    (hab : a.sid ≠ b.sid) (hac : a.sid ≠ c.sid) (hbc : b.sid ≠ c.sid) (hd : c.dep = 0) (he : c.exclusive = false)
    (hw : storedWeight a.weight < storedWeight c.weight) (fuel : Nat) :
    ∃ h', onPriority (fuel + 1) h c = .done h' ∧
      (∃ r, h' 0 = some r ∧ r.count ≠ 0 ∧ r.deps = c.sid) ∧
      (∃ n, h' a.sid = some n ∧ n.next = b.sid ∧ n.weight = storedWeight a.weight) ∧
      (∃ n, h' b.sid = some n ∧ n.next = a.sid ∧ n.weight = storedWeight b.weight) ∧
      (∃ n, h' c.sid = some n ∧ n.next = b.sid ∧ n.weight = storedWeight c.weight) := by
  obtain ⟨r, hr, -, hr2⟩ := hi.root
  obtain ⟨hcnt, hdeps⟩ := hr2 a [b] rfl
  obtain ⟨⟨na, hna, hnan⟩, nb, hnb, hnbn⟩ := hi.linked a [b] rfl
  have hwa : na.weight = storedWeight a.weight := by
    obtain ⟨m, h1, h2⟩ := hi.weights a (by simp)
    simp only at hna; rw [hna] at h1; rw [Option.some.inj h1]; exact h2
  have hwb : nb.weight = storedWeight b.weight := by
    obtain ⟨m, h1, h2⟩ := hi.weights b (by simp)
    simp only at hnb; rw [hnb] at h1; rw [Option.some.inj h1]; exact h2
  obtain ⟨h1, s, hh1, hs, hsw, ho, -, -⟩ := weighted h c
  have h1a : h1 a.sid = some na := by rw [ho _ hac, hna]
  have h1b : h1 b.sid = some nb := by rw [ho _ hbc, hnb]
  have h1r : h1 0 = some r := by rw [ho _ (fun e => hc e.symm), hr]
  have hwalk : walk h1 a.sid s.weight (fuel + 1) a.sid = .lighter a.sid := by
    rw [walk, h1a]
    simp only
    rw [if_neg (by rw [hnan]; exact fun e => hab e.symm), if_pos (by omega)]
  generalize hh2 : upd (upd (upd (upd h1 b.sid fun x => { x with prev := c.sid }) c.sid
      fun x => { x with next := b.sid, prev := a.sid }) 0 fun x => { x with deps := c.sid }) c.sid
      (fun x => { x with count := x.count + 1 }) = h2
  have hdone : onPriority (fuel + 1) h c = .done h2 := by
    unfold onPriority
    rw [hh1, hd, he]
    unfold rebalance depsAdd
    simp only [h1r, hcnt, if_false, Bool.false_eq_true, hs, hdeps, hwalk, h1a, hnan, h1b, if_true, hh2]
  refine ⟨h2, hdone, ⟨{ r with deps := c.sid }, ?_, hcnt, rfl⟩, ⟨na, ?_, hnan, hwa⟩,
    ⟨{ nb with prev := c.sid }, ?_, hnbn, hwb⟩, ⟨{ s with next := b.sid, prev := a.sid, count := s.count + 1 }, ?_, rfl, hsw⟩⟩
  · rw [← hh2, upd_other _ _ _ _ (by omega), upd_same, upd_other _ _ _ _ (by omega), upd_other _ _ _ _ (by omega), h1r]; rfl
  · rw [← hh2, upd_other _ _ _ _ hac, upd_other _ _ _ _ ha, upd_other _ _ _ _ hac, upd_other _ _ _ _ hab, h1a]
  · rw [← hh2, upd_other _ _ _ _ hbc, upd_other _ _ _ _ hb, upd_other _ _ _ _ hbc, upd_same, h1b]; rfl
  · rw [← hh2, upd_same, upd_other _ _ _ _ hc, upd_same, upd_other _ _ _ _ (fun e => hbc e.symm), hs]; rfl

theorem flat_start (h : Heap) (r : Node) (hr : h 0 = some r) (hc : r.count = 0) : Flat h [] :=
  ⟨⟨r, hr, fun _ => hc, by simp⟩, by simp, by simp⟩

end Fly.H2P
