import Verif.H2Wire.Props
import Verif.H2Stream.Inv
import Verif.H2Stream.Props

/-! # What any client can make of its HTTP/2 connection

Verif.H2Wire with bytes that need not be those of a proper client. -/

namespace Fly.H2Any
open H2S (Out Ctx Frame Stream isGoaway)
open H2Wire (Link Arrival At run step turn answers closeAll fresh Holds drawn winAt)
open Site (Site)

/-! ## The end of a connection -/

theorem finish_goaway (c : H2S.Conn) (sid : Nat) : (H2S.finish c sid).1.goaway = c.goaway := (H2S.finish_same c sid).1

theorem closeAll_goaway : ∀ (rs : List (Nat × Bytes)) (c : H2S.Conn), (closeAll c rs).goaway = c.goaway
  | [], _ => rfl
  | (sid, _) :: rs, c => by rw [closeAll, closeAll_goaway rs, finish_goaway]

theorem fresh_goaway (l : Link) (sid : Nat) (c : H2S.Conn) : (fresh l sid c).goaway = c.goaway := by
  unfold fresh; split <;> rfl

/-- What a step is made of. -/
theorem step_inv {s : Site} {k : H2Trip.Conn} {l l' : Link} {a : Arrival} {os : List Out} {rs : List (Nat × Bytes)} (h : step s k l a = some (l', os, rs)) (hg : l.c.goaway = false)
    (he : l.c.ended = false) : ∃ (h : H2Wire.Head) (f : Frame) (t : Hpack.DTab) (set : H2.Settings) (c : H2S.Conn) (z : At) (w : Int), H2Wire.headOf a.place = some h ∧
      H2Wire.decode l h = some (f, t, set) ∧ H2S.stepFrame l.c f = some (c, os) ∧ answers s k t z os = some rs ∧ l'.c = closeAll { fresh l h.sid c with window := w } rs := by
  unfold step at h
  rw [if_neg (by simp [hg, he])] at h
  cases ht : turn l a with
  | none => rw [ht] at h; simp at h
  | some q =>
    obtain ⟨l1, os1, sid⟩ := q
    rw [ht] at h
    simp only at h
    cases ha : answers s k l1.t ⟨a, winAt l a⟩ os1 with
    | none => rw [ha] at h; simp at h
    | some rs1 =>
      rw [ha] at h
      simp only [Option.some.injEq, Prod.mk.injEq] at h
      obtain ⟨rfl, rfl, rfl⟩ := h
      unfold turn at ht
      cases hh : H2Wire.headOf a.place with
      | none => rw [hh] at ht; simp at ht
      | some hd =>
        rw [hh] at ht
        simp only at ht
        cases hd2 : H2Wire.decode l hd with
        | none => rw [hd2] at ht; simp at ht
        | some q =>
          obtain ⟨f, t, set⟩ := q
          rw [hd2] at ht
          simp only at ht
          cases hs : H2S.stepFrame l.c f with
          | none => rw [hs] at ht; simp at ht
          | some q =>
            obtain ⟨c, os2⟩ := q
            rw [hs] at ht
            simp only [Option.some.injEq, Prod.mk.injEq] at ht
            obtain ⟨rfl, rfl, rfl⟩ := ht
            exact ⟨hd, f, t, set, c, _, _, rfl, hd2, hs, ha, rfl⟩

theorem step_over (s : Site) (k : H2Trip.Conn) (l : Link) (a : Arrival) (h : l.c.goaway = true) : step s k l a = some (l, [], []) := by
  unfold step
  rw [if_pos (by simp [h])]

theorem run_over (s : Site) (k : H2Trip.Conn) (l : Link) (h : l.c.goaway = true) : ∀ as, run s k l as = some (l, [], [])
  | [] => rfl
  | a :: as => by rw [run, step_over s k l a h]; simp only [run_over s k l h as, Option.map_some, List.append_nil]

theorem run_append (s : Site) (k : H2Trip.Conn) : ∀ (as bs : List Arrival) (l l1 l2 : Link) (os os' : List Out) (rs rs' : List (Nat × Bytes)), run s k l as = some (l1, os, rs) →
    run s k l1 bs = some (l2, os', rs') → run s k l (as ++ bs) = some (l2, os ++ os', rs ++ rs')
  | [], bs, l, l1, l2, os, os', rs, rs', h, h' => by
    simp only [run, Option.some.injEq, Prod.mk.injEq] at h
    obtain ⟨rfl, rfl, rfl⟩ := h
    exact h'
  | a :: as, bs, l, l1, l2, os, os', rs, rs', h, h' => by
    rw [run] at h
    cases hs : step s k l a with
    | none => rw [hs] at h; simp at h
    | some q =>
      obtain ⟨l3, os3, rs3⟩ := q
      rw [hs] at h
      simp only [Option.map_eq_some_iff] at h
      obtain ⟨⟨l4, os4, rs4⟩, h4, h5⟩ := h
      simp only [Prod.mk.injEq] at h5
      obtain ⟨rfl, rfl, rfl⟩ := h5
      rw [List.cons_append, run, hs]
      simp only [run_append s k as bs l3 l4 l2 os4 os' rs4 rs' h4 h', Option.map_some, List.append_assoc]

theorem run_cases {s : Site} {k : H2Trip.Conn} {l l' : Link} {a : Arrival} {as : List Arrival} {os : List Out} {rs : List (Nat × Bytes)} (h : run s k l (a :: as) = some (l', os, rs)) :
    ∃ l1 os1 rs1 os2 rs2, step s k l a = some (l1, os1, rs1) ∧ run s k l1 as = some (l', os2, rs2) ∧ os = os1 ++ os2 ∧ rs = rs1 ++ rs2 := by
  rw [run] at h
  cases hs : step s k l a with
  | none => rw [hs] at h; simp at h
  | some q =>
    obtain ⟨l1, os1, rs1⟩ := q
    rw [hs] at h
    simp only [Option.map_eq_some_iff] at h
    obtain ⟨⟨l2, os2, rs2⟩, h2, h3⟩ := h
    simp only [Prod.mk.injEq] at h3
    obtain ⟨rfl, rfl, rfl⟩ := h3
    exact ⟨l1, os1, rs1, os2, rs2, rfl, h2, rfl, rfl⟩

/-! ## One response for a stream -/

/-- The streams that are answered. -/
def dispatched (os : List Out) : List Nat := os.filterMap fun
  | .dispatch sid _ _ _ => some sid
  | _ => none

theorem dispatched_append (a b : List Out) : dispatched (a ++ b) = dispatched a ++ dispatched b := List.filterMap_append

theorem dispatched_quiet {o : List Out} (h : ∀ a ∈ o, H2S.quiet a = true) : dispatched o = [] := by
  unfold dispatched
  rw [List.filterMap_eq_nil_iff]
  intro a ha
  have := h a ha
  cases a <;> simp_all [H2S.quiet]

theorem dispatched_credit {o : List Out} (h : ∀ a ∈ o, ∃ s n, a = Out.windowUpdate s n) : dispatched o = [] := by
  unfold dispatched
  rw [List.filterMap_eq_nil_iff]
  intro a ha
  obtain ⟨s, n, rfl⟩ := h a ha
  rfl

theorem answers_streams (s : Site) (k : H2Trip.Conn) (t : Hpack.DTab) (z : At) : ∀ (os : List Out) (rs : List (Nat × Bytes)), answers s k t z os = some rs → rs.map (·.1) = dispatched os
  | [], rs, h => by
    simp only [answers, Option.some.injEq] at h
    subst h; rfl
  | o :: os, rs, h => by
    cases o with
    | dispatch sid hs b d =>
      simp only [answers] at h
      split at h
      · simp at h
      · simp only [Option.map_eq_some_iff] at h
        obtain ⟨q, hq, rfl⟩ := h
        show sid :: q.map (·.1) = sid :: dispatched os
        rw [answers_streams s k t z os q hq]
    | _ => exact answers_streams s k t z os rs h

/-- What a frame answers: nothing, or its own stream, which is then done. -/
def Single (x y : Ctx) : Prop := dispatched y.o = dispatched x.o ∨ (dispatched y.o = dispatched x.o ++ [x.s.id] ∧ y.s.canResp = true ∧ y.s.st = .halfRemote)

theorem quiet_dispatched {f : Frame} {x y : Ctx} (q : H2S.Quiet f x y) : dispatched y.o = dispatched x.o := by
  obtain ⟨o, e, h⟩ := q.out
  rw [e, dispatched_append, dispatched_quiet h, List.append_nil]

theorem respond_single {f : Frame} {x y : Ctx} (h : H2S.respond f x = some y) : Single x y := by
  rcases H2S.respond_cases f x y h with ⟨rfl, _⟩ | ⟨hst, _, hs, _, o, e, hq, ey, _⟩
  · exact Or.inl rfl
  · refine Or.inr ⟨?_, by rw [ey], by rw [ey]; exact hst⟩
    rw [e, dispatched_append]
    show _ ++ (x.s.id :: dispatched o) = _
    rw [dispatched_quiet hq]

theorem handle_single (f : Frame) (x y : Ctx) (h : H2S.handle f x = some y) : Single x y := by
  by_cases h0 : f.type = 0
  · have h' : H2S.onData f x = some y := by unfold H2S.handle at h; rw [h0] at h; exact h
    obtain ⟨x1, x2, b, q1, _, hp, hf, ht⟩ := H2S.onData_cases f h0 x y h'
    obtain ⟨c2, _, _, _, _, _, ⟨o2, e2, _, _, w2⟩, _⟩ := H2S.parseData_cases _ _ _ _ _ hp
    have d2 : dispatched x2.o = dispatched x.o := by rw [e2, dispatched_append, dispatched_credit w2, List.append_nil, quiet_dispatched q1]
    cases b with
    | false =>
      rw [hf rfl]
      refine Or.inl ?_
      show dispatched (x2.o ++ [.emergency]) = _
      rw [dispatched_append, d2]
      exact List.append_nil _
    | true =>
      obtain ⟨x3, q3, _, e3, hr⟩ := ht rfl
      have hid : x3.s.id = x.s.id := by rw [q3.core.id, c2.id, q1.core.id]
      rcases respond_single hr with r | ⟨r, r1, r2⟩
      · exact Or.inl (by rw [r, e3, d2])
      · exact Or.inr ⟨by rw [r, e3, d2, hid], r1, r2⟩
  by_cases h1 : f.type = 1
  · have h' : H2S.onHeaders f x = some y := by unfold H2S.handle at h; rw [h1] at h; exact h
    obtain ⟨x1, x3, q1, _, q3, hr⟩ := H2S.onHeaders_cases f h1 x y h'
    have hid : x3.s.id = x.s.id := by rw [q3.core.id]; exact q1.core.id
    have hd : dispatched x3.o = dispatched x.o := (quiet_dispatched q3).trans (show dispatched x1.o = dispatched x.o from quiet_dispatched q1)
    rcases respond_single hr with r | ⟨r, r1, r2⟩
    · exact Or.inl (by rw [r, hd])
    · exact Or.inr ⟨by rw [r, hd, hid], r1, r2⟩
  by_cases h5 : f.type = 5
  · have h' : H2S.onPushPromise f x = some y := by unfold H2S.handle at h; rw [h5] at h; exact h
    obtain ⟨_, _, _, o, e, hq⟩ := H2S.pushPromise_out f x y h'
    exact Or.inl (by rw [e, dispatched_append, dispatched_quiet hq, List.append_nil])
  by_cases h9 : f.type = 9
  · have h' : H2S.onContinuation f x = some y := by unfold H2S.handle at h; rw [h9] at h; exact h
    obtain ⟨x1, _, q1, q2⟩ := H2S.onCont_cases f h9 x y h'
    exact Or.inl ((quiet_dispatched q2).trans (show dispatched x1.o = dispatched x.o from quiet_dispatched q1))
  exact Or.inl (quiet_dispatched (H2S.handle_other f x y h h0 h1 h5 h9))

/-- The same for a whole frame. -/
def Once (sid : Nat) (c' : H2S.Conn) (o : List Out) : Prop :=
  dispatched o = [] ∨ (dispatched o = [sid] ∧ sid ≠ 0 ∧ ∃ s ∈ c'.streams, s.id = sid ∧ s.canResp = true ∧ s.st = .halfRemote)

theorem process_once {fs : List Frame} {f : Frame} {c c' : H2S.Conn} {s : Stream} {o0 o : List Out} (hI : H2S.Inv fs c) (hs : H2S.search c f.sid = some s) (h0 : dispatched o0 = [])
    (h : H2S.process f ⟨c, s, o0⟩ = some (c', o)) : Once f.sid c' o := by
  unfold H2S.process at h
  split at h
  · simp only [Option.some.injEq, Prod.mk.injEq] at h
    obtain ⟨rfl, rfl⟩ := h
    refine Or.inl ?_
    show dispatched (o0 ++ [.goaway _]) = []
    rw [dispatched_append, h0]; rfl
  · rw [Option.map_eq_some_iff] at h
    obtain ⟨y, hy, h⟩ := h
    simp only [Prod.mk.injEq] at h
    obtain ⟨rfl, rfl⟩ := h
    by_cases hz : f.sid = 0
    · have hsr : s = c.root := by
        unfold H2S.search at hs; rw [if_pos hz] at hs
        exact (Option.some.inj hs).symm
      subst hsr
      obtain ⟨_, _, o1, e, _, nd, _⟩ := H2S.handle_root f _ y hy hI.rootId hz hI.rootHd
      refine Or.inl ?_
      rw [e, dispatched_append, h0, List.nil_append]
      unfold dispatched
      rw [List.filterMap_eq_nil_iff]
      intro a ha
      cases a with
      | dispatch sid hd b d => exact absurd ha (nd sid hd b d)
      | _ => rfl
    · have hsm : s ∈ c.streams ∧ s.id = f.sid := by
        unfold H2S.search at hs; rw [if_neg hz] at hs
        exact ⟨List.mem_of_find?_eq_some hs, by simpa using List.find?_some hs⟩
      obtain ⟨co, _⟩ := H2S.handle_spec fs f _ y hy hsm.2 hz (hI.sok s hsm.1)
      rcases handle_single f _ y hy with r | ⟨r, r1, r2⟩
      · exact Or.inl (by rw [r]; exact h0)
      · have hid : y.s.id = f.sid := by rw [co.id]; exact hsm.2
        refine Or.inr ⟨?_, hz, y.s, ?_, hid, r1, r2⟩
        · rw [r, show dispatched (Ctx.mk c s o0).o = [] from h0, List.nil_append]
          exact congrArg (fun n => [n]) hsm.2
        · unfold Ctx.commit
          rw [if_neg (by rw [hid]; exact hz)]
          refine List.mem_map.2 ⟨s, by rw [co.streams]; exact hsm.1, if_pos (by rw [hid]; exact hsm.2)⟩

theorem frame_once {fs : List Frame} {f : Frame} {c c' : H2S.Conn} {o : List Out} (hI : H2S.Inv fs c) (hg : c.goaway = false) (h : H2S.stepFrame c f = some (c', o)) :
    Once f.sid c' o ∧ (dispatched o ≠ [] → (f.sid ∈ c.streams.map (·.id) ∨ c.maxSid < f.sid) ∧ f.sid % 2 = 1) := by
  have he : c.ended = false := by
    cases he : c.ended
    · rfl
    · rw [hI.ended he] at hg; simp at hg
  have key : ∀ (d : H2S.Conn) (o0 : List Out), H2S.Inv fs d → d.streams = c.streams → d.maxSid = c.maxSid → dispatched o0 = [] → H2S.stepRest d f o0 = some (c', o) →
      Once f.sid c' o ∧ (dispatched o ≠ [] → (f.sid ∈ c.streams.map (·.id) ∨ c.maxSid < f.sid) ∧ f.sid % 2 = 1) := by
    intro d o0 hd e1 e2 h0 h
    unfold H2S.stepRest at h
    split at h
    · next s hs =>
      have on := process_once hd hs h0 h
      refine ⟨on, fun hne => ?_⟩
      rcases on with on | ⟨_, hz, _⟩
      · exact absurd on hne
      · have hsm : s ∈ d.streams ∧ s.id = f.sid := by
          unfold H2S.search at hs; rw [if_neg hz] at hs
          exact ⟨List.mem_of_find?_eq_some hs, by simpa using List.find?_some hs⟩
        exact ⟨Or.inl (List.mem_map.2 ⟨s, e1 ▸ hsm.1, hsm.2⟩), by rw [← hsm.2]; exact (hd.range s hsm.1).1⟩
    · next hs =>
      split at h
      · simp only [Option.some.injEq, Prod.mk.injEq] at h
        obtain ⟨rfl, rfl⟩ := h
        have : dispatched (o0 ++ [Out.goaway H2S.protocolError]) = [] := by rw [dispatched_append, h0]; rfl
        exact ⟨Or.inl this, fun hne => absurd this hne⟩
      · next hr =>
        have hr : H2S.refuse d f.sid = false := by simpa using hr
        have on := process_once (H2S.create_inv hd hr) (H2S.search_create hr hs) (by rw [dispatched_append, h0]; rfl) h
        unfold H2S.refuse at hr
        simp only [Bool.or_eq_false_iff, decide_eq_false_iff_not, beq_eq_false_iff_ne] at hr
        exact ⟨on, fun _ => ⟨Or.inr (by omega), by omega⟩⟩
  rw [H2S.stepFrame_eq c f hg he] at h
  split at h
  · exact key { c with goaway := true } [.goaway H2S.protocolError] (H2S.inv_goaway hI) rfl rfl rfl h
  · exact key c [] hI rfl rfl rfl h

/-! ### The windows do not matter -/

theorem fresh_inv {fs : List Frame} {c : H2S.Conn} (l : Link) (sid : Nat) (w : Int) (h : H2S.Inv fs c) : H2S.Inv fs { fresh l sid c with window := w } := by
  unfold fresh
  split
  · exact ⟨h.count, h.nodup, h.range, h.fresh, h.sok, h.rootHd, h.rootId, h.conc, h.ended⟩
  · have hm : ∀ s ∈ c.streams.map (fun st => if st.id = sid then { st with window := st.window + ((l.set.initialWindowSize : Int) - 65535) } else st),
        ∃ t ∈ c.streams, s.id = t.id ∧ s.peerEnd = t.peerEnd ∧ s.st = t.st ∧ s.canResp = t.canResp ∧ s.headers = t.headers ∧ s.discard = t.discard ∧ s.body = t.body := by
      intro s hs
      obtain ⟨t, ht, rfl⟩ := List.mem_map.1 hs
      refine ⟨t, ht, ?_⟩
      split <;> simp
    have hi : (c.streams.map (fun st => if st.id = sid then { st with window := st.window + ((l.set.initialWindowSize : Int) - 65535) } else st)).map (·.id) = c.streams.map (·.id) := by
      rw [List.map_map]
      apply List.map_congr_left
      intro t _
      simp only [Function.comp]
      split <;> rfl
    refine ⟨by rw [h.count]; simp, by rw [hi]; exact h.nodup, ?_, h.fresh, ?_, h.rootHd, h.rootId, h.conc, h.ended⟩
    · intro s hs
      obtain ⟨t, ht, e, _⟩ := hm s hs
      rw [e]
      exact h.range t ht
    · intro s hs
      obtain ⟨t, ht, e1, e2, e3, e4, e5, e6, e7⟩ := hm s hs
      have := h.sok t ht
      exact ⟨by rw [e1, e2]; exact this.pe, by rw [e1, e3]; exact this.st, by rw [e1, e4]; exact this.cr, by rw [e1, e5]; exact this.hd, by rw [e1, e6, e7]; exact this.bd⟩

theorem fresh_ids (l : Link) (sid : Nat) (c : H2S.Conn) : (fresh l sid c).streams.map (·.id) = c.streams.map (·.id) := by
  unfold fresh
  split
  · rfl
  · rw [List.map_map]
    apply List.map_congr_left
    intro t _
    simp only [Function.comp]
    split <;> rfl

theorem fresh_maxSid (l : Link) (sid : Nat) (c : H2S.Conn) : (fresh l sid c).maxSid = c.maxSid := by
  unfold fresh; split <;> rfl

theorem fresh_done {l : Link} {sid i : Nat} {c : H2S.Conn} (h : ∃ s ∈ c.streams, s.id = i ∧ s.canResp = true ∧ s.st = .halfRemote) :
    ∃ s ∈ (fresh l sid c).streams, s.id = i ∧ s.canResp = true ∧ s.st = .halfRemote := by
  obtain ⟨s, hs, h1, h2, h3⟩ := h
  unfold fresh
  split
  · exact ⟨s, hs, h1, h2, h3⟩
  · refine ⟨_, List.mem_map.2 ⟨s, hs, rfl⟩, ?_⟩
    split
    · exact ⟨h1, h2, h3⟩
    · exact ⟨h1, h2, h3⟩

theorem finish_gone {c : H2S.Conn} {sid : Nat} (h : ∃ s ∈ c.streams, s.id = sid ∧ s.canResp = true ∧ s.st = .halfRemote) : sid ∉ (H2S.finish c sid).1.streams.map (·.id) := by
  obtain ⟨s, hs, h1, h2, h3⟩ := h
  unfold H2S.finish
  rw [if_pos (List.any_eq_true.2 ⟨s, hs, by simp [h1, h2, h3]⟩)]
  simp

theorem finish_sub (c : H2S.Conn) (sid : Nat) : ∀ i ∈ (H2S.finish c sid).1.streams.map (·.id), i ∈ c.streams.map (·.id) := by
  intro i hi
  unfold H2S.finish at hi
  split at hi
  · obtain ⟨s, hs, rfl⟩ := List.mem_map.1 hi
    exact List.mem_map.2 ⟨s, (List.mem_filter.1 hs).1, rfl⟩
  · exact hi

/-- The streams answered so far: no longer there, and not to be opened again. -/
structure Past (c : H2S.Conn) (ids : List Nat) : Prop where
  gone : ∀ i ∈ ids, i ≤ c.maxSid ∧ i ∉ c.streams.map (·.id)

theorem step_past {s : Site} {k : H2Trip.Conn} {l l' : Link} {a : Arrival} {os : List Out} {rs : List (Nat × Bytes)} (h : step s k l a = some (l', os, rs)) {fs : List Frame}
    {ids : List Nat} (hI : l.c.goaway = false → H2S.Inv fs l.c ∧ Past l.c ids) :
    (l'.c.goaway = false → ∃ f, H2S.Inv (fs ++ f) l'.c ∧ Past l'.c (ids ++ rs.map (·.1))) ∧ (l.c.goaway = true → l' = l ∧ os = [] ∧ rs = []) ∧
      (rs = [] ∨ ∃ sid b, rs = [(sid, b)] ∧ sid % 2 = 1 ∧ sid ∉ ids) ∧ ((∃ o ∈ os, isGoaway o = true) → l'.c.goaway = true) := by
  cases hg : l.c.goaway with
  | true =>
    rw [step_over s k l a hg] at h
    simp only [Option.some.injEq, Prod.mk.injEq] at h
    obtain ⟨rfl, rfl, rfl⟩ := h
    exact ⟨fun hg' => by rw [hg] at hg'; simp at hg', fun _ => ⟨rfl, rfl, rfl⟩, Or.inl rfl, by simp⟩
  | false =>
    obtain ⟨hi, hp⟩ := hI hg
    have he : l.c.ended = false := by
      cases he : l.c.ended
      · rfl
      · rw [hi.ended he] at hg; simp at hg
    obtain ⟨hd, f, t, set, c, z, w, _, _, hst, ha, hc⟩ := step_inv h hg he
    have sp := H2S.stepFrame_spec fs f l.c c os hi hg hst
    have hids := H2S.stepFrame_ids fs f l.c c os hi hg hst
    obtain ⟨on, onew⟩ := frame_once hi hg hst
    have hrs := answers_streams s k t z os rs ha
    have hgo : l'.c.goaway = c.goaway := by
      rw [hc, closeAll_goaway]
      exact fresh_goaway l hd.sid c
    have hmax : l.c.maxSid ≤ c.maxSid := by
      rcases sp.opened with ⟨_, e⟩ | ⟨i, _, lt, _, e⟩
      · rw [e]; exact Nat.le_refl _
      · rw [e]; exact Nat.le_of_lt lt
    have hpast : ∀ i ∈ ids, i ≤ c.maxSid ∧ i ∉ c.streams.map (·.id) := by
      intro i hi'
      obtain ⟨p1, p2⟩ := hp.gone i hi'
      refine ⟨by omega, ?_⟩
      rw [hids, List.mem_append]
      rintro (q | q)
      · exact p2 q
      · rcases sp.opened with ⟨e, _⟩ | ⟨j, e, lt, _, _⟩
        · rw [e] at q; simp at q
        · rw [e] at q
          rcases List.mem_singleton.1 q with rfl
          omega
    refine ⟨?_, by simp, ?_, ?_⟩
    · intro hg'
      have hgc : c.goaway = false := by rw [← hgo]; exact hg'
      have inv := fresh_inv l hd.sid w (sp.inv hgc)
      refine ⟨[f], ?_⟩
      rcases on with on | ⟨on, hz, hex⟩
      · rw [on] at hrs
        have : rs = [] := List.map_eq_nil_iff.1 hrs
        subst this
        rw [hc]
        refine ⟨inv, ⟨?_⟩⟩
        intro i hi'
        rw [List.map_nil, List.append_nil] at hi'
        have := hpast i hi'
        refine ⟨?_, ?_⟩
        · show i ≤ (fresh l hd.sid c).maxSid
          rw [fresh_maxSid]; exact this.1
        · show i ∉ (fresh l hd.sid c).streams.map (·.id)
          rw [fresh_ids]; exact this.2
      · rw [on] at hrs
        cases rs with
        | nil => simp at hrs
        | cons r rs =>
          simp only [List.map_cons, List.cons.injEq, List.map_eq_nil_iff] at hrs
          obtain ⟨hr1, rfl⟩ := hrs
          obtain ⟨r1, b⟩ := r
          simp only at hr1
          subst hr1
          rw [hc]
          simp only [closeAll]
          refine ⟨H2S.finish_spec inv f.sid, ⟨?_⟩⟩
          have hm := (H2S.finish_same { fresh l hd.sid c with window := w } f.sid).2.2.1
          intro i hi'
          rw [hm]
          rcases List.mem_append.1 hi' with hi' | hi'
          · have := hpast i hi'
            refine ⟨?_, fun q => ?_⟩
            · show i ≤ (fresh l hd.sid c).maxSid
              rw [fresh_maxSid]; exact this.1
            · have := finish_sub _ _ i q
              rw [show ({ fresh l hd.sid c with window := w } : H2S.Conn).streams = (fresh l hd.sid c).streams from rfl, fresh_ids] at this
              exact (hpast i hi').2 this
          · simp only [List.map_cons, List.map_nil, List.mem_singleton] at hi'
            subst hi'
            refine ⟨?_, finish_gone (fresh_done (l := l) (sid := hd.sid) hex)⟩
            show f.sid ≤ (fresh l hd.sid c).maxSid
            rw [fresh_maxSid]
            exact (sp.inv hgc).fresh f (by simp)
    · rcases on with on | ⟨on, hz, hex⟩
      · rw [on] at hrs
        exact Or.inl (List.map_eq_nil_iff.1 hrs)
      · obtain ⟨hwhere, hodd⟩ := onew (by rw [on]; simp)
        rw [on] at hrs
        cases rs with
        | nil => simp at hrs
        | cons r rs =>
          simp only [List.map_cons, List.cons.injEq, List.map_eq_nil_iff] at hrs
          obtain ⟨hr1, rfl⟩ := hrs
          refine Or.inr ⟨r.1, r.2, rfl, by rw [hr1]; exact hodd, ?_⟩
          rw [hr1]
          intro hm
          obtain ⟨p1, p2⟩ := hp.gone _ hm
          rcases hwhere with q | q
          · exact p2 q
          · omega
    · rintro ⟨o, ho, hgo'⟩
      rw [hgo]
      exact (H2S.gc_step hst).1 o ho hgo'

theorem run_past (s : Site) (k : H2Trip.Conn) : ∀ (as : List Arrival) (l l' : Link) (os : List Out) (rs : List (Nat × Bytes)) (fs : List Frame) (ids : List Nat),
    run s k l as = some (l', os, rs) → (l.c.goaway = false → H2S.Inv fs l.c ∧ Past l.c ids) → ids.Nodup →
    (ids ++ rs.map (·.1)).Nodup ∧ (∀ r ∈ rs, r.1 % 2 = 1) ∧ (l.c.goaway = true → l' = l) ∧ ((∃ o ∈ os, isGoaway o = true) → l'.c.goaway = true)
  | [], l, l', os, rs, fs, ids, h, _, hn => by
    simp only [run, Option.some.injEq, Prod.mk.injEq] at h
    obtain ⟨rfl, rfl, rfl⟩ := h
    exact ⟨by simpa using hn, by simp, fun _ => rfl, by simp⟩
  | a :: as, l, l', os, rs, fs, ids, h, hI, hn => by
    obtain ⟨l1, os1, rs1, os2, rs2, h1, h2, rfl, rfl⟩ := run_cases h
    obtain ⟨s1, s2, s3, s4⟩ := step_past h1 hI
    have hn1 : (ids ++ rs1.map (·.1)).Nodup ∧ ∀ r ∈ rs1, r.1 % 2 = 1 := by
      rcases s3 with rfl | ⟨sid, b, rfl, odd, hni⟩
      · exact ⟨by simpa using hn, by simp⟩
      · refine ⟨?_, by simp [odd]⟩
        rw [List.nodup_append]
        refine ⟨hn, by simp, ?_⟩
        intro x hx y hy e
        simp only [List.map_cons, List.map_nil, List.mem_singleton] at hy
        subst hy; subst e
        exact hni hx
    have hI' : ∃ fs', l1.c.goaway = false → H2S.Inv fs' l1.c ∧ Past l1.c (ids ++ rs1.map (·.1)) := by
      cases hg : l1.c.goaway with
      | true => exact ⟨[], by simp⟩
      | false =>
        obtain ⟨f, q⟩ := s1 hg
        exact ⟨fs ++ f, fun _ => q⟩
    obtain ⟨fs', hI'⟩ := hI'
    obtain ⟨r1, r2, r3, r4⟩ := run_past s k as l1 l' os2 rs2 fs' (ids ++ rs1.map (·.1)) h2 hI' hn1.1
    refine ⟨by rw [List.map_append, ← List.append_assoc]; exact r1, ?_, ?_, ?_⟩
    · intro r hr
      rcases List.mem_append.1 hr with hr | hr
      · exact hn1.2 r hr
      · exact r2 r hr
    · intro hg
      obtain ⟨rfl, _⟩ := s2 hg
      exact r3 hg
    · rintro ⟨o, ho, hgo⟩
      rcases List.mem_append.1 ho with ho | ho
      · have := s4 ⟨o, ho, hgo⟩
        rw [r3 this]; exact this
      · exact r4 ⟨o, ho, hgo⟩

/-! ### GOAWAY of the client -/

theorem goaway_frame {f : Frame} {c c' : H2S.Conn} {o : List Out} (hf : f.type = 7) (h : H2S.stepFrame c f = some (c', o)) (hg : c.goaway = false) (he : c.ended = false) : c'.goaway = true := by
  have hcom : ∀ y : Ctx, y.commit.goaway = y.c.goaway := by intro y; unfold Ctx.commit; split <;> rfl
  have key : ∀ x : Ctx, H2S.process f x = some (c', o) → c'.goaway = true := by
    intro x hx
    unfold H2S.process at hx
    split at hx
    · simp only [Option.some.injEq, Prod.mk.injEq] at hx
      obtain ⟨rfl, _⟩ := hx
      rw [hcom]; rfl
    · rw [Option.map_eq_some_iff] at hx
      obtain ⟨y, hy, hx⟩ := hx
      simp only [Prod.mk.injEq] at hx
      obtain ⟨rfl, _⟩ := hx
      rw [hcom]
      unfold H2S.handle at hy
      rw [hf] at hy
      simp only [H2S.onGoaway, Option.some.injEq] at hy
      subst hy
      unfold Ctx.when
      repeat' split
      all_goals rfl
  rw [H2S.stepFrame_eq c f hg he] at h
  split at h
  all_goals
    unfold H2S.stepRest at h
    split at h
    · exact key _ h
    · split at h
      · simp only [Option.some.injEq, Prod.mk.injEq] at h
        obtain ⟨rfl, _⟩ := h
        rfl
      · exact key _ h

theorem decode_type7 {l : Link} {h : H2Wire.Head} {f : Frame} {t : Hpack.DTab} {set : H2.Settings} (hd : H2Wire.decode l h = some (f, t, set)) (h7 : h.type = 7) : f.type = 7 := by
  unfold H2Wire.decode at hd
  simp only [h7] at hd
  split at hd
  · simp only [Option.some.injEq, Prod.mk.injEq] at hd
    rw [← hd.1]
  · split at hd
    · simp at hd
    · rw [Option.map_eq_some_iff] at hd
      obtain ⟨r, _, hd⟩ := hd
      simp only [Prod.mk.injEq] at hd
      rw [← hd.1]

theorem run_client_goaway (s : Site) (k : H2Trip.Conn) (b : Arrival) (fl sid : Nat) (pl : Bytes) (hb : Holds b.place 7 fl sid pl) : ∀ (as : List Arrival) (l l' : Link) (os : List Out)
    (rs : List (Nat × Bytes)) (fs : List Frame) (ids : List Nat), run s k l as = some (l', os, rs) → (l.c.goaway = false → H2S.Inv fs l.c ∧ Past l.c ids) → b ∈ as → l'.c.goaway = true
  | [], _, _, _, _, _, _, _, _, hm => by simp at hm
  | a :: as, l, l', os, rs, fs, ids, h, hI, hm => by
    obtain ⟨l1, os1, rs1, os2, rs2, h1, h2, rfl, rfl⟩ := run_cases h
    have keep : l1.c.goaway = true → l'.c.goaway = true := by
      intro hg
      rw [run_over s k l1 hg as] at h2
      simp only [Option.some.injEq, Prod.mk.injEq] at h2
      rw [← h2.1]; exact hg
    cases hg1 : l1.c.goaway with
    | true => exact keep hg1
    | false =>
      obtain ⟨s1, s2, _⟩ := step_past h1 hI
      have hg : l.c.goaway = false := by
        cases hg : l.c.goaway
        · rfl
        · rw [(s2 hg).1, hg] at hg1; simp at hg1
      rcases List.mem_cons.1 hm with rfl | hm
      · obtain ⟨hi, _⟩ := hI hg
        have he : l.c.ended = false := by
          cases he : l.c.ended
          · rfl
          · rw [hi.ended he] at hg; simp at hg
        obtain ⟨hd, f, t, set, c, z, w, e1, e2, e3, _, e5⟩ := step_inv h1 hg he
        obtain ⟨p, rest, e6, _⟩ := H2Wire.headOf_frame hb
        rw [e6, Option.some.injEq] at e1
        have := goaway_frame (decode_type7 e2 (by rw [← e1])) e3 hg he
        rw [e5, closeAll_goaway, show ({ fresh l hd.sid c with window := w } : H2S.Conn).goaway = (fresh l hd.sid c).goaway from rfl, fresh_goaway, this] at hg1
        simp at hg1
      · obtain ⟨f, q⟩ := s1 hg1
        exact run_client_goaway s k b fl sid pl hb as l1 l' os2 rs2 (fs ++ f) _ h2 (fun _ => q) hm

theorem init_inv (maxBody : Nat) (g : Hpack.DNode) (limit : Nat) : H2S.Inv [] (Link.init maxBody g limit).c ∧ Past (Link.init maxBody g limit).c [] :=
  ⟨H2S.Inv.init maxBody none, ⟨by simp⟩⟩

/-! ## C203 -/

/-- **C203.**  Whatever bytes a client sends: once the server has sent GOAWAY or given up the connection, or the client has sent GOAWAY, nothing that arrives has any effect.  No frame is put
out, no request is answered, and the connection stays as it is; not even bytes that are no frames, or that the server could not read safely, do anything. -/
theorem C203_nothing_after_end (s : Site) (k : H2Trip.Conn) (maxBody : Nat) (g : Hpack.DNode) (limit : Nat) (as more : List Arrival) (l : Link) (os : List Out) (rs : List (Nat × Bytes))
    (h : run s k (Link.init maxBody g limit) as = some (l, os, rs))
    (hend : (∃ code, Out.goaway code ∈ os) ∨ Out.emergency ∈ os ∨ ∃ a ∈ as, ∃ flags sid payload, Holds a.place 7 flags sid payload) :
    run s k (Link.init maxBody g limit) (as ++ more) = some (l, os, rs) := by
  have hi := init_inv maxBody g limit
  have hg : l.c.goaway = true := by
    rcases hend with ⟨code, hc⟩ | he | ⟨a, ha, fl, sid, pl, hp⟩
    · exact (run_past s k as _ l os rs [] [] h (fun _ => hi) (by simp)).2.2.2 ⟨_, hc, rfl⟩
    · exact (run_past s k as _ l os rs [] [] h (fun _ => hi) (by simp)).2.2.2 ⟨_, he, rfl⟩
    · exact run_client_goaway s k a fl sid pl hp as _ l os rs [] [] h (fun _ => hi) ha
  have := run_append s k as more _ l l os [] rs [] h (run_over s k l hg more)
  rwa [List.append_nil, List.append_nil] at this

/-- The hypotheses are met: the client of C199 says goodbye. -/
example (g : Hpack.DNode) (more : List Arrival) (l : Link) (os : List Out) (rs : List (Nat × Bytes))
    (h : run (Nego.negotiating Nego.sampleSite2) H2Trip.sampleConn (Link.init 4 g 4096) ((H2Wire.hello :: H2Wire.frames) ++ [H2Wire.arrival (H2Wire.place 7 0 0 [0, 0, 0, 0, 0, 0, 0, 0])]) =
      some (l, os, rs)) :
    run (Nego.negotiating Nego.sampleSite2) H2Trip.sampleConn (Link.init 4 g 4096) ((H2Wire.hello :: H2Wire.frames) ++ [H2Wire.arrival (H2Wire.place 7 0 0 [0, 0, 0, 0, 0, 0, 0, 0])] ++ more) =
      some (l, os, rs) :=
  C203_nothing_after_end _ _ 4 g 4096 _ more l os rs h
    (Or.inr (Or.inr ⟨_, List.mem_append_right _ (List.mem_singleton.2 rfl), 0, 0, _, H2Wire.place_holds 7 0 0 [0, 0, 0, 0, 0, 0, 0, 0] (by decide) (by decide)⟩))

/-- The run of that example is there: a client that only begins and says goodbye. -/
example : ((run (Nego.negotiating Nego.sampleSite2) H2Trip.sampleConn (Link.init 4 ⟨[], [], 0, 0, 0⟩ 4096)
    [H2Wire.hello, H2Wire.arrival (H2Wire.place 7 0 0 [0, 0, 0, 0, 0, 0, 0, 0])]).map fun q => (q.2.1, q.2.2)) = some ([.settingsAck, .goaway 0], []) := by
  decide +kernel

/-- **C203** *(partial)*.  Whatever bytes a client sends, each stream gets at most one response, and only streams with odd numbers, those that a client may open, get one.
Missing: as in all of Verif.H2Wire a response is sent before the next frame is read; with one that waits the claim is false (`H2S.C63_answered_twice_refuted`). -/
theorem C203_one_response_partial (s : Site) (k : H2Trip.Conn) (maxBody : Nat) (g : Hpack.DNode) (limit : Nat) (as : List Arrival) (l : Link) (os : List Out) (rs : List (Nat × Bytes))
    (h : run s k (Link.init maxBody g limit) as = some (l, os, rs)) : (rs.map (·.1)).Nodup ∧ ∀ r ∈ rs, r.1 % 2 = 1 := by
  have := run_past s k as _ l os rs [] [] h (fun _ => init_inv maxBody g limit) (by simp)
  exact ⟨by simpa using this.1, this.2.1⟩

/-- The hypothesis is met by the client of C199, which gets three responses. -/
example (g : Hpack.DNode) : ∃ l os rs, run (Nego.negotiating Nego.sampleSite2) H2Trip.sampleConn (Link.init 4 g 4096) (H2Wire.hello :: H2Wire.frames) = some (l, os, rs) ∧
    rs.length = 3 ∧ (rs.map (·.1)).Nodup ∧ ∀ r ∈ rs, r.1 % 2 = 1 := by
  obtain ⟨l, os, rs, h, h', _⟩ := H2Wire.C199_frames_answered_partial Nego.sampleSite2 Nego.sampleSite_written H2Trip.sampleConn (by decide) 4 g 4096 H2Wire.hello _ H2Wire.hello_holds
    (by unfold H2Wire.Setting; decide) 65535 (Or.inr ⟨[], [(5, 16384)], rfl, by decide⟩) H2Wire.frames _ H2Wire.frames_talk
  refine ⟨l, os, rs, h, ?_, C203_one_response_partial _ _ 4 g 4096 _ l os rs h⟩
  have := congrArg List.length h'
  rwa [List.length_map] at this

end Fly.H2Any
