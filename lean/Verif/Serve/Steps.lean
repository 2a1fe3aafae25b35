import Verif.Serve.Lemmas

/-! # One event and many -/

namespace Fly.Serve
open ReqEvent (Rcv St Out Env Reply Msg Fase RecvOut receive build finish dataOf Plain Inv)
open Keep (Within replyTo handleLeft refusedLine)

variable {S : Type}

theorem set_same (w : World S) (k : Nat) (c : Conn) : (w.set k c).conn k = c := by simp [World.set]

theorem set_other (w : World S) {j k : Nat} (h : k ≠ j) (c : Conn) : (w.set j c).conn k = w.conn k := by simp [World.set, h]

/-- The connection of an event. -/
def Ev.conn : Ev → Nat
  | .send k => k
  | .wild k _ => k
  | .poll k _ => k

/-- An event changes its own connection only, and appends at most one request, of its connection, to the log. -/
theorem step_log (a : App S) (plan : Nat → Option (List (Msg × List Rcv))) (w : World S) (e : Ev) :
    ∃ more, (step a plan w e).log = w.log ++ more ∧ (step a plan w e).app = stateAfter a w.app more ∧ (more = [] ∨ ∃ r, more = [(e.conn, r)]) ∧
      ∀ k, k ≠ e.conn → (step a plan w e).conn k = w.conn k := by
  cases e with
  | send j => exact ⟨[], by simp [step, World.set], rfl, .inl rfl, fun k hk => set_other _ hk _⟩
  | wild j r =>
    simp only [step]
    split
    · exact ⟨[], by simp [World.set], rfl, .inl rfl, fun k hk => set_other _ hk _⟩
    · exact ⟨[], by simp, rfl, .inl rfl, fun _ _ => rfl⟩
  | poll j ss =>
    simp only [step]
    split
    · exact ⟨[], by simp, rfl, .inl rfl, fun _ _ => rfl⟩
    · split
      · exact ⟨[], by simp, rfl, .inl rfl, fun _ _ => rfl⟩
      · rename_i s _
        unfold reads
        simp only
        split
        · exact ⟨[], by simp, rfl, .inl rfl, fun _ _ => rfl⟩
        · split
          · exact ⟨[], by simp [World.set], rfl, .inl rfl, fun k hk => set_other _ hk _⟩
          · exact ⟨[], by simp [World.set], rfl, .inl rfl, fun k hk => set_other _ hk _⟩
          · exact ⟨[], by simp, rfl, .inl rfl, fun _ _ => rfl⟩
          · exact ⟨[], by simp, rfl, .inl rfl, fun _ _ => rfl⟩
          · split
            · exact ⟨[], by simp, rfl, .inl rfl, fun _ _ => rfl⟩
            · rename_i r _ _ _ _
              split
              · exact ⟨[], by simp, rfl, .inl rfl, fun _ _ => rfl⟩
              · exact ⟨[(j, r)], rfl, rfl, .inr ⟨r, rfl⟩, fun k hk => set_other _ hk _⟩
              · exact ⟨[(j, r)], rfl, rfl, .inr ⟨r, rfl⟩, fun k hk => set_other _ hk _⟩
      · unfold writes
        simp only
        split
        · exact ⟨[], by simp [World.set], rfl, .inl rfl, fun k hk => set_other _ hk _⟩
        · split
          · exact ⟨[], by simp [World.set], rfl, .inl rfl, fun k hk => set_other _ hk _⟩
          · exact ⟨[], by simp, rfl, .inl rfl, fun _ _ => rfl⟩

theorem run_append (a : App S) (plan : Nat → Option (List (Msg × List Rcv))) (w : World S) (es es' : List Ev) :
    run a plan w (es ++ es') = run a plan (run a plan w es) es' := by simp [run, List.foldl_append]

/-- What was handled stays handled. -/
theorem run_log (a : App S) (plan : Nat → Option (List (Msg × List Rcv))) : ∀ (es : List Ev) (w : World S),
    ∃ more, (run a plan w es).log = w.log ++ more ∧ (run a plan w es).app = stateAfter a w.app more
  | [], w => ⟨[], by simp [run], rfl⟩
  | e :: es, w => by
    obtain ⟨m1, e1, e2, _⟩ := step_log a plan w e
    obtain ⟨m2, e3, e4⟩ := run_log a plan es (step a plan w e)
    refine ⟨m1 ++ m2, ?_, ?_⟩
    · show (run a plan (step a plan w e) es).log = _
      rw [e3, e1, List.append_assoc]
    · show (run a plan (step a plan w e) es).app = _
      rw [e4, e2, stateAfter_append]

/-- The `n`-th response has been read, or at most `j` more calls with room are needed for it. -/
def Due (n j : Nat) (c : Conn) : Prop :=
  (∃ os, Trip.client c.got = some os ∧ n ≤ os.length) ∨
  (c.rest = [] ∧ c.begun = n ∧ match c.phase with
    | .reading _ => c.inq.length + 1 ≤ j
    | .writing _ _ => 1 ≤ j
    | .closed => False)

theorem due_mono {n j j' : Nat} {c : Conn} (h : Due n j c) (hj : j ≤ j') : Due n j' c := by
  rcases h with h | ⟨h1, h2, h3⟩
  · exact .inl h
  · refine .inr ⟨h1, h2, ?_⟩
    revert h3
    cases c.phase <;> simp only <;> intro h3 <;> omega

/-- The kernel takes a whole response. -/
def Room (M : Nat) (ss : List Send.Sys) : Prop := ∃ b n, M ≤ n ∧ ss = List.replicate b .block ++ [.sent n]

theorem h1Run_blocked (data : Bytes) (b : Nat) (h : data ≠ []) : Send.h1Run data 0 (List.replicate b .block) = ([], false) := by
  have h0 : ¬ data.length ≤ 0 := by
    have := List.length_pos_iff.2 h; omega
  induction b with
  | zero => simp [Send.h1Run]; exact h
  | succ b ih =>
    simp only [List.replicate_succ, Send.h1Run, if_neg h0, ih]

theorem respOf_ok (a : App S) (hr : ∀ x ∈ a.base.routes, Trip.WrittenPath x.1) {M : Nat} {m : Msg} (h : Served a M m) (s : S) :
    (respOf a m s).length ≤ M ∧ respOf a m s ≠ [] := by
  obtain ⟨buf, o, e1, e2, e3, _, e4⟩ := served_read a hr h s
  unfold respOf
  rw [e1]
  refine ⟨e4, fun h => ?_⟩
  have := e2.1
  simp only at h
  rw [h] at this
  simp at this

/-- The worker turns to a client with a list of requests. -/
theorem poll_ok (a : App S) (hr : ∀ x ∈ a.base.routes, Trip.WrittenPath x.1) {M : Nat} {plan : Nat → Option (List (Msg × List Rcv))} {k : Nat}
    {ms : List (Msg × List Rcv)} (hm : ∀ p ∈ ms, Served a M p.1 ∧ Keep.Arrives p.1 p.2) (w : World S) {steps : List (S × S)} (h : ConnOk a ms steps (w.conn k))
    (ss : List Send.Sys) (hw : Whole M ss) :
    (step a plan w (.poll k ss)).up = w.up ∧
    (∃ more, (step a plan w (.poll k ss)).log = w.log ++ more ∧ ConnOk a ms (steps ++ stepsOf a k w.app more) ((step a plan w (.poll k ss)).conn k)) ∧
    ∀ n j, (Due n j (w.conn k) → Due n j ((step a plan w (.poll k ss)).conn k)) ∧
      (w.up = true → Room M ss → Due n (j + 1) (w.conn k) → Due n j ((step a plan w (.poll k ss)).conn k)) := by
  have hms : ∀ m ∈ ms.map (·.1), Served a M m := by
    intro m hmm
    obtain ⟨p, hp, rfl⟩ := List.mem_map.1 hmm
    exact (hm p hp).1
  simp only [step]
  cases hup : w.up with
  | false =>
    simp only [Bool.not_false, if_true]
    exact ⟨hup, ⟨[], by simp, by simpa [stepsOf] using h⟩, fun n j => ⟨id, fun h => by cases h⟩⟩
  | true =>
    simp only [Bool.not_true, Bool.false_eq_true, if_false, forall_const]
    have hc := h
    obtain ⟨h1, h2, h3, h4, h5, h6⟩ := h
    have hsteps : steps.length ≤ ms.length := by
      have := each_length h5
      simp only [List.length_take, List.length_map] at this
      omega
    have hread : ∀ n j, Due n j (w.conn k) → (w.conn k).begun = steps.length → (w.conn k).got = sent a (ms.map (·.1)) steps →
        ∃ os, Trip.client (w.conn k).got = some os ∧ n ≤ os.length := by
      intro n j hd hb hg
      rcases hd with hd | ⟨_, e, _⟩
      · exact hd
      · obtain ⟨os, e1, e2⟩ := client_sent a hr _ hms steps
        refine ⟨os, by rw [hg]; exact e1, ?_⟩
        have := each_length e2
        rw [List.length_zip, List.length_map] at this
        omega
    cases h6 with
    | idle g1 g2 g3 g4 g5 =>
      rw [g1]
      simp only
      unfold reads
      simp only
      by_cases hq : (w.conn k).inq = []
      · rw [if_pos hq]
        exact ⟨hup, ⟨[], by simp, by simpa [stepsOf] using hc⟩, fun n j => ⟨id, fun _ hd => .inl (hread n _ hd g4 g5)⟩⟩
      · rw [if_neg hq]
        obtain ⟨l, e1, e2, e3, e4⟩ := idle_step a.base.env _ h1 g2 hq
        rw [e1]
        simp only [set_same]
        refine ⟨hup, ⟨[], by simp [World.set], ?_⟩, fun n j => ⟨fun hd => .inl (hread n _ hd g4 g5), fun _ hd => .inl (hread n _ hd g4 g5)⟩⟩
        simp only [stepsOf, List.append_nil]
        exact ⟨e2, h2, h3, h4, h5, .idle rfl e3 g3 g4 g5⟩
    | arriving m s k' g0 g1 g2 g3 g4 g5 =>
      rw [g1]
      simp only
      unfold reads
      simp only
      have hmm : m ∈ ms.map (·.1) := List.mem_of_getElem? g0
      have hsv := hms m hmm
      by_cases hq : (w.conn k).inq = []
      · rw [if_pos hq]
        refine ⟨hup, ⟨[], by simp, by simpa [stepsOf] using hc⟩, fun n j => ⟨id, fun _ hd => ?_⟩⟩
        rcases hd with hd | ⟨e1, e2, e3⟩
        · exact .inl hd
        · exfalso
          rw [hq, e1] at g3
          have := congrArg List.length g3
          simp only [dataOf, List.append_nil, List.length_nil, List.length_drop] at this
          have := ReqEvent.inv_lt g2
          omega
      · rw [if_neg hq]
        rcases part_step a.base.env m hsv.within s k' _ _ g2 h1 h2 g3 hq with ⟨s', l, k2, e1, e2, e3, e4, e5⟩ | ⟨e1, e2, e3, e4, e5⟩
        · rw [e1]
          simp only [set_same]
          refine ⟨hup, ⟨[], by simp [World.set], ?_⟩, fun n j => ⟨fun hd => ?_, fun _ hd => ?_⟩⟩
          · simp only [stepsOf, List.append_nil]
            exact ⟨e3, h2, h3, h4, h5, .arriving m s' k2 g0 rfl e2 e4 g4 g5⟩
          · rcases hd with hd | ⟨d1, d2, d3⟩
            · exact .inl hd
            · rw [g1] at d3
              exact .inr ⟨d1, d2, by simp only at d3 ⊢; omega⟩
          · rcases hd with hd | ⟨d1, d2, d3⟩
            · exact .inl hd
            · rw [g1] at d3
              exact .inr ⟨d1, d2, by simp only at d3 ⊢; omega⟩
        · rw [e1]
          simp only
          obtain ⟨buf, o, b1, b2, b3, b4, b5⟩ := served_read a hr hsv w.app
          rw [b1]
          simp only
          rw [e2, Keep.next_within a.base.env (a.at w.app).keeps m hsv.within b4]
          simp only [set_same]
          refine ⟨hup, ⟨[(k, replyTo a.base.env m)], rfl, ?_⟩, fun n j => ⟨fun hd => ?_, fun _ hd => ?_⟩⟩
          · rw [stepsOf_self]
            have hresp : respOf a m w.app = buf.bytes := by unfold respOf; rw [b1]
            refine ⟨e3, h2, h3, h4, ?_, .writing m (w.app, a.next w.app (replyTo a.base.env m)) steps rfl g0 (by rw [hresp]) e4 e5 (by simp [g4]) g5⟩
            rw [List.length_append, List.length_singleton, take_snoc _ _ _ g0]
            exact Trip.each_append h5 (.cons (served_effect a hr hsv w.app) .nil)
          · rcases hd with hd | ⟨d1, d2, d3⟩
            · exact .inl hd
            · rw [g1] at d3
              exact .inr ⟨d1, d2, by simp only at d3 ⊢; omega⟩
          · rcases hd with hd | ⟨d1, d2, d3⟩
            · exact .inl hd
            · rw [g1] at d3
              have := List.length_pos_iff.2 hq
              exact .inr ⟨d1, d2, by simp only at d3 ⊢; omega⟩
    | writing m p before g0 g1 g2 g3 g4 g5 g6 =>
      rw [g2]
      simp only
      unfold writes
      simp only
      have hmm : m ∈ ms.map (·.1) := List.mem_of_getElem? g1
      have hsv := hms m hmm
      obtain ⟨r1, r2⟩ := respOf_ok a hr hsv p.1
      have hdone : ∀ b n, M ≤ n → Send.h1Run (respOf a m p.1) 0 (List.replicate b .block ++ [.sent n]) = (respOf a m p.1, true) :=
        fun b n hn => Send.C16_h1_exactly_once_partial _ b n (by omega) []
      have hsn : sent a (ms.map (·.1)) steps = sent a (ms.map (·.1)) before ++ respOf a m p.1 := by
        rw [g0]; exact sent_snoc a _ _ _ _ g1
      obtain ⟨b, hw⟩ := hw
      rcases hw with rfl | ⟨n0, hn0, rfl⟩
      · rw [h1Run_blocked _ _ r2]
        simp only
        have hl : List.replicate b Send.Sys.block = [] ∨ (List.replicate b Send.Sys.block).getLast? = some .block := by
          cases b with
          | zero => exact .inl rfl
          | succ b => right; rw [List.getLast?_replicate]; simp
        rw [if_pos hl]
        simp only [List.append_nil, set_same]
        refine ⟨hup, ⟨[], by simp [World.set], ?_⟩, fun n j => ⟨fun hd => ?_, fun hroom => ?_⟩⟩
        · simp only [stepsOf, List.append_nil]
          exact hc
        · exact hd
        · exfalso
          obtain ⟨b', n', _, e⟩ := hroom
          have : Send.Sys.sent n' ∈ List.replicate b Send.Sys.block := by rw [e]; simp
          rw [List.mem_replicate] at this
          cases this.2
      · rw [hdone b n0 hn0]
        simp only [if_true, set_same]
        have hgot : (w.conn k).got ++ respOf a m p.1 = sent a (ms.map (·.1)) steps := by rw [g6, hsn]
        have hfin : ∀ n j, Due n j (w.conn k) → ∃ os, Trip.client ((w.conn k).got ++ respOf a m p.1) = some os ∧ n ≤ os.length := by
          intro n j hd
          obtain ⟨os, e1, e2⟩ := client_sent a hr _ hms steps
          refine ⟨os, by rw [hgot]; exact e1, ?_⟩
          have e3 := each_length e2
          rw [List.length_zip, List.length_map] at e3
          rcases hd with ⟨os', d1, d2⟩ | ⟨_, d2, _⟩
          · obtain ⟨os2, e4, e5⟩ := client_sent a hr _ hms before
            rw [g6, e4] at d1
            injection d1 with d1
            subst d1
            have e6 := each_length e5
            rw [List.length_zip, List.length_map] at e6
            rw [g0] at e3
            simp only [List.length_append] at e3
            omega
          · omega
        refine ⟨hup, ⟨[], by simp [World.set], ?_⟩, fun n j => ⟨fun hd => .inl (hfin n _ hd), fun _ hd => .inl (hfin n _ hd)⟩⟩
        simp only [stepsOf, List.append_nil]
        exact ⟨h1, h2, h3, h4, h5, .idle rfl g3 g4 g5 hgot⟩

end Fly.Serve
