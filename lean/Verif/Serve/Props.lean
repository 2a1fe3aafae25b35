import Verif.Serve.Steps

/-! # Many clients, one state -/

namespace Fly.Serve
open ReqEvent (Rcv St Out Env Reply Msg dataOf Plain Inv)
open Keep (replyTo)

variable {S : Type}

/-- The invariant of the worker. -/
structure WorldOk (a : App S) (s0 : S) (plan : Nat → Option (List (Msg × List Rcv))) (w : World S) : Prop where
  app : w.app = stateAfter a s0 w.log
  conns : ∀ k ms, plan k = some ms → ConnOk a ms (stepsOf a k s0 w.log) (w.conn k)

theorem start_ok (a : App S) (s0 : S) (plan : Nat → Option (List (Msg × List Rcv))) : WorldOk a s0 plan (World.start s0 plan) := by
  refine ⟨rfl, fun k ms h => ?_⟩
  simp only [World.start, stepsOf, h, Option.getD_some]
  exact ⟨fun _ h => by simp at h, fun _ h => by simp at h, Nat.zero_le _, rfl, .nil, .idle rfl rfl rfl rfl (by simp [sent])⟩

theorem step_ok (a : App S) (hr : ∀ x ∈ a.base.routes, Trip.WrittenPath x.1) (s0 : S) {M : Nat} {plan : Nat → Option (List (Msg × List Rcv))}
    (hp : Proper a M plan) {w : World S} (h : WorldOk a s0 plan w) (e : Ev) (hf : ∀ k ss, e = .poll k ss → (plan k).isSome → Whole M ss) :
    WorldOk a s0 plan (step a plan w e) := by
  obtain ⟨more, e1, e2, e3, e4⟩ := step_log a plan w e
  refine ⟨by rw [e1, e2, stateAfter_append, h.app], fun k ms hk => ?_⟩
  have hc := h.conns k ms hk
  by_cases hke : k = e.conn
  · cases e with
    | send j =>
      obtain rfl : k = j := hke
      have e5 : (step a plan w (.send k)).log = w.log := rfl
      have e6 : (step a plan w (.send k)).conn k = (w.conn k).send := set_same _ _ _
      rw [e5, e6]
      exact send_ok a hr (hp k ms hk) hc
    | wild j r =>
      obtain rfl : k = j := hke
      have : step a plan w (.wild k r) = w := by simp [step, hk]
      rw [this]
      exact hc
    | poll j ss =>
      obtain rfl : k = j := hke
      obtain ⟨_, ⟨more', d1, d2⟩, _⟩ := poll_ok (plan := plan) a hr (hp k ms hk) w hc ss (hf k ss rfl (by simp [hk]))
      rw [d1, stepsOf_append, ← h.app]
      exact d2
  · rw [e4 k hke, e1, stepsOf_append]
    have : stepsOf a k (stateAfter a s0 w.log) more = [] := by
      rcases e3 with rfl | ⟨r, rfl⟩
      · rfl
      · exact stepsOf_other a (fun h => hke h.symm) _ _
    rw [this, List.append_nil]
    exact hc

theorem run_ok (a : App S) (hr : ∀ x ∈ a.base.routes, Trip.WrittenPath x.1) (s0 : S) {M : Nat} {plan : Nat → Option (List (Msg × List Rcv))}
    (hp : Proper a M plan) : ∀ (es : List Ev) (w : World S), Fair M plan es → WorldOk a s0 plan w → WorldOk a s0 plan (run a plan w es)
  | [], _, _, h => h
  | e :: es, w, hf, h =>
    run_ok a hr s0 hp es _ (fun k ss he hk => hf k ss (by simp [he]) hk) (step_ok a hr s0 hp h e fun k ss he hk => hf k ss (by simp [he]) hk)

/-- What the invariant of a connection says in terms of what the client sees. -/
theorem conn_seen (a : App S) (hr : ∀ x ∈ a.base.routes, Trip.WrittenPath x.1) {M : Nat} {ms : List (Msg × List Rcv)} (hm : ∀ p ∈ ms, Served a M p.1 ∧ Keep.Arrives p.1 p.2)
    {steps : List (S × S)} {c : Conn} (h : ConnOk a ms steps c) :
    ∃ os, Trip.client c.got = some os ∧ Answered a (ms.map (·.1)) steps os ∧ os.length ≤ steps.length ∧ steps.length ≤ os.length + 1 ∧ steps.length ≤ c.begun ∧
      (dataOf c.rest ≠ [] → steps.length < c.begun) := by
  obtain ⟨h1, h2, h3, h4, h5, h6⟩ := h
  have hms : ∀ m ∈ ms.map (·.1), Served a M m := by
    intro m hmm
    obtain ⟨p, hp, rfl⟩ := List.mem_map.1 hmm
    exact (hm p hp).1
  have hsteps : steps.length ≤ ms.length := by
    have := each_length h5
    simp only [List.length_take, List.length_map] at this
    omega
  have main : ∀ st : List (S × S), st.length ≤ ms.length → ∃ os, Trip.client (sent a (ms.map (·.1)) st) = some os ∧
      Trip.Each (fun (x : Msg × (S × S)) o => Answer a x.1 x.2.1 o) ((ms.map (·.1)).zip st) os ∧ os.length = st.length := by
    intro st hst
    obtain ⟨os, e1, e2⟩ := client_sent a hr _ hms st
    refine ⟨os, e1, e2, ?_⟩
    have := each_length e2
    rw [List.length_zip, List.length_map] at this
    omega
  cases h6 with
  | idle g1 g2 g3 g4 g5 =>
    obtain ⟨os, e1, e2, e3⟩ := main steps hsteps
    refine ⟨os, by rw [g5]; exact e1, ?_, by omega, by omega, by omega, fun h => absurd g3 h⟩
    unfold Answered
    rw [List.take_of_length_le (by rw [List.length_zip, e3]; omega)]
    exact e2
  | arriving m s k g0 g1 g2 g3 g4 g5 =>
    obtain ⟨os, e1, e2, e3⟩ := main steps hsteps
    refine ⟨os, by rw [g5]; exact e1, ?_, by omega, by omega, by omega, fun _ => by omega⟩
    unfold Answered
    rw [List.take_of_length_le (by rw [List.length_zip, e3]; omega)]
    exact e2
  | writing m p before g0 g1 g2 g3 g4 g5 g6 =>
    have hl : steps.length = before.length + 1 := by rw [g0]; simp
    obtain ⟨os, e1, e2, e3⟩ := main before (by omega)
    refine ⟨os, by rw [g6]; exact e1, ?_, by omega, by omega, by omega, fun h => absurd g4 h⟩
    unfold Answered
    rw [g0, zip_snoc _ _ _ _ g1, List.take_append_of_le_length (by rw [List.length_zip, List.length_map]; omega),
      List.take_of_length_le (by rw [List.length_zip, e3]; omega)]
    exact e2

/-! ## C189 -/

/-- **C189 (partial)** However the requests of any number of clients arrive, in pieces and interleaved, and whatever other clients send: there is one order, the order in which
the requests were handled, such that the application is in the state it has after handling them one after the other in that order; each client with a list of requests has read,
in the order of its list, exactly the responses its functions made of its requests in the states of that order; and each of its requests changed the state as its
function does when called with what the client sent.  (Also if another client has brought the worker down meanwhile.)  Missing: clients that do not wait for the response (C115), HEAD,
`multipart/form-data`, responses that close the connection (C173), and responses the kernel does not take as a whole (C16). -/
theorem C189_serial_order_partial (a : App S) (hr : ∀ x ∈ a.base.routes, Trip.WrittenPath x.1) (s0 : S) (M : Nat) (plan : Nat → Option (List (Msg × List Rcv)))
    (hp : Proper a M plan) (es : List Ev) (hf : Fair M plan es) :
    (run a plan (World.start s0 plan) es).app = stateAfter a s0 (run a plan (World.start s0 plan) es).log ∧
    ∀ k ms, plan k = some ms → ∃ os, Trip.client ((run a plan (World.start s0 plan) es).conn k).got = some os ∧
      Handled a ((ms.map (·.1)).take (stepsOf a k s0 (run a plan (World.start s0 plan) es).log).length) (stepsOf a k s0 (run a plan (World.start s0 plan) es).log) ∧
      Answered a (ms.map (·.1)) (stepsOf a k s0 (run a plan (World.start s0 plan) es).log) os ∧
      os.length ≤ (stepsOf a k s0 (run a plan (World.start s0 plan) es).log).length ∧ (stepsOf a k s0 (run a plan (World.start s0 plan) es).log).length ≤ os.length + 1 := by
  have h := run_ok a hr s0 hp es _ hf (start_ok a s0 plan)
  refine ⟨h.app, fun k ms hk => ?_⟩
  obtain ⟨os, e1, e2, e3, e4, _⟩ := conn_seen a hr (hp k ms hk) (h.conns k ms hk)
  exact ⟨os, e1, (h.conns k ms hk).handled, e2, e3, e4⟩

/-! ## C190 -/

/-- **C190 (partial)** The order respects real time.  At any moment, what has been handled stays a prefix of the order; a request whose response the client has read is in it; one the
client has not begun, or of which something has not arrived, is not.  Hence, if one client has read the response to its request number `i` when another has not yet begun its request
number `j`, the first is handled before the second.  Missing: as in C189. -/
theorem C190_real_time_partial (a : App S) (hr : ∀ x ∈ a.base.routes, Trip.WrittenPath x.1) (s0 : S) (M : Nat) (plan : Nat → Option (List (Msg × List Rcv)))
    (hp : Proper a M plan) (es later : List Ev) (hf : Fair M plan es) :
    ∃ more, (run a plan (World.start s0 plan) (es ++ later)).log = (run a plan (World.start s0 plan) es).log ++ more ∧
    ∀ k ms, plan k = some ms → ∃ os, Trip.client ((run a plan (World.start s0 plan) es).conn k).got = some os ∧
      (∀ i, i < os.length → i < (stepsOf a k s0 (run a plan (World.start s0 plan) es).log).length) ∧
      (∀ j, ((run a plan (World.start s0 plan) es).conn k).begun ≤ j → (stepsOf a k s0 (run a plan (World.start s0 plan) es).log).length ≤ j) ∧
      (dataOf ((run a plan (World.start s0 plan) es).conn k).rest ≠ [] →
        (stepsOf a k s0 (run a plan (World.start s0 plan) es).log).length < ((run a plan (World.start s0 plan) es).conn k).begun) := by
  rw [run_append]
  obtain ⟨more, e1, _⟩ := run_log a plan later (run a plan (World.start s0 plan) es)
  refine ⟨more, e1, fun k ms hk => ?_⟩
  have h := run_ok a hr s0 hp es _ hf (start_ok a s0 plan)
  obtain ⟨os, e1, _, e3, _, e5, e6⟩ := conn_seen a hr (hp k ms hk) (h.conns k ms hk)
  exact ⟨os, e1, fun i hi => by omega, fun j hj => by omega, e6⟩

/-! ## C191 -/

theorem step_up (a : App S) (plan : Nat → Option (List (Msg × List Rcv))) (w : World S) (e : Ev) (h : w.up = false) : (step a plan w e).up = false := by
  cases e with
  | send => exact h
  | wild => simp only [step]; split <;> exact h
  | poll => simp [step, h]

theorem run_up (a : App S) (plan : Nat → Option (List (Msg × List Rcv))) : ∀ (es : List Ev) (w : World S), w.up = false → (run a plan w es).up = false
  | [], _, h => h
  | e :: es, w, h => run_up a plan es _ (step_up a plan w e h)

/-- A client goes on: what is due stays due. -/
theorem send_due (a : App S) (hr : ∀ x ∈ a.base.routes, Trip.WrittenPath x.1) {M : Nat} {ms : List (Msg × List Rcv)} (hm : ∀ p ∈ ms, Served a M p.1 ∧ Keep.Arrives p.1 p.2)
    {steps : List (S × S)} {c : Conn} (h : ConnOk a ms steps c) {n j : Nat} (hd : Due n j c) : Due n j c.send := by
  have hg : c.send.got = c.got := by
    unfold Conn.send
    split
    · rfl
    · split
      · rfl
      · split <;> rfl
  rcases hd with hd | ⟨d1, d2, d3⟩
  · exact .inl (by rw [hg]; exact hd)
  · obtain ⟨os, e1, _⟩ := conn_seen a hr hm h
    by_cases ho : n ≤ os.length
    · exact .inl ⟨os, by rw [hg]; exact e1, ho⟩
    · have : c.send = c := by
        unfold Conn.send
        rw [d1]
        simp only
        split
        · rfl
        · rw [if_neg]
          rw [e1, d2]
          simp only [Option.map_some, Option.some.injEq]
          omega
      rw [this]
      exact .inr ⟨d1, d2, d3⟩

theorem run_due (a : App S) (hr : ∀ x ∈ a.base.routes, Trip.WrittenPath x.1) (s0 : S) {M : Nat} {plan : Nat → Option (List (Msg × List Rcv))}
    (hp : Proper a M plan) {k : Nat} {ms : List (Msg × List Rcv)} (hk : plan k = some ms) (n : Nat) : ∀ (es : List Ev) (w : World S) (j : Nat), Fair M plan es →
      WorldOk a s0 plan w → (run a plan w es).up = true → Due n j (w.conn k) → Due n (j - turns k es) ((run a plan w es).conn k)
  | [], _, _, _, _, _, hd => hd
  | e :: es, w, j, hf, h, hu, hd => by
    have hfe : ∀ k ss, e = .poll k ss → (plan k).isSome → Whole M ss := fun k ss he hk => hf k ss (by simp [he]) hk
    have hw' := step_ok a hr s0 hp h e hfe
    have hup : w.up = true := by
      cases hx : w.up with
      | true => rfl
      | false =>
        have := run_up a plan (e :: es) w hx
        rw [this] at hu; cases hu
    have hc := h.conns k ms hk
    have hrec := fun j' => run_due a hr s0 hp hk n es (step a plan w e) j' (fun k ss he hk => hf k ss (by simp [he]) hk) hw' hu
    have keep : Due n j ((step a plan w e).conn k) ∧ turns k (e :: es) = turns k es ∨ Due n (j - 1) ((step a plan w e).conn k) ∧ turns k (e :: es) = turns k es + 1 := by
      by_cases hke : k = e.conn
      · cases e with
        | send i =>
          obtain rfl : k = i := hke
          refine .inl ⟨?_, by simp [turns]⟩
          have e6 : (step a plan w (.send k)).conn k = (w.conn k).send := set_same _ _ _
          rw [e6]
          exact send_due a hr (hp k ms hk) hc hd
        | wild i r =>
          obtain rfl : k = i := hke
          refine .inl ⟨?_, by simp [turns]⟩
          have : step a plan w (.wild k r) = w := by simp [step, hk]
          rw [this]
          exact hd
        | poll i ss =>
          obtain rfl : k = i := hke
          have hwh := hfe k ss rfl (by simp [hk])
          obtain ⟨_, _, d3⟩ := poll_ok (plan := plan) a hr (hp k ms hk) w hc ss hwh
          obtain ⟨b, hb⟩ := hwh
          rcases hb with rfl | ⟨n0, hn0, rfl⟩
          · refine .inl ⟨(d3 n j).1 hd, ?_⟩
            simp only [turns, List.countP_cons, List.getLast?_replicate]
            cases b <;> simp
          · refine .inr ⟨(d3 n (j - 1)).2 hup ⟨b, n0, hn0, rfl⟩ (due_mono hd (by omega)), ?_⟩
            simp [turns]
      · obtain ⟨_, _, _, _, e4⟩ := step_log a plan w e
        refine .inl ⟨by rw [e4 k hke]; exact hd, ?_⟩
        cases e with
        | send => simp [turns]
        | wild => simp [turns]
        | poll i ss =>
          have : i ≠ k := fun h => hke h.symm
          simp [turns, this]
    rcases keep with ⟨k1, k2⟩ | ⟨k1, k2⟩
    · rw [k2]; exact hrec _ k1
    · rw [k2, show j - (turns k es + 1) = j - 1 - turns k es by omega]; exact hrec _ k1

/-- **C191 (partial)** Every request is answered: when all of a request has been sent, and the worker turns to the connection as often as results of `recv` are waiting there, and once more to
write, the kernel taking what it writes, the client has the response, whatever happens in between on all other connections, as long as the worker runs.  Missing: as in C189. -/
theorem C191_answered_partial (a : App S) (hr : ∀ x ∈ a.base.routes, Trip.WrittenPath x.1) (s0 : S) (M : Nat) (plan : Nat → Option (List (Msg × List Rcv)))
    (hp : Proper a M plan) (es later : List Ev) (hf : Fair M plan (es ++ later)) (hup : (run a plan (World.start s0 plan) (es ++ later)).up = true) (k : Nat) (ms : List (Msg × List Rcv))
    (hk : plan k = some ms) (hsent : ((run a plan (World.start s0 plan) es).conn k).rest = [])
    (ht : ((run a plan (World.start s0 plan) es).conn k).inq.length + 1 ≤ turns k later) :
    ∃ os, Trip.client ((run a plan (World.start s0 plan) (es ++ later)).conn k).got = some os ∧ ((run a plan (World.start s0 plan) es).conn k).begun ≤ os.length := by
  have hf1 : Fair M plan es := fun k ss he hk => hf k ss (by simp [he]) hk
  have hf2 : Fair M plan later := fun k ss he hk => hf k ss (by simp [he]) hk
  have h := run_ok a hr s0 hp es _ hf1 (start_ok a s0 plan)
  rw [run_append] at hup ⊢
  have hd : Due ((run a plan (World.start s0 plan) es).conn k).begun (((run a plan (World.start s0 plan) es).conn k).inq.length + 1) ((run a plan (World.start s0 plan) es).conn k) := by
    refine .inr ⟨hsent, rfl, ?_⟩
    cases hs : ((run a plan (World.start s0 plan) es).conn k).phase with
    | reading => simp
    | writing => simp
    | closed =>
      exfalso
      cases (h.conns k ms hk).stage with
      | idle g => rw [hs] at g; cases g
      | arriving _ _ _ _ g => rw [hs] at g; cases g
      | writing _ _ _ _ _ g => rw [hs] at g; cases g
  have := run_due a hr s0 hp hk _ later _ _ hf2 h hup hd
  rcases this with this | ⟨_, _, d3⟩
  · exact this
  · exfalso
    revert d3
    cases ((run a plan (run a plan (World.start s0 plan) es) later).conn k).phase <;> simp only <;> intro d3 <;> omega

/-- **C191 (partial)** The worker is not brought down by such clients.  Missing: as in C189. -/
theorem C191_stays_up_partial (a : App S) (hr : ∀ x ∈ a.base.routes, Trip.WrittenPath x.1) (s0 : S) (M : Nat) (plan : Nat → Option (List (Msg × List Rcv)))
    (hp : Proper a M plan) (hall : ∀ k, (plan k).isSome) (es : List Ev) (hf : Fair M plan es) : (run a plan (World.start s0 plan) es).up = true := by
  have main : ∀ (es : List Ev) (w : World S), Fair M plan es → WorldOk a s0 plan w → w.up = true → (run a plan w es).up = true := by
    intro es
    induction es with
    | nil => exact fun _ _ _ h => h
    | cons e es ih =>
      intro w hf h hu
      have hfe : ∀ k ss, e = .poll k ss → (plan k).isSome → Whole M ss := fun k ss he hk => hf k ss (by simp [he]) hk
      refine ih (step a plan w e) (fun k ss he hk => hf k ss (by simp [he]) hk) (step_ok a hr s0 hp h e hfe) ?_
      cases e with
      | send => exact hu
      | wild => simp only [step]; split <;> exact hu
      | poll k ss =>
        obtain ⟨ms, hk⟩ := Option.isSome_iff_exists.1 (hall k)
        obtain ⟨d1, _⟩ := poll_ok (plan := plan) a hr (hp k ms hk) w (h.conns k ms hk) ss (hfe k ss rfl (hall k))
        rw [d1, hu]
  exact main es _ hf (start_ok a s0 plan) rfl

theorem down_step (a : App S) (plan : Nat → Option (List (Msg × List Rcv))) (w : World S) (e : Ev) (h : w.up = false) (j : Nat) : ((step a plan w e).conn j).got = (w.conn j).got := by
  have hsend : ∀ c : Conn, c.send.got = c.got := by
    intro c
    unfold Conn.send
    split
    · rfl
    · split
      · rfl
      · split <;> rfl
  cases e with
  | send k =>
    simp only [step, World.set]
    split
    · rename_i hj; rw [hsend, hj]
    · rfl
  | wild k r =>
    simp only [step]
    split
    · simp only [World.set]
      split
      · rename_i hj; rw [hj]
      · rfl
    · rfl
  | poll => simp [step, h]

theorem down_run (a : App S) (plan : Nat → Option (List (Msg × List Rcv))) : ∀ (es : List Ev) (w : World S), w.up = false → ∀ j, ((run a plan w es).conn j).got = (w.conn j).got
  | [], _, _, _ => rfl
  | e :: es, w, h, j => (down_run a plan es _ (step_up a plan w e h) j).trans (down_step a plan w e h j)

theorem not_refused (m : Msg) (hg : m.Good) : Keep.refusedLine St.init [.data m.text false] = false := by
  unfold Keep.refusedLine
  obtain ⟨o, t, rs', er, g1, _, _, g4, g5⟩ := ReqEvent.receive_plain [.data m.text false] St.init false
    (by intro r hr; rcases List.mem_singleton.1 hr with rfl; exact .inr ⟨_, text_ne m, rfl⟩) rfl
  have g4 := g4 (by simp)
  have : rs' = [] := List.eq_nil_of_length_eq_zero (by simp only [List.length_singleton] at g4; omega)
  subst this
  have ht : t = m.text := by simpa [dataOf] using g1.symm
  subst ht
  rw [er]
  rcases g5 with rfl | ⟨rfl, _⟩
  · have hb : (ReqEvent.got St.init m.text).buf = m.text := by simp [ReqEvent.got, St.init]
    simp only [hb, ReqEvent.search_text2 m hg, ReqEvent.parse_text m hg]
    simp
  · simp

/-- **C191 (refuted)** Without "as long as the worker runs": in every state, one request with `Expect: 100-continue` and an allowed content on a fresh connection ends
the worker (what it does after its 100 is undefined, `C50_after_100_undefined_refuted`), and no client ever receives anything again. -/
theorem C191_one_stops_all_refuted (a : App S) (plan : Nat → Option (List (Msg × List Rcv))) (w : World S) (k : Nat) (hk : plan k = none)
    (hfresh : (w.conn k).phase = .reading St.init ∧ (w.conn k).inq = []) (m : Msg) (hg : m.Good) (hn : a.base.env.nego m.header = .ok) (hx : Header.expect100 m.header = true)
    (hb : m.body ≠ []) (hl : m.body.length ≤ a.base.env.maxLen) (ss : List Send.Sys) (later : List Ev) (j : Nat) :
    (run a plan w (.wild k (.data m.text false) :: .poll k ss :: later)).up = false ∧
    ((run a plan w (.wild k (.data m.text false) :: .poll k ss :: later)).conn j).got = (w.conn j).got := by
  have hans : ReqEvent.answer a.base.env m = .reply (.status 100) := by
    unfold ReqEvent.answer
    rw [hn]
    simp only
    have hc : Header.contentLength m.header ≠ 0 := by
      intro h0
      have := hg.body
      exact hb (List.eq_nil_of_length_eq_zero (by omega))
    rw [if_neg hc, if_pos hx, if_neg (by omega)]
  have hh : ReqEvent.handle a.base.env St.init [.data m.text false] = .reply (.status 100) := by
    rcases ReqEvent.handle_step a.base.env m hg St.init 0 [.data m.text false] (inv_init _ _)
      (by intro r hr; rcases List.mem_singleton.1 hr with rfl; exact .inr ⟨_, text_ne m, rfl⟩) (by simp [dataOf]) (by simp) with h | ⟨s', l, k', _, h2, h3, _, h5⟩
    · rw [h, hans]
    · exfalso
      have : l = [] := List.eq_nil_of_length_eq_zero (by simp only [List.length_singleton] at h5; omega)
      subst this
      have := congrArg List.length h3
      simp only [dataOf, List.length_nil, List.length_drop] at this
      have := ReqEvent.inv_lt h2
      omega
  have hdown : (step a plan (step a plan w (.wild k (.data m.text false))) (.poll k ss)).up = false ∧
      ∀ j, ((step a plan (step a plan w (.wild k (.data m.text false))) (.poll k ss)).conn j).got = (w.conn j).got := by
    simp only [step, hk, Option.isNone_none, if_true]
    have hc : ∀ c : Conn, c.got = (w.conn k).got → ∀ j, ((w.set k c).conn j).got = (w.conn j).got := by
      intro c hc j
      simp only [World.set]
      split
      · rename_i hj; rw [hc, hj]
      · rfl
    cases hu : w.up with
    | false =>
      have : (w.set k { w.conn k with inq := (w.conn k).inq ++ [.data m.text false] }).up = false := hu
      rw [this]
      simp only [Bool.not_false, if_true]
      exact ⟨this, hc _ rfl⟩
    | true =>
      have : (w.set k { w.conn k with inq := (w.conn k).inq ++ [.data m.text false] }).up = true := hu
      rw [this]
      simp only [Bool.not_true, Bool.false_eq_true, if_false, set_same, hfresh.1]
      unfold reads
      simp only [set_same, hfresh.2, List.nil_append]
      rw [if_neg (by simp), hh]
      simp only
      split
      · exact ⟨rfl, hc _ rfl⟩
      · simp only [not_refused m hg, Keep.next, Bool.false_eq_true, if_false]
        exact ⟨rfl, hc _ rfl⟩
  exact ⟨run_up a plan later _ hdown.1, (down_run a plan later _ hdown.1 j).trans (hdown.2 j)⟩

/-- The same for a request line of 8000 bytes or more, whatever it says: instead of being answered 414 (`C23_414_answer_crashes_refuted`) it ends the worker, and no client ever
receives anything again. -/
theorem C191_long_line_stops_all_refuted (a : App S) (plan : Nat → Option (List (Msg × List Rcv))) (w : World S) (k : Nat) (hk : plan k = none)
    (hfresh : (w.conn k).phase = .reading St.init ∧ (w.conn k).inq = []) (x : Bytes) (hx : 13 ∉ x) (hl : 8000 ≤ x.length + 2) (ss : List Send.Sys) (later : List Ev) (j : Nat) :
    (run a plan w (.wild k (.data (x ++ b!"\r\n") false) :: .poll k ss :: later)).up = false ∧
    ((run a plan w (.wild k (.data (x ++ b!"\r\n") false) :: .poll k ss :: later)).conn j).got = (w.conn j).got := by
  have hh : ReqEvent.handle a.base.env St.init [.data (x ++ b!"\r\n") false] = .crash := by
    have h := ReqEvent.C23_414_answer_crashes_refuted a.base.env x hx hl [.data (x ++ b!"\r\n") false]
      (by intro r hr; rcases List.mem_singleton.1 hr with rfl; exact .inr ⟨_, by simp, rfl⟩) (by simp [dataOf])
    cases hc : ReqEvent.handle a.base.env St.init [.data (x ++ b!"\r\n") false] with
    | crash => rfl
    | _ => simp [ReqEvent.connection, ReqEvent.serve, hc] at h
  have hdown : (step a plan (step a plan w (.wild k (.data (x ++ b!"\r\n") false))) (.poll k ss)).up = false ∧
      ∀ j, ((step a plan (step a plan w (.wild k (.data (x ++ b!"\r\n") false))) (.poll k ss)).conn j).got = (w.conn j).got := by
    simp only [step, hk, Option.isNone_none, if_true]
    have hc : ∀ c : Conn, c.got = (w.conn k).got → ∀ j, ((w.set k c).conn j).got = (w.conn j).got := by
      intro c hc j
      simp only [World.set]
      split
      · rename_i hj; rw [hc, hj]
      · rfl
    cases hu : w.up with
    | false =>
      have : (w.set k { w.conn k with inq := (w.conn k).inq ++ [.data (x ++ b!"\r\n") false] }).up = false := hu
      rw [this]
      simp only [Bool.not_false, if_true]
      exact ⟨this, hc _ rfl⟩
    | true =>
      have : (w.set k { w.conn k with inq := (w.conn k).inq ++ [.data (x ++ b!"\r\n") false] }).up = true := hu
      rw [this]
      simp only [Bool.not_true, Bool.false_eq_true, if_false, set_same, hfresh.1]
      unfold reads
      simp only [set_same, hfresh.2, List.nil_append]
      rw [if_neg (by simp), hh]
      exact ⟨rfl, hc _ rfl⟩
  exact ⟨run_up a plan later _ hdown.1, (down_run a plan later _ hdown.1 j).trans (hdown.2 j)⟩

/-- Such a line on a fresh connection beside those of the plan. -/
example : (∀ (s : S) (plan : Nat → Option (List (Msg × List Rcv))), (((World.start s plan).conn 7).phase = .reading St.init ∧ ((World.start s plan).conn 7).inq = [])) ∧
    (13 ∉ b!"GET /" ++ List.replicate 9000 97 ∧ 8000 ≤ (b!"GET /" ++ List.replicate 9000 97).length + 2) :=
  ⟨fun _ _ => ⟨rfl, rfl⟩, fun h => (List.mem_append.1 h).elim (by decide) (fun h => absurd (List.eq_of_mem_replicate h) (by decide)), by rw [List.length_append, List.length_replicate]; omega⟩

/-! ## A switch -/

/-- An application whose state is on or off: the function says which and turns it over. -/
def switch : App Bool where
  base := { Trip.sampleApp with routes := [(b!"/x", .get, 1)] }
  fns _ _ s := (.value (.str (if s then b!"on" else b!"off")), !s)

theorem switch_written : ∀ x ∈ switch.base.routes, Trip.WrittenPath x.1 := by
  intro x hx
  rcases List.mem_singleton.1 hx with rfl
  exact .inl (by unfold Route.Plain; decide)

theorem switch_served : Served switch 1000 Trip.lastMsg where
  within := ⟨Trip.lastMsg_good, rfl, by decide +kernel, by decide⟩
  method := by decide
  makes s := by
    refine ⟨.value (.str (if s then b!"on" else b!"off")) (if s then b!"on" else b!"off"), ⟨?_, Trip.sampleCfg_ok, rfl, ?_, ?_⟩, trivial⟩
    · refine ⟨1, [], ⟨[], b!"/x", .get, [], rfl, ⟨?_, fun _ => rfl⟩, by simp, Or.inl ⟨by unfold Route.Plain; decide, rfl⟩⟩, Or.inl rfl, rfl⟩
      rw [Route.fits_plain _ _ (by unfold Route.Plain; decide)]
      rfl
    · cases s <;> decide
    · intro h
      have hn : ∀ s : Bool, ¬ ((inState switch s).cfg Trip.lastMsg.header).threshold ≤ (if s then b!"on" else b!"off").length := by decide +kernel
      exact absurd h (hn s)
  size s r buf ha hb := by
    have hx : ReqEvent.answer switch.base.env Trip.lastMsg = .reply (.handler 1 Trip.lastMsg.line Trip.lastMsg.header none) := by decide +kernel
    rw [hx] at ha
    injection ha with ha
    subst ha
    have hlen : ∀ s, ((inState switch s).bytes (.handler 1 Trip.lastMsg.line Trip.lastMsg.header none)).all (fun b => decide (b.bytes.length ≤ 1000)) = true := by
      decide +kernel
    have := hlen s
    rw [hb] at this
    exact of_decide_eq_true this

/-- The request in two pieces with a pause between them. -/
def switchPieces : List Rcv := [.data (Trip.lastMsg.text.take 9) false, .block, .data (Trip.lastMsg.text.drop 9) false]

theorem switch_arrives : Keep.Arrives Trip.lastMsg switchPieces :=
  ⟨by
    intro r hr
    simp only [switchPieces, List.mem_cons, List.not_mem_nil, or_false] at hr
    rcases hr with rfl | rfl | rfl
    · exact Or.inr ⟨_, by decide +kernel, rfl⟩
    · exact Or.inl rfl
    · exact Or.inr ⟨_, by decide +kernel, rfl⟩, by decide +kernel⟩

/-- Two clients with two requests and one; the third connection sends rubbish. -/
def switchPlan : Nat → Option (List (Msg × List Rcv))
  | 0 => some [(Trip.lastMsg, switchPieces), (Trip.lastMsg, switchPieces)]
  | 1 => some [(Trip.lastMsg, switchPieces)]
  | _ => none

theorem switch_proper : Proper switch 1000 switchPlan := by
  intro k ms hk p hp
  have : p = (Trip.lastMsg, switchPieces) := by
    rcases k with _ | _ | k <;> simp [switchPlan] at hk <;> subst hk <;> simpa using hp
  subst this
  exact ⟨switch_served, switch_arrives⟩

/-- Both clients send, piece by piece in turn; the second is handled first. -/
def switchRun : List Ev :=
  [.send 0, .send 1, .send 0, .poll 0 [], .send 1, .wild 2 (.data b!"rub" false), .send 1, .poll 2 [.block], .poll 1 [], .send 0, .send 0, .send 1, .poll 1 [], .poll 1 [], .poll 0 [],
    .poll 0 [], .wild 2 (.data b!"bish" false), .poll 0 [.sent 1000], .poll 2 [], .poll 1 [.block, .sent 2000], .send 0, .send 0, .send 0, .send 0]

theorem switch_fair : Fair 1000 switchPlan (switchRun ++ [.poll 0 [.sent 1000], .poll 0 [.sent 1000], .poll 0 [.sent 1000], .poll 0 [.sent 1000], .poll 1 []]) := by
  intro k ss he hk
  simp only [switchRun, List.cons_append, List.nil_append, List.mem_cons, List.not_mem_nil, or_false, Ev.poll.injEq, reduceCtorEq, false_or] at he
  rcases he with ⟨rfl, rfl⟩ | ⟨rfl, rfl⟩ | ⟨rfl, rfl⟩ | ⟨rfl, rfl⟩ | ⟨rfl, rfl⟩ | ⟨rfl, rfl⟩ | ⟨rfl, rfl⟩ | ⟨rfl, rfl⟩ | ⟨rfl, rfl⟩ | ⟨rfl, rfl⟩ | ⟨rfl, rfl⟩ | ⟨rfl, rfl⟩ | ⟨rfl, rfl⟩ |
    ⟨rfl, rfl⟩ | ⟨rfl, rfl⟩ <;> first
    | exact ⟨0, .inl rfl⟩
    | exact ⟨1, .inl rfl⟩
    | exact ⟨0, .inr ⟨1000, by decide, rfl⟩⟩
    | exact ⟨1, .inr ⟨2000, by decide, rfl⟩⟩

/-- The second client has read "off" and the first "on": the second was handled first.  The second request of the first client has arrived, and `C191` applies to it. -/
example : let w := run switch switchPlan (World.start false switchPlan) switchRun
    w.app = false ∧ w.up = true ∧ w.log.map (·.1) = [1, 0] ∧
    (Trip.client (w.conn 0).got).map (·.map (·.2.2)) = some [b!"on"] ∧ (Trip.client (w.conn 1).got).map (·.map (·.2.2)) = some [b!"off"] ∧
    (w.conn 0).begun = 2 ∧ (w.conn 0).rest = [] ∧ (w.conn 0).inq.length = 3 := by
  decide +kernel

example : turns 0 [.poll 0 [.sent 1000], .poll 0 [.sent 1000], .poll 0 [.sent 1000], .poll 0 [.sent 1000], .poll 1 []] = 4 ∧
    (Trip.client ((run switch switchPlan (World.start false switchPlan)
      (switchRun ++ [.poll 0 [.sent 1000], .poll 0 [.sent 1000], .poll 0 [.sent 1000], .poll 0 [.sent 1000], .poll 1 []])).conn 0).got).map (·.map (·.2.2)) = some [b!"on", b!"off"] := by
  decide +kernel

/-- A request that `C191_one_stops_all_refuted` speaks of. -/
def expecting : Msg :=
  ⟨b!"GET /x HTTP/1.1", ⟨.get, b!"/x", none, .v1_1⟩, [b!"Expect: 100-continue", b!"Content-Length: 2"], [(b!"Expect", b!"100-continue"), (b!"Content-Length", b!"2")], b!"hi"⟩

theorem expecting_good : expecting.Good where
  line := by
    refine ⟨0, 0, 1, b!"/x", .origin .get b!"/x" [] none (by decide) ⟨?_, rfl⟩ .absent, rfl⟩
    exact .byte _ _ (by simp [Req.PathByte]) <| .byte _ _ (by simp [Req.PathByte, Req.RfcPchar, Req.RfcUnreserved]) .nil
  version := rfl
  cr := by decide
  short := by decide
  some := by decide
  plain := by decide
  fields := by
    refine .field _ b!"Expect" b!"100-continue" _ _ ⟨b!" ", b!"\r", rfl, ?_, by simp, ?_, ?_, ?_, Or.inl rfl⟩
      (.field _ b!"Content-Length" b!"2" _ _ ⟨b!" ", b!"\r", rfl, ?_, by simp, ?_, ?_, ?_, Or.inl rfl⟩ .nil) <;>
      simp [ReqHeader.NameByte, ReqHeader.ValueByte, ReqHeader.Blank]
  body := by decide +kernel
  fits := by decide

example : switch.base.env.nego expecting.header = .ok ∧ Header.expect100 expecting.header = true ∧ expecting.body ≠ [] ∧ expecting.body.length ≤ switch.base.env.maxLen ∧
    switchPlan 3 = none ∧ ((run switch switchPlan (World.start false switchPlan) switchRun).conn 3).phase = .reading St.init ∧
    ((run switch switchPlan (World.start false switchPlan) switchRun).conn 3).inq = [] := by
  decide +kernel

end Fly.Serve
