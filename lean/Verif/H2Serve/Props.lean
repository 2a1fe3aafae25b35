import Verif.H2Serve.Spec
import Verif.H2Wire.Props
import Verif.H2Access.Props

/-! # C201, C202: many HTTP/2 clients -/

namespace Fly.H2Serve
open H2S (Out)
open H2Wire (Link Arrival At Client Says Agrees Holds Setting Starts Calm contentOf fieldsOf answers winAt Replied)
open H2Refuse (Step)
open Site (Site)
open Trip (Chosen Unserved WrittenPath Each)
open Nego (negotiating)

variable {S : Type}

/-! ## What a request does to the state -/

/-- A request that gets to a function. -/
theorem call_chosen (a : Trip.App) (hr : ∀ x ∈ a.routes, WrittenPath x.1) (q : H2Trip.Ask) (hg : q.Good) (alloc : Nat → Bool) {f : Nat} {ps : Header.Pairs}
    (h : Chosen a q.path q.method f ps) :
    (a.find q.path q.method).isSome ∧
      call a ⟨q.method, b!"http", q.path, q.query, H2Trip.cells alloc q.fields, q.body.map .bytes⟩ = some (f, H2Trip.dictionary q ps) := by
  obtain ⟨r, hfi, rfl, hv, ht, hfits⟩ := Trip.find_chosen a hr h
  obtain ⟨qs, hb, hq, hps⟩ := Trip.bind_values a ht hv hfits
  refine ⟨by rw [hfi]; rfl, ?_⟩
  have hbody : H2Trip.plainBody (q.body.map .bytes) = some q.body := by cases q.body <;> rfl
  unfold call
  simp only [hfi, hb, hbody, hq, H2Trip.request_seen q hg alloc ps hps]

/-- The state after a request is what it should be. -/
theorem next_effect (a : Host S) (hr : ∀ x ∈ a.app.base.routes, WrittenPath x.1) (k : H2Trip.Conn) {limit : Nat} {tab tab' : List Hpack.Entry} {x : Step} {s s' : S}
    (hx : x.Proper (inState a s) k limit tab tab') (he : Effect a x s s') :
    a.next s ⟨true, H2Trip.cells x.inc.alloc (fieldsOf x), x.inc.body, x.inc.discard⟩ = s' := by
  cases x with
  | turn t =>
    show a.next s ⟨true, H2Trip.cells t.ask.inc.alloc t.ask.ask.fields, t.ask.inc.body, t.ask.inc.discard⟩ = s'
    rcases Classical.em t.wish.Met with hm | hm
    · obtain ⟨h1, _⟩ := hx.served hm
      obtain ⟨hb, hd, _⟩ := h1.carries
      have ha := H2Trip.answered_in (a.at s).full.env t.ask.ask h1.good t.ask.inc.alloc
      unfold Host.next
      rw [hb, hd, ha]
      unfold H2R.choose
      rcases he.1 hm with ⟨f, ps, hc, rfl⟩ | ⟨hu, hs⟩
      · obtain ⟨hf, hcall⟩ := call_chosen a.app.base hr t.ask.ask h1.good t.ask.inc.alloc hc
        obtain ⟨r, hr'⟩ := Option.isSome_iff_exists.1 hf
        have : (a.at s).full.env.route t.ask.ask.path t.ask.ask.method = some r.fn := by
          show (a.app.base.find t.ask.ask.path t.ask.ask.method).map (·.fn) = _
          rw [hr']; rfl
        simp only [this, hcall]
      · have : (a.at s).full.env.route t.ask.ask.path t.ask.ask.method = none := by
          show (a.app.base.find t.ask.ask.path t.ask.ask.method).map (·.fn) = _
          rw [Trip.find_unserved a.app.base hr hu]; rfl
        simp only [this, hs]
        cases (a.at s).full.env.file ⟨H2Trip.cells t.ask.inc.alloc t.ask.ask.fields, (H2Trip.cells t.ask.inc.alloc t.ask.ask.fields).length⟩ t.ask.ask.path with
        | none => rfl
        | some f =>
          simp only
          by_cases h1 : t.ask.ask.method ≠ .get
          · simp only [if_pos h1]
          · by_cases h2 : f.notModified = true <;> simp only [if_neg h1, h2] <;> rfl
    · obtain ⟨hg, hc, hdis, _⟩ := hx.refused hm
      rw [he.2 hm]
      unfold Host.next
      rw [hdis, (H2R.answer_well_formed _ true _ _ t.ask.ask.method true t.ask.ask.path t.ask.ask.query t.ask.inc.body
          (H2Trip.cells_hold t.ask.inc.alloc t.ask.ask.fields) hg.wellFormed hg.path hg.query).2.2.1 t.wish hx.says hm]
  | garbled q i =>
    obtain ⟨h1, h2, h3, h4, h5⟩ := hx
    rw [show s' = s from he]
    unfold Host.next
    show (match H2R.answer _ ⟨true, H2Trip.cells i.alloc q.fields, i.body, i.discard⟩ with | .handler _ q => _ | _ => _) = _
    rw [h3, H2Refuse.garbled_answer _ h1 h2]
  | malformed fs i =>
    obtain ⟨h1, h2, h4, h5⟩ := hx
    rw [show s' = s from he]
    unfold Host.next
    show (match H2R.answer _ ⟨true, H2Trip.cells i.alloc fs, i.body, i.discard⟩ with | .handler _ q => _ | _ => _) = _
    rw [H2Trip.malformed_answer _ i fs h1 h2]
  | long q i =>
    obtain ⟨h1, h2, h4, h5⟩ := hx
    rw [show s' = s from he]
    unfold Host.next
    show (match H2R.answer _ ⟨true, H2Trip.cells i.alloc q.fields, i.body, i.discard⟩ with | .handler _ q => _ | _ => _) = _
    rw [h2, H2R.C100_discarded_is_413_partial _ true (H2Trip.cells i.alloc q.fields) q.fields q.method true q.path q.query i.body (H2Trip.cells_hold i.alloc q.fields)
      h1.wellFormed h1.path h1.query]

theorem after_none (a : Host S) (k : H2Trip.Conn) (site : Site) (t : Hpack.DTab) (z : At) (alloc : Nat → Bool) (s : S) :
    ∀ (os : List Out), answers site k t z os = some [] → a.after alloc s os = s
  | [], _ => rfl
  | o :: os, h => by
    cases o with
    | dispatch sid hs b d =>
      simp only [answers] at h
      split at h
      · simp at h
      · simp at h
    | _ => exact after_none a k site t z alloc s os h

theorem after_one (a : Host S) (k : H2Trip.Conn) (site : Site) (t : Hpack.DTab) (z : At) (alloc : Nat → Bool) (s : S) (sid : Nat) (hs : List (Bytes × Bytes)) (b : Option (Nat × Bytes))
    (d : Bool) (c : Option Bytes) (hb : contentOf b = some c) (r : Nat × Bytes) :
    ∀ (os : List Out), answers site k t z os = some [r] → Out.dispatch sid hs b d ∈ os → a.after alloc s os = a.next s ⟨true, H2Trip.cells alloc hs, c, d⟩
  | [], _, hm => by simp at hm
  | o :: os, h, hm => by
    cases o with
    | dispatch sid' hs' b' d' =>
      simp only [answers] at h
      split at h
      · simp at h
      · simp only [Option.map_eq_some_iff, List.cons.injEq] at h
        obtain ⟨q, hq, _, rfl⟩ := h
        rcases List.mem_cons.1 hm with hm | hm
        · cases hm
          simp only [Host.after, hb, after_none a k site t z alloc _ os hq]
        · exact absurd hm (H2Access.answers_no_dispatch site k t z os hq _ _ _ _)
    | _ =>
      rcases List.mem_cons.1 hm with hm | hm
      · cases hm
      · exact after_one a k site t z alloc s sid hs b d c hb r os h hm

/-! ## C201 -/

/-- The connections are as their clients think. -/
def Known (p : Setup) (cs : Nat → Option Client) (w : World S) : Prop :=
  ∀ i, match cs i with
    | none => w.link i = none
    | some c => ∃ l, w.link i = some l ∧ Agrees p.limit p.maxBody c l

theorem known_put {p : Setup} {cs : Nat → Option Client} {w : World S} (h : Known p cs w) {i : Nat} {c : Client} {l : Link} (hl : Agrees p.limit p.maxBody c l) (s : S) :
    Known p (put cs i c) ⟨s, fun j => if j = i then some l else w.link j⟩ := by
  intro j
  by_cases hj : j = i
  · simp only [put, if_pos hj]
    exact ⟨l, rfl, hl⟩
  · simp only [put, if_neg hj]
    exact h j

theorem run_cons {a : Host S} {p : Setup} {w w1 w2 : World S} {i : Nat} {f : Arrival} {es : List (Nat × Arrival)} {os : List Out} {rs : List (Nat × Bytes)}
    {os' : List (Nat × Out)} {rs' : List (Nat × Nat × Bytes)} (h : step a p w i f = some (w1, os, rs)) (h' : run a p w1 es = some (w2, os', rs')) :
    run a p w ((i, f) :: es) = some (w2, os.map (Prod.mk i) ++ os', rs.map (Prod.mk i) ++ rs') := by
  rw [run, h]
  simp only [h', Option.map_some]

theorem calm_cons {i : Nat} {os : List Out} {os' : List (Nat × Out)} (h : ∀ o ∈ os, Calm o) (h' : ∀ o ∈ os', Calm o.2) : ∀ o ∈ os.map (Prod.mk i) ++ os', Calm o.2 := by
  intro o ho
  rcases List.mem_append.1 ho with ho | ho
  · obtain ⟨x, hx, rfl⟩ := List.mem_map.1 ho
    exact h x hx
  · exact h' o ho

/-- **C201** *(partial)*.  However the frames of any number of HTTP/2 clients arrive, each client speaking as in C199, the requests of all clients have one order, that in which
they are complete: every request, and nothing else, is answered once, on its connection and its stream, with what the application makes of it in the state in which the requests before have
left it, and leaves the state as its function does when called with what the client sent; a request that is refused or is for a file does not change the state.  The
server reports no error to any client.
Missing: clients that do not speak as in C199 (they may end the worker, see C129). -/
theorem C201_h2_serial_order_partial (a : Host S) (hr : ∀ x ∈ a.app.base.routes, WrittenPath x.1) (p : Setup) (hk : ∀ i, 16384 ≤ (p.conn i).maxFrame ∧ (p.conn i).maxFrame < 2 ^ 24) (s : S)
    (es : List (Nat × Arrival)) (ds : List (Done S)) (h : Talks a p s (fun _ => none) es ds) :
    ∃ w os rs, run a p (World.start s) es = some (w, os, rs) ∧ Serial s ds w.app ∧ Each (Read a p) ds rs ∧ (∀ d ∈ ds, Effect a d.step d.before d.after) ∧ ∀ o ∈ os, Calm o.2 := by
  have key : ∀ (s : S) (cs : Nat → Option Client) (es : List (Nat × Arrival)) (ds : List (Done S)), Talks a p s cs es ds → ∀ (w : World S), w.app = s → Known p cs w →
      ∃ w' os rs, run a p w es = some (w', os, rs) ∧ Serial s ds w'.app ∧ Each (Read a p) ds rs ∧ (∀ d ∈ ds, Effect a d.step d.before d.after) ∧ ∀ o ∈ os, Calm o.2 := by
    intro s cs es ds h
    induction h with
    | done s cs => intro w hw _; exact ⟨w, [], [], rfl, hw ▸ .nil _, .nil, by simp, by simp⟩
    | hello s cs i f ss init es ds hi hf hss hinit h ih =>
      intro w hw hc
      obtain ⟨l, os, e, hl, ho⟩ := H2Wire.first_step (a.at w.app) (p.conn i) p.maxBody (p.mem i) p.limit f ss hf hss init hinit
      have hlink : w.link i = none := by have := hc i; rw [hi] at this; exact this
      have hstep : step a p w i f = some (⟨a.after f.alloc w.app os, fun j => if j = i then some l else w.link j⟩, os, []) := by
        unfold step linkOf
        rw [hlink]
        simp only [Option.getD_none, e]
      have hafter := after_none a _ _ _ _ f.alloc w.app os (H2Access.step_answers e)
      obtain ⟨w', os', rs', r1, r2, r3, r4, r5⟩ := ih _ (hafter.trans hw) (known_put hc hl _)
      exact ⟨w', _, rs', run_cons hstep r1, r2, r3, r4, calm_cons ho r5⟩
    | quiet s cs i c c' f es ds hi hs h ih =>
      intro w hw hc
      have := hc i
      rw [hi] at this
      obtain ⟨l, hlink, hl⟩ := this
      subst hw
      obtain ⟨l', os, rs, e, hl', ho, hx⟩ := H2Wire.says_step ⟨a.app.at w.app, a.files, a.read⟩ hr (p.conn i) (hk i) hl hs
      rcases hx with ⟨_, rfl⟩ | ⟨x, hx, _⟩
      · have hstep : step a p w i f = some (⟨a.after f.alloc w.app os, fun j => if j = i then some l' else w.link j⟩, os, []) := by
          unfold step linkOf
          rw [hlink]
          simp only [Option.getD_some, Host.at, e]
        have hafter := after_none a _ _ _ _ f.alloc w.app os (H2Access.step_answers e)
        obtain ⟨w', os', rs', r1, r2, r3, r4, r5⟩ := ih _ hafter (known_put hc hl' _)
        exact ⟨w', _, rs', run_cons hstep r1, r2, r3, r4, calm_cons ho r5⟩
      · cases hx
    | asks s s' cs i c c' f x es ds hi hs heff h ih =>
      intro w hw hc
      have := hc i
      rw [hi] at this
      obtain ⟨l, hlink, hl⟩ := this
      subst hw
      obtain ⟨l', os, rs, e, hl', ho, hx⟩ := H2Wire.says_step ⟨a.app.at w.app, a.files, a.read⟩ hr (p.conn i) (hk i) hl hs
      rcases hx with ⟨hx, _⟩ | ⟨y, hx, bs, tab, tab', b, rfl, hans, hprop, _, hbel, hb, hmem⟩
      · cases hx
      · cases hx
        have hstep : step a p w i f = some (⟨a.after f.alloc w.app os, fun j => if j = i then some l' else w.link j⟩, os, [(x.inc.sid, bs)]) := by
          unfold step linkOf
          rw [hlink]
          simp only [Option.getD_some, Host.at, e]
        have hafter := after_one a _ _ _ _ f.alloc w.app _ _ b _ _ hb _ os (H2Access.step_answers e) hmem
        have hal : f.alloc = x.inc.alloc := hbel.1
        rw [hal] at hafter hstep
        have hst := hafter.trans (next_effect a hr (p.conn i) hprop heff)
        obtain ⟨w', os', rs', r1, r2, r3, r4, r5⟩ := ih _ hst (known_put hc hl' _)
        refine ⟨w', _, _, run_cons hstep r1, .cons ⟨i, x, w.app, s'⟩ _ _ r2, .cons ⟨rfl, rfl, hans⟩ r3, ?_, calm_cons ho r5⟩
        intro d hd
        rcases List.mem_cons.1 hd with rfl | hd
        · exact heff
        · exact r4 d hd
  exact key s _ es ds h (World.start s) rfl (fun i => rfl)

/-! ### Two clients and a function that counts -/

/-- The site of C199 with a function that counts its calls and gives the file three times. -/
def sampleHost : Host Nat :=
  { app := ⟨Nego.sampleSite2.app, fun i p n => (match n with | 0 => Nego.sampleSite2.app.fns i p | 1 => Nego.sampleSite2.app.fns i p | 2 => Nego.sampleSite2.app.fns i p | _ => .value (.str b!"no more"), n + 1)⟩,
    files := Nego.sampleSite2.files, read := Nego.sampleSite2.read }

def sampleSetup (g : Nat → Hpack.DNode) : Setup := ⟨fun _ => H2Trip.sampleConn, g, 4096, 4⟩

def takeFrame : Arrival := H2Wire.arrival (H2Wire.place 1 37 1 ([0, 0, 0, 0, 15] ++ Nego.repsTake.flatMap Hpack.Rep.wire))
def fineFrame : Arrival := H2Wire.arrival (H2Wire.place 1 5 5 (H2Refuse.repsFine.flatMap Hpack.Rep.wire))

def sampleEvents : List (Nat × Arrival) := [(1, H2Wire.hello), (2, H2Wire.hello), (2, takeFrame), (1, takeFrame), (2, fineFrame)]
def sampleDone : List (Done Nat) := [⟨2, .turn Nego.takeTurn, 0, 1⟩, ⟨1, .turn Nego.takeTurn, 1, 2⟩, ⟨2, H2Wire.fine, 2, 2⟩]

/-- The same with a function that counts but always gives the file. -/
def sampleFree : Host Nat := { sampleHost with app := ⟨Nego.sampleSite2.app, fun i p n => (Nego.sampleSite2.app.fns i p, n + 1)⟩ }

theorem take_effect (n : Nat) : Effect sampleHost (.turn Nego.takeTurn) n (n + 1) := by
  obtain ⟨f, ps, hc, _⟩ := Nego.take_returns
  exact ⟨fun _ => Or.inl ⟨f, ps, hc, rfl⟩, fun h => absurd Nego.take_met h⟩

theorem take_effect_free (n : Nat) : Effect sampleFree (.turn Nego.takeTurn) n (n + 1) := by
  obtain ⟨f, ps, hc, _⟩ := Nego.take_returns
  exact ⟨fun _ => Or.inl ⟨f, ps, hc, rfl⟩, fun h => absurd Nego.take_met h⟩

theorem take_frame_says (a : Host Nat) (n : Nat) (hn : inState a n = Nego.negotiating Nego.sampleSite2) :
    Says (inState a n) H2Trip.sampleConn 4096 4 (Client.fresh 65535) takeFrame [.turn Nego.takeTurn] ⟨[(b!":path", b!"/f")], 1, 65530, 65535, []⟩ := by
  rw [hn]
  exact .bare _ [(b!":path", b!"/f")] _ _ _ _ (.turn Nego.takeTurn) 5 _ ⟨Nego.take_says, fun _ => ⟨Nego.take_asked, trivial⟩, fun h => absurd Nego.take_met h⟩
    ⟨[0, 0, 0, 0, 15], Nego.repsTake.flatMap Hpack.Rep.wire, Or.inr rfl, rfl, H2Wire.place_holds 1 37 1 _ (by decide) (by decide +kernel), H2Wire.place_behind _ _ _ _ _⟩
    (by decide) (by decide) rfl rfl ⟨rfl, rfl, rfl, rfl⟩ H2Wire.take_draws

theorem fine_frame_says (a : Host Nat) (n : Nat) (hn : inState a n = Nego.negotiating Nego.sampleSite2) :
    Says (inState a n) H2Trip.sampleConn 4096 4 ⟨[(b!":path", b!"/f")], 1, 65530, 65535, []⟩ fineFrame [H2Wire.fine] ⟨[(b!":path", b!"/f")], 5, 65530, 65535, []⟩ := by
  rw [hn]
  exact .bare _ [(b!":path", b!"/f")] _ _ _ _ H2Wire.fine 0 _ H2Wire.fine_proper
    ⟨[], H2Refuse.repsFine.flatMap Hpack.Rep.wire, Or.inl rfl, rfl, H2Wire.place_holds 1 5 5 _ (by decide) (by decide +kernel), H2Wire.place_behind _ _ _ [] _⟩ (by decide) (by decide)
    rfl rfl ⟨rfl, rfl, rfl, rfl⟩ rfl

theorem sample_talks (a : Host Nat) (g : Nat → Hpack.DNode) (h0 : inState a 0 = Nego.negotiating Nego.sampleSite2) (h1 : inState a 1 = Nego.negotiating Nego.sampleSite2)
    (h2 : inState a 2 = Nego.negotiating Nego.sampleSite2) (he : ∀ n, Effect a (.turn Nego.takeTurn) n (n + 1)) :
    Talks a (sampleSetup g) 0 (fun _ => none) sampleEvents sampleDone := by
  have hset : ∀ x ∈ [(4, 65535), (5, 16384)], Setting x := by unfold Setting; decide
  have hst : Starts [(4, 65535), (5, 16384)] 65535 := Or.inr ⟨[], [(5, 16384)], rfl, by decide⟩
  refine .hello _ _ _ _ _ _ _ _ rfl H2Wire.hello_holds hset hst ?_
  refine .hello _ _ _ _ _ _ _ _ rfl H2Wire.hello_holds hset hst ?_
  refine .asks _ _ _ _ _ _ _ _ _ _ rfl (take_frame_says a 0 h0) (he 0) ?_
  refine .asks _ _ _ _ _ _ _ _ _ _ rfl (take_frame_says a 1 h1) (he 1) ?_
  exact .asks _ _ _ _ _ _ _ _ _ _ rfl (fine_frame_says a 2 h2) rfl (.done _ _)

example (g : Nat → Hpack.DNode) : ∃ w os rs, run sampleHost (sampleSetup g) (World.start 0) sampleEvents = some (w, os, rs) ∧ Serial 0 sampleDone w.app ∧
    Each (Read sampleHost (sampleSetup g)) sampleDone rs ∧ (∀ d ∈ sampleDone, Effect sampleHost d.step d.before d.after) ∧ ∀ o ∈ os, Calm o.2 :=
  C201_h2_serial_order_partial sampleHost Nego.sampleSite_written (sampleSetup g) (fun _ => (by decide : 16384 ≤ H2Trip.sampleConn.maxFrame ∧ H2Trip.sampleConn.maxFrame < 2 ^ 24)) 0 _ _ (sample_talks sampleHost g rfl rfl rfl take_effect)

/-! ## C202 -/

/-- **C202** *(partial)*.  Whatever bytes any number of clients send, if the functions of the application do not depend on what was asked before: as long as the worker runs, each client gets
exactly what it would get if its frames were the only ones.
Missing: applications that keep state (see C201). -/
theorem C202_connections_apart_partial (a : Host S) (p : Setup) (hfree : ∀ f q s s', (a.app.fns f q s).1 = (a.app.fns f q s').1) (s : S) (es : List (Nat × Arrival)) (w : World S)
    (os : List (Nat × Out)) (rs : List (Nat × Nat × Bytes)) (h : run a p (World.start s) es = some (w, os, rs)) (i : Nat) :
    ∃ l, H2Wire.run (inState a s) (p.conn i) (Link.init p.maxBody (p.mem i) p.limit) (ofConn i es) = some (l, ofConn i os, ofConn i rs) := by
  have site : ∀ s', a.at s' = inState a s := by
    intro s'
    unfold Host.at inState Serve.App.at Serve.inState
    rw [show (fun i p => (a.app.fns i p s').1) = (fun i p => (a.app.fns i p s).1) from funext fun i => funext fun p => hfree i p s' s]
  have split : ∀ {α : Type} (j : Nat) (l : List α) (m : List (Nat × α)), ofConn i (l.map (Prod.mk j) ++ m) = (if j = i then l else []) ++ ofConn i m := by
    intro α j l m
    unfold ofConn
    rw [List.filter_append, List.map_append]
    congr 1
    by_cases hj : j = i
    · rw [if_pos hj, List.filter_eq_self.2 (by simp [hj]), List.map_map]
      simp [Function.comp_def]
    · rw [if_neg hj, List.filter_eq_nil_iff.2 (by simp [hj])]
      rfl
  have key : ∀ (es : List (Nat × Arrival)) (w0 w : World S) (os : List (Nat × Out)) (rs : List (Nat × Nat × Bytes)), run a p w0 es = some (w, os, rs) →
      ∃ l, H2Wire.run (inState a s) (p.conn i) (linkOf p (w0.link i) i) (ofConn i es) = some (l, ofConn i os, ofConn i rs) := by
    intro es
    induction es with
    | nil =>
      intro w0 w os rs h
      simp only [run, Option.some.injEq, Prod.mk.injEq] at h
      obtain ⟨_, rfl, rfl⟩ := h
      exact ⟨_, rfl⟩
    | cons e es ih =>
      intro w0 w os rs h
      obtain ⟨j, f⟩ := e
      rw [run] at h
      cases hs : step a p w0 j f with
      | none => rw [hs] at h; simp at h
      | some q =>
        obtain ⟨w1, os1, rs1⟩ := q
        rw [hs] at h
        simp only [Option.map_eq_some_iff] at h
        obtain ⟨⟨w2, os2, rs2⟩, h2, h3⟩ := h
        simp only [Prod.mk.injEq] at h3
        obtain ⟨_, rfl, rfl⟩ := h3
        obtain ⟨l, hl⟩ := ih w1 w2 os2 rs2 h2
        unfold step at hs
        rw [site] at hs
        cases hw : H2Wire.step (inState a s) (p.conn j) (linkOf p (w0.link j) j) f with
        | none => rw [hw] at hs; simp at hs
        | some q =>
          obtain ⟨l1, os', rs'⟩ := q
          rw [hw] at hs
          simp only [Option.some.injEq, Prod.mk.injEq] at hs
          obtain ⟨rfl, rfl, rfl⟩ := hs
          rw [split, split]
          by_cases hj : j = i
          · subst hj
            rw [if_pos rfl, if_pos rfl]
            simp only [if_pos] at hl
            refine ⟨l, ?_⟩
            have : ofConn j ((j, f) :: es) = f :: ofConn j es := by simp [ofConn]
            rw [this, H2Wire.run, hw]
            simp only [linkOf, Option.getD_some] at hl
            simp only [hl, Option.map_some]
          · rw [if_neg hj, if_neg hj]
            have : ofConn i ((j, f) :: es) = ofConn i es := by simp [ofConn, hj]
            rw [this]
            have hij : ¬ i = j := fun e => hj e.symm
            simp only [if_neg hij] at hl
            exact ⟨l, hl⟩
  exact key es _ w os rs h

/-- The hypotheses are met: the frames of two clients, and each gets what it would get alone. -/
example (g : Nat → Hpack.DNode) : ∃ w os rs, run sampleFree (sampleSetup g) (World.start 0) sampleEvents = some (w, os, rs) ∧
    ∃ l, H2Wire.run (inState sampleFree 0) H2Trip.sampleConn (Link.init 4 (g 2) 4096) [H2Wire.hello, takeFrame, fineFrame] = some (l, ofConn 2 os, ofConn 2 rs) := by
  obtain ⟨w, os, rs, h, _⟩ := C201_h2_serial_order_partial sampleFree Nego.sampleSite_written (sampleSetup g)
    (fun _ => (by decide : 16384 ≤ H2Trip.sampleConn.maxFrame ∧ H2Trip.sampleConn.maxFrame < 2 ^ 24)) 0 _ _ (sample_talks sampleFree g rfl rfl rfl take_effect_free)
  exact ⟨w, os, rs, h, C202_connections_apart_partial sampleFree (sampleSetup g) (fun _ _ _ _ => rfl) 0 _ w os rs h 2⟩

end Fly.H2Serve
