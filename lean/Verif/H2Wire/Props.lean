import Verif.H2Wire.Lemmas
import Verif.H2Refuse.Props

/-! # C199: an HTTP/2 connection, from the bytes of its frames to the responses -/

namespace Fly.H2Wire
open Buffer (Cursor NE)
open H2S (Out)
open H2 (wireHeader wireSettings)
open Header (Pairs)
open Hpack (DTab Entry)
open Site (Site)
open H2Refuse (Step)
open Nego (negotiating)
open Trip (WrittenPath Each)

theorem proper_decodes {s : Site} {k : H2Trip.Conn} {limit : Nat} {tab tab' : List Entry} {x : Step} (h : x.Proper s k limit tab tab') :
    H2Trip.Decodes limit tab tab' x.inc (fieldsOf x) := by
  cases x with
  | turn t =>
    rcases Classical.em t.wish.Met with hm | hm
    · exact (h.served hm).1.carries.2.2
    · exact (h.refused hm).2.1
  | garbled q i => exact h.2.2.2.1
  | malformed fs i => exact h.2.2.1
  | long q i => exact h.2.2.1

theorem proper_apart {s : Site} {k : H2Trip.Conn} {limit : Nat} {tab tab' : List Entry} {x : Step} (h : x.Proper s k limit tab tab') : Apart s tab' x := by
  cases x with
  | turn t => exact ⟨fun hm pre post body hs => ((h.served hm).1.fields pre post body hs).2.2, fun hm => (h.refused hm).2.2.2.2.2.2.2.1⟩
  | garbled q i => exact h.2.2.2.2.apart
  | malformed fs i => exact h.2.2.2.apart
  | long q i => exact h.2.2.2.apart

/-- The response to a request, when the client's table has the entries `tab2`. -/
theorem made (s : Site) (hr : ∀ x ∈ s.app.routes, WrittenPath x.1) (k : H2Trip.Conn) (hk : 16384 ≤ k.maxFrame ∧ k.maxFrame < 2 ^ 24) {limit : Nat} {tab tab' tab2 : List Entry}
    {x : Step} (hx : x.Proper (negotiating s) k limit tab tab') (hap : Apart (negotiating s) tab2 x) :
    ∃ r bs, H2Site.response (negotiating s) x.now ⟨true, H2Trip.cells x.inc.alloc (fieldsOf x), x.inc.body, x.inc.discard⟩ = some r ∧
      H2Trip.send k tab2 x.inc.sid x.inc.win r x.inc.writes = some bs ∧ x.Answered (negotiating s) k bs ∧
      (∃ body, H2Trip.Sendable k tab2 r x.inc.writes body) ∧ ∀ d, Draws (negotiating s) x d → used k tab2 x.inc.sid x.inc.win r x.inc.writes = d := by
  have nothing : ∀ {i : H2Trip.Incoming} {r : H2Trip.Resp} {d : Nat}, i.sid < 2 ^ 31 → H2Trip.Sendable k tab2 r i.writes [] → d = 0 → used k tab2 i.sid i.win r i.writes = d := by
    intro i r d hsid h hd
    rw [used_ok k hk _ hsid _ _ _ _ _ h (by simp), hd]; rfl
  cases x with
  | turn t =>
    rcases Classical.em t.wish.Met with hm | hm
    · obtain ⟨h1, h2⟩ := hx.served hm
      obtain ⟨r, bs, e1, e2, ha, pre, post, body, hsh, hsend⟩ := H2Site.made (negotiating s) hr k hk t.ask h1 (hap.1 hm)
      refine ⟨r, bs, e1, e2, ⟨fun _ => ⟨ha, Nego.h2_taken hx.says h2⟩, fun h => absurd hm h⟩, ⟨body, hsend⟩, fun d hd => ?_⟩
      obtain ⟨pre', post', body', g1, g2⟩ := hd.1 hm
      rw [hsh] at g1
      simp only [Option.some.injEq, Prod.mk.injEq] at g1
      rw [← g2, ← g1.2.2]
      refine used_ok k hk _ h1.sid _ _ _ _ _ hsend fun hb => ?_
      obtain ⟨q1, q2, _⟩ := h1.roomy pre post body hsh hb
      exact ⟨by show 0 < t.ask.inc.win.stream; omega, by show 0 < t.ask.inc.win.conn; omega⟩
    · obtain ⟨hg, hc, hdis, hsid, hth, hd, hdate, _, hw⟩ := hx.refused hm
      obtain ⟨r, bs, len, e1, e2, h1, h2, h3⟩ := H2Trip.refusal_made (negotiating s).full k hk t.ask.inc hsid (n := 406) (Or.inr (Or.inr ⟨rfl, rfl⟩)) hth hd hdate (hap.2 hm) hw
      refine ⟨r, bs, H2Site.response_app _ _ _ _ ?_, e2, ⟨fun h => absurd h hm, fun _ => ⟨len, h1, h2⟩⟩, ⟨[], h3⟩, fun d hd => nothing hsid h3 (hd.2 hm)⟩
      show H2Trip.response (negotiating s).full (H2R.answer _ ⟨true, H2Trip.cells t.ask.inc.alloc t.ask.ask.fields, t.ask.inc.body, t.ask.inc.discard⟩) = some r
      rw [hdis, (H2R.answer_well_formed _ true _ _ t.ask.ask.method true t.ask.ask.path t.ask.ask.query t.ask.inc.body
          (H2Trip.cells_hold t.ask.inc.alloc t.ask.ask.fields) hg.wellFormed hg.path hg.query).2.2.1 t.wish hx.says hm]
      exact e1
  | garbled q i =>
    obtain ⟨h1, h2, h3, h4, h5⟩ := hx
    obtain ⟨r, bs, len, e1, e2, g1, g2, g3⟩ := H2Trip.refusal_made (negotiating s).full k hk i h5.sid (n := 400) (Or.inl ⟨rfl, rfl⟩) h5.threshold h5.page h5.date hap h5.takes
    refine ⟨r, bs, H2Site.response_app _ _ _ _ ?_, e2, ⟨len, g1, g2⟩, ⟨[], g3⟩, fun d hd => nothing h5.sid g3 hd⟩
    show H2Trip.response (negotiating s).full (H2R.answer _ ⟨true, H2Trip.cells i.alloc q.fields, i.body, i.discard⟩) = some r
    rw [h3, H2Refuse.garbled_answer _ h1 h2]
    exact e1
  | malformed fs i =>
    obtain ⟨h1, h2, h4, h5⟩ := hx
    obtain ⟨r, bs, len, e1, e2, g1, g2, g3⟩ := H2Trip.refusal_made (negotiating s).full k hk i h5.sid (n := 400) (Or.inl ⟨rfl, rfl⟩) h5.threshold h5.page h5.date hap h5.takes
    refine ⟨r, bs, H2Site.response_app _ _ _ _ ?_, e2, ⟨len, g1, g2⟩, ⟨[], g3⟩, fun d hd => nothing h5.sid g3 hd⟩
    show H2Trip.response (negotiating s).full (H2R.answer _ ⟨true, H2Trip.cells i.alloc fs, i.body, i.discard⟩) = some r
    rw [H2Trip.malformed_answer _ i fs h1 h2]
    exact e1
  | long q i =>
    obtain ⟨h1, h2, h4, h5⟩ := hx
    obtain ⟨r, bs, len, e1, e2, g1, g2, g3⟩ := H2Trip.refusal_made (negotiating s).full k hk i h5.sid (n := 413) (Or.inr (Or.inl ⟨rfl, rfl⟩)) h5.threshold h5.page h5.date hap h5.takes
    refine ⟨r, bs, H2Site.response_app _ _ _ _ ?_, e2, ⟨len, g1, g2⟩, ⟨[], g3⟩, fun d hd => nothing h5.sid g3 hd⟩
    show H2Trip.response (negotiating s).full (H2R.answer _ ⟨true, H2Trip.cells i.alloc q.fields, i.body, i.discard⟩) = some r
    rw [h2, H2R.C100_discarded_is_413_partial _ true (H2Trip.cells i.alloc q.fields) q.fields q.method true q.path q.query i.body (H2Trip.cells_hold i.alloc q.fields)
      h1.wellFormed h1.path h1.query]
    exact e1

/-! ## Requests under way -/

/-- A request under way and its stream. -/
def Going (mb last : Nat) (p : Call) (st : H2S.Stream) : Prop :=
  ∃ got, st = part p.step.inc.sid (fieldsOf p.step) mb (got ++ p.rest).length got p.window ∧ Contains mb p.step (got ++ p.rest) ∧ p.step.inc.sid % 2 = 1 ∧ p.step.inc.sid ≤ last

/-- A stream that is not cancelled. -/
def live (st : H2S.Stream) : Bool := decide (st.st ≠ .closed)

structure Ready (mb init last : Nat) (conn : Int) (under : List Call) (l : Link) : Prop extends Up mb l.c where
  streams : Each (Going mb last) under (l.c.streams.filter live)
  nodup : (l.c.streams.map (·.id)).Nodup
  ids : ∀ t ∈ l.c.streams, t.id ≤ last
  maxSid : l.c.maxSid ≤ last
  init : l.set.initialWindowSize = init
  conn : l.c.window = conn

theorem each_split {α β : Type} {R : α → β → Prop} {x : α} {r : List α} : ∀ {l : List α} {m : List β}, Each R (l ++ x :: r) m → ∃ a y b, m = a ++ y :: b ∧ Each R l a ∧ R x y ∧ Each R r b
  | [], m, h => by
    cases h with
    | cons h1 h2 => exact ⟨[], _, _, rfl, .nil, h1, h2⟩
  | z :: l, m, h => by
    cases h with
    | cons h1 h2 =>
      obtain ⟨a, y, b, rfl, g1, g2, g3⟩ := each_split h2
      exact ⟨_ :: a, y, b, rfl, .cons h1 g1, g2, g3⟩

theorem each_mono {α β : Type} {R Q : α → β → Prop} (h : ∀ a b, R a b → Q a b) {l : List α} {m : List β} (hl : Each R l m) : Each Q l m := by
  induction hl with
  | nil => exact .nil
  | cons h1 _ ih => exact .cons (h _ _ h1) ih

theorem Going.mono {mb last last' : Nat} (h : last ≤ last') (p : Call) (st : H2S.Stream) (hg : Going mb last p st) :
    Going mb last' p st := by
  obtain ⟨got, h1, h2, h3, h4⟩ := hg
  exact ⟨got, h1, h2, h3, by omega⟩

theorem filter_split {α : Type} {q : α → Bool} {y : α} {b : List α} : ∀ {l a : List α}, l.filter q = a ++ y :: b → ∃ l1 l2, l = l1 ++ y :: l2 ∧ l1.filter q = a ∧ l2.filter q = b
  | [], a, h => by cases a <;> simp at h
  | x :: l, a, h => by
    rw [List.filter_cons] at h
    by_cases hx : q x = true
    · rw [if_pos hx] at h
      cases a with
      | nil =>
        simp only [List.nil_append, List.cons.injEq] at h
        exact ⟨[], l, by simp [h.1], rfl, h.2⟩
      | cons z a =>
        simp only [List.cons_append, List.cons.injEq] at h
        obtain ⟨l1, l2, rfl, h1, h2⟩ := filter_split h.2
        exact ⟨x :: l1, l2, rfl, by rw [List.filter_cons, if_pos hx, h1, h.1], h2⟩
    · rw [if_neg hx] at h
      obtain ⟨l1, l2, rfl, h1, h2⟩ := filter_split h
      exact ⟨x :: l1, l2, rfl, by rw [List.filter_cons, if_neg hx, h1], h2⟩

/-- The stream of a request under way among the others. -/
theorem found {mb init last : Nat} {conn : Int} {pre post : List Call} {p : Call} {l : Link}
    (hu : Ready mb init last conn (pre ++ p :: post) l) :
    ∃ sa got sb, l.c.streams = sa ++ part p.step.inc.sid (fieldsOf p.step) mb (got ++ p.rest).length got p.window :: sb ∧ Each (Going mb last) pre (sa.filter live) ∧
      Each (Going mb last) post (sb.filter live) ∧ Contains mb p.step (got ++ p.rest) ∧ p.step.inc.sid % 2 = 1 ∧ p.step.inc.sid ≤ last ∧
      (∀ t ∈ sa, t.id ≠ p.step.inc.sid) ∧ ∀ t ∈ sb, t.id ≠ p.step.inc.sid := by
  obtain ⟨a, st, b, hs, ha, ⟨got, rfl, hc, hodd, hlast⟩, hb⟩ := each_split hu.streams
  obtain ⟨sa, sb, e, rfl, rfl⟩ := filter_split hs
  have hn := hu.nodup
  rw [e, List.map_append, List.map_cons, List.nodup_append, List.nodup_cons] at hn
  obtain ⟨_, ⟨h2, _⟩, h3⟩ := hn
  refine ⟨sa, got, sb, e, ha, hb, hc, hodd, hlast, fun t ht => ?_, fun t ht h => ?_⟩
  · exact h3 _ (List.mem_map.2 ⟨t, ht, rfl⟩) _ (by simp [part, opened])
  · exact h2 (List.mem_map.2 ⟨t, ht, by rw [h]; rfl⟩)

/-- The stream of a request is exchanged for one with the same number. -/
theorem ready_swap {mb init last : Nat} {conn : Int} {under under' : List Call} {l : Link} (hu : Ready mb init last conn under l)
    {sa sb : List H2S.Stream} {st st' : H2S.Stream} (hs : l.c.streams = sa ++ st :: sb) (hid : st'.id = st.id)
    (hg : Each (Going mb last) under' ((sa ++ st' :: sb).filter live)) :
    Ready mb init last conn under' ⟨{ l.c with streams := sa ++ st' :: sb }, l.t, l.set⟩ where
  toUp := hu.toUp.streams _
  streams := hg
  nodup := by
    have := hu.nodup
    rw [hs] at this
    simpa [hid] using this
  ids := by
    intro t ht
    have := hu.ids
    rw [hs] at this
    simp only [List.mem_append, List.mem_cons] at ht
    rcases ht with ht | rfl | ht
    · exact this t (by simp [ht])
    · rw [hid]; exact this st (by simp)
    · exact this t (by simp [ht])
  maxSid := hu.maxSid
  init := hu.init
  conn := hu.conn

theorem decode_open {mb init last : Nat} {conn : Int} {under : List Call} {l : Link} (hu : Ready mb init last conn under l) {x : Step}
    (hl : last < x.inc.sid) (hodd : x.inc.sid % 2 = 1) {c : Cursor} {fin : Bool}
    (ho : Opens x c fin) {t' : DTab} {fs : Pairs} (hp : Hpack.parseHeaders x.inc.len ⟨l.t, []⟩ x.inc.len 0 (some x.inc.block) = some (.ok ⟨t', fs⟩)) :
    ∃ (h : Head) (prio : Bool) (n : Nat), n ≤ 16384 ∧ headOf c = some h ∧ h.sid = x.inc.sid ∧
      decode l h = some ({ type := 1, flags := (if fin then 5 else 4) + (if prio then 0 else 32), sid := x.inc.sid, length := n, hdrs := fs }, t', l.set) := by
  obtain ⟨prio, block, h1, h2, h3, h4⟩ := ho
  obtain ⟨p, rest, e1, e2, e3, e4, e5⟩ := headOf_frame h3
  refine ⟨_, decide (prio = []), (prio ++ block).length, h3.2.2.1, e1, rfl, ?_⟩
  have hb := step_block (h := ⟨(prio ++ block).length, 1, (if fin then 5 else 4) + (if prio = [] then 0 else 32), x.inc.sid, some p⟩) h1 fin x.inc.sid rfl rfl h3.2.2.1 e4 e2 e3 e5 h4
  have hm := hu.maxSid
  have href : H2S.refuse l.c x.inc.sid = false := by
    have : ¬ x.inc.sid ≤ l.c.maxSid := by omega
    simp [H2S.refuse, hu.maxConc, this, hodd]
  have hla : looksAt l.c ⟨(prio ++ block).length, 1, (if fin then 5 else 4) + (if prio = [] then 0 else 32), x.inc.sid, some p⟩ = true := by
    simp [looksAt, href, hu.comm]
  unfold decode
  simp only [hla, Bool.not_true, Bool.false_eq_true, if_false, hb, h2, hp, decide_eq_true_eq]

/-- A request without content. -/
theorem bare_step (s : Site) (hr : ∀ x ∈ s.app.routes, WrittenPath x.1) (k : H2Trip.Conn) (hk : 16384 ≤ k.maxFrame ∧ k.maxFrame < 2 ^ 24) {mb init last limit : Nat}
    {conn : Int} {under : List Call} {l : Link} (hu : Ready mb init last conn under l) {tab tab' : List Entry} (ht : H2Trip.Holds l.t limit tab) {x : Step}
    (hx : x.Proper (negotiating s) k limit tab tab') {z : Arrival} (ho : Opens x z.place true) (hl : last < x.inc.sid) (hodd : x.inc.sid % 2 = 1) (h1 : x.inc.body = none)
    (h2 : x.inc.discard = false) (hb : Belongs x ⟨z, ⟨init, conn⟩⟩) {d : Nat} (hd : Draws (negotiating s) x d) :
    ∃ l' os bs, step (negotiating s) k l z = some (l', os, [(x.inc.sid, bs)]) ∧ winAt l z = ⟨init, conn⟩ ∧
      Ready mb init x.inc.sid (conn - d) under l' ∧ H2Trip.Holds l'.t limit tab' ∧
      x.Answered (negotiating s) k bs ∧ (∀ o ∈ os, Calm o) ∧ ∃ b, contentOf b = some x.inc.body ∧ Out.dispatch x.inc.sid (fieldsOf x) b x.inc.discard ∈ os := by
  obtain ⟨t', hp, ht', hdyn⟩ := H2Trip.decoded l.t ht x.inc (fieldsOf x) (proper_decodes hx)
  obtain ⟨r, bs, e1, e2, ha, _, hused⟩ := made s hr k hk hx (proper_apart hx)
  rw [← hdyn] at e2 hused
  obtain ⟨h, prio, n, hn, g1, gs, g2⟩ := decode_open hu hl hodd ho hp
  have hm := hu.maxSid
  have hids : ∀ t ∈ l.c.streams, t.id ≠ x.inc.sid := by
    intro t ht
    have := hu.ids t ht
    omega
  have hst := open_frame hu.toUp hids hodd (by omega) true prio n hn (fieldsOf x)
  simp only [if_true] at g2 hst
  have hs0 : x.inc.sid ≠ 0 := by omega
  have hfr := fresh_open hs0 hids hids
    (c := { l.c with streams := l.c.streams ++ [{ opened x.inc.sid (fieldsOf x) with st := .halfRemote, canResp := true }], count := l.c.count + 1, maxSid := x.inc.sid }) rfl rfl
    (w := init) (by rw [hu.init]; simp [opened]; omega)
  have hz : answer (negotiating s) k t' ⟨z, ⟨init, conn⟩⟩ x.inc.sid (fieldsOf x) none false = some bs := by
    have := answer_of e1 e2 ⟨z, ⟨init, conn⟩⟩ none hb.1 hb.2.1 hb.2.2.1 hb.2.2.2 (by rw [h1]; rfl)
    rwa [h2] at this
  have hw := windows_of hs0
    (c := { l.c with
      streams := l.c.streams ++ [{ opened x.inc.sid (fieldsOf x) with st := .halfRemote, canResp := true, window := init }], count := l.c.count + 1, maxSid := x.inc.sid }) rfl hids rfl
  have hw' := hw.trans (show (⟨init, l.c.window⟩ : Send.Win) = ⟨init, conn⟩ by rw [hu.conn])
  have hgs : ∀ c, fresh l h.sid c = fresh l x.inc.sid c := by rw [gs]; simp
  have hdr : drawn (negotiating s) k t' ⟨z, ⟨init, conn⟩⟩ [.opened x.inc.sid, .dispatch x.inc.sid (fieldsOf x) none false] = d := by
    simp only [drawn, contentOf]
    obtain ⟨b1, b2, b3, b4⟩ := hb
    simp only at b1 b2 b3 b4
    rw [h1, h2, ← b1, ← b4] at e1
    simp only [e1]
    rw [b2, b3, hused d hd]; rfl
  obtain ⟨hstep, hwat⟩ := step_eq (negotiating s) k l z hu.goaway hu.ended g1 g2 hst ((hgs _).trans hfr) (rs := [(x.inc.sid, bs)])
    (by rw [gs, hw']; simp only [answers, hz, Option.map_some])
  rw [gs, hw'] at hstep hwat
  rw [hdr] at hstep
  simp only [closeAll] at hstep
  rw [finish_eq (st := { opened x.inc.sid (fieldsOf x) with st := .halfRemote, canResp := true, window := init }) rfl hids (by simp) rfl rfl rfl, List.append_nil] at hstep
  refine ⟨_, _, bs, hstep, hwat, ?_, ht', ha, by simp [Calm], none, by rw [h1]; rfl, by simp [h2]⟩
  exact { goaway := hu.goaway, ended := hu.ended, comm := hu.comm, maxConc := hu.maxConc, maxFrame := hu.maxFrame, maxBody := hu.maxBody, root := hu.root,
          streams := each_mono (Going.mono (by omega)) hu.streams, nodup := hu.nodup, ids := fun t ht => by have := hu.ids t ht; omega, maxSid := Nat.le_refl _,
          init := hu.init, conn := by simp only [hu.conn] }

/-- A request with content is begun. -/
theorem opens_step (s : Site) (k : H2Trip.Conn) {mb init last limit : Nat} {conn : Int} {under : List Call} {l : Link} (hu : Ready mb init last conn under l)
    {tab tab' : List Entry} (ht : H2Trip.Holds l.t limit tab) {x : Step} (hx : H2Trip.Decodes limit tab tab' x.inc (fieldsOf x)) {a : Arrival} (ho : Opens x a.place false) (hl : last < x.inc.sid)
    (hodd : x.inc.sid % 2 = 1) {body : Bytes} (hb : Contains mb x body) :
    ∃ l' os, step s k l a = some (l', os, []) ∧ Ready mb init x.inc.sid conn (under ++ [⟨x, body, init⟩]) l' ∧ H2Trip.Holds l'.t limit tab' ∧ ∀ o ∈ os, Calm o := by
  obtain ⟨t', hp, ht', hdyn⟩ := H2Trip.decoded l.t ht x.inc (fieldsOf x) hx
  obtain ⟨h, prio, n, hn, g1, gs, g2⟩ := decode_open hu hl hodd ho hp
  have hm := hu.maxSid
  have hids : ∀ t ∈ l.c.streams, t.id ≠ x.inc.sid := by
    intro t ht
    have := hu.ids t ht
    omega
  have hst := open_frame hu.toUp hids hodd (by omega) false prio n hn (fieldsOf x)
  simp only [Bool.false_eq_true, if_false] at g2 hst
  have hfr := fresh_open (show x.inc.sid ≠ 0 by omega) hids hids
    (c := { l.c with streams := l.c.streams ++ [opened x.inc.sid (fieldsOf x)], count := l.c.count + 1, maxSid := x.inc.sid }) rfl rfl
    (w := init) (by rw [hu.init]; simp [opened]; omega)
  have hpart : { opened x.inc.sid (fieldsOf x) with window := init } = part x.inc.sid (fieldsOf x) mb body.length [] init := by simp [part, opened]
  rw [hpart] at hfr
  have hgs : ∀ c, fresh l h.sid c = fresh l x.inc.sid c := by rw [gs]; simp
  have hstep := (step_eq s k l a hu.goaway hu.ended g1 g2 hst ((hgs _).trans hfr) (rs := []) rfl).1
  simp only [closeAll, drawn] at hstep
  refine ⟨_, _, hstep, ?_, ht', by simp [Calm]⟩
  refine { goaway := hu.goaway, ended := hu.ended, comm := hu.comm, maxConc := hu.maxConc, maxFrame := hu.maxFrame, maxBody := hu.maxBody, root := hu.root,
           streams := ?_, nodup := ?_, ids := ?_, maxSid := Nat.le_refl _, init := hu.init, conn := by simpa using hu.conn }
  · show Each _ _ ((l.c.streams ++ [part x.inc.sid (fieldsOf x) mb body.length [] init]).filter live)
    rw [List.filter_append]
    exact Trip.each_append (each_mono (Going.mono (by omega)) hu.streams)
      (.cons ⟨[], by simp, by simpa using hb, hodd, Nat.le_refl _⟩ .nil)
  · show ((l.c.streams ++ [part x.inc.sid (fieldsOf x) mb body.length [] init]).map (·.id)).Nodup
    rw [List.map_append, List.nodup_append]
    refine ⟨hu.nodup, by simp, ?_⟩
    intro i hi j hj
    simp only [List.map_cons, List.map_nil, List.mem_singleton] at hj
    obtain ⟨st, hst, rfl⟩ := List.mem_map.1 hi
    rw [hj]
    exact hids st hst
  · intro t ht
    simp only [List.mem_append, List.mem_singleton] at ht
    rcases ht with ht | rfl
    · have := hu.ids t ht; omega
    · exact Nat.le_refl _

theorem search_going {c : H2S.Conn} {sid mb n : Nat} {fs : Pairs} {got : Bytes} {w : Int} {a b : List H2S.Stream} (hs : c.streams = a ++ part sid fs mb n got w :: b) (hodd : sid % 2 = 1) :
    (H2S.search c sid).isSome := by
  unfold H2S.search
  rw [if_neg (by omega), hs]
  simp [part, opened]

/-- More of the content of a request. -/
theorem data_step (s : Site) (k : H2Trip.Conn) {mb init last : Nat} {conn : Int} {pre post : List Call} {x : Step} {d rest : Bytes} {w : Int} {l : Link}
    (hu : Ready mb init last conn (pre ++ ⟨x, d ++ rest, w⟩ :: post) l) {a : Arrival} (h : Holds a.place 0 0 x.inc.sid d) :
    ∃ l' os, step s k l a = some (l', os, []) ∧ Ready mb init last conn (pre ++ ⟨x, rest, w⟩ :: post) l' ∧ l'.t = l.t ∧ ∀ o ∈ os, Calm o := by
  obtain ⟨sa, got, sb, hs, ha, hb, hc, hodd, hlast, oa, ob⟩ := found hu
  simp only at hs hc hodd hlast oa ob
  obtain ⟨p, rst, e1, e2, e3, e4, _⟩ := headOf_frame h
  have hd := decode_data hu.toUp hodd (search_going hs hodd) d false e2 e3 e4
  obtain ⟨os, ho, hst⟩ := data_frame hu.toUp hodd (contentLength_of hc.1 hc.2.1) got d w false hs oa ob (by simp) h.2.2.1
  simp only [Bool.false_eq_true, if_false, List.append_nil] at hd hst
  have hstep := step_quiet s k l a hu.goaway hu.ended e1 hd hst (search_going hs hodd) fun o hoo => by
    obtain ⟨i, m, rfl⟩ := ho o hoo
    simp [Quiet]
  refine ⟨_, _, hstep, ?_, rfl, ?_⟩
  · refine ready_swap hu hs rfl ?_
    rw [List.filter_append, List.filter_cons, if_pos (by rfl)]
    exact Trip.each_append ha (.cons ⟨got ++ d, by simp [List.append_assoc], by simpa [List.append_assoc] using hc, hodd, hlast⟩ hb)
  · intro o hoo
    obtain ⟨i, m, rfl⟩ := ho o hoo; trivial

/-- More window for a request. -/
theorem grow_step (s : Site) (k : H2Trip.Conn) {mb init last : Nat} {conn : Int} {pre post : List Call} {x : Step} {rest : Bytes} {w : Int} {l : Link}
    (hu : Ready mb init last conn (pre ++ ⟨x, rest, w⟩ :: post) l) {a : Arrival} {n : Nat} (h : Grows a.place x.inc.sid n) :
    ∃ l', step s k l a = some (l', [], []) ∧ Ready mb init last conn (pre ++ ⟨x, rest, w + n⟩ :: post) l' ∧ l'.t = l.t := by
  obtain ⟨sa, got, sb, hs, ha, hb, hc, hodd, hlast, oa, ob⟩ := found hu
  simp only at hs hc hodd hlast oa ob
  obtain ⟨h, h0, hn, hcur⟩ := h
  obtain ⟨p, rst, e1, e2, e3, e4, eb⟩ := headOf_frame h
  have hd := decode_grow hu.toUp (search_going hs hodd) hn hcur e2 e3 e4 eb
  have hst := grow_frame hu.toUp hodd got w hs oa ob h0
  have hstep := step_quiet s k l a hu.goaway hu.ended e1 hd hst (search_going hs hodd) (by simp)
  refine ⟨_, hstep, ready_swap hu hs rfl ?_, rfl⟩
  rw [List.filter_append, List.filter_cons, if_pos (by rfl)]
  exact Trip.each_append ha (.cons ⟨got, rfl, hc, hodd, hlast⟩ hb)

/-- A request is cancelled. -/
theorem cancel_step (s : Site) (k : H2Trip.Conn) {mb init last : Nat} {conn : Int} {pre post : List Call} {x : Step} {rest : Bytes} {w : Int} {l : Link}
    (hu : Ready mb init last conn (pre ++ ⟨x, rest, w⟩ :: post) l) {a : Arrival} {flags : Nat} {code : Bytes} (h : Holds a.place 3 flags x.inc.sid code) (h4 : code.length = 4) :
    ∃ l', step s k l a = some (l', [], []) ∧ Ready mb init last conn (pre ++ post) l' ∧ l'.t = l.t := by
  obtain ⟨sa, got, sb, hs, ha, hb, hc, hodd, hlast, oa, ob⟩ := found hu
  simp only at hs hc hodd hlast oa ob
  obtain ⟨p, rst, e1, e2, e3, e4, eb⟩ := headOf_frame h
  have hd := decode_other (l := l) (h := ⟨code.length, 3, flags, x.inc.sid, some p⟩) (Or.inl rfl)
  have hst := reset_frame hu.toUp hodd got w flags hs oa ob
  simp only [h4] at hd
  rw [h4] at e1
  have hstep := step_quiet s k l a hu.goaway hu.ended e1 hd hst (search_going hs hodd) (by simp)
  refine ⟨_, hstep, ready_swap hu hs rfl ?_, rfl⟩
  rw [List.filter_append, List.filter_cons, if_neg (by simp [live])]
  exact Trip.each_append ha hb

/-- A frame of an unknown type for a request. -/
theorem other_step (s : Site) (k : H2Trip.Conn) {mb init last : Nat} {conn : Int} {pre post : List Call} {x : Step} {rest : Bytes} {w : Int} {l : Link}
    (hu : Ready mb init last conn (pre ++ ⟨x, rest, w⟩ :: post) l) {a : Arrival} {type flags : Nat} {payload : Bytes} (ht : 10 ≤ type) (h : Holds a.place type flags x.inc.sid payload) :
    step s k l a = some (l, [], []) := by
  obtain ⟨sa, got, sb, hs, ha, hb, hc, hodd, hlast, oa, ob⟩ := found hu
  simp only at hs hc hodd hlast oa ob
  obtain ⟨p, rst, e1, e2, e3, e4, eb⟩ := headOf_frame h
  have hd := decode_other (l := l) (h := ⟨payload.length, type, flags, x.inc.sid, some p⟩) (Or.inr ht)
  exact step_quiet s k l a hu.goaway hu.ended e1 hd (unknown_frame hu.toUp hodd got w ht flags h.2.2.1 hs oa ob) (search_going hs hodd) (by simp)

/-- The last of the content of a request. -/
theorem ends_step (s : Site) (hr : ∀ x ∈ s.app.routes, WrittenPath x.1) (k : H2Trip.Conn) (hk : 16384 ≤ k.maxFrame ∧ k.maxFrame < 2 ^ 24) {mb init last limit : Nat} {conn : Int}
    {pre post : List Call} {x : Step} {d : Bytes} {w : Int} {l : Link} (hu : Ready mb init last conn (pre ++ ⟨x, d, w⟩ :: post) l)
    {tab tab0 tab0' : List Entry} (ht : H2Trip.Holds l.t limit tab) (hx : x.Proper (negotiating s) k limit tab0 tab0') {z : Arrival} (h : Holds z.place 0 1 x.inc.sid d) (hbel : Belongs x ⟨z, ⟨w, conn⟩⟩) (hap : Apart (negotiating s) tab x) {n : Nat}
    (hdraw : Draws (negotiating s) x n) :
    ∃ l' os bs, step (negotiating s) k l z = some (l', os, [(x.inc.sid, bs)]) ∧ winAt l z = ⟨w, conn⟩ ∧
      Ready mb init last (conn - n) (pre ++ post) l' ∧ l'.t = l.t ∧
      x.Answered (negotiating s) k bs ∧ (∀ o ∈ os, Calm o) ∧
      ∃ b, contentOf b = some x.inc.body ∧ Out.dispatch x.inc.sid (fieldsOf x) b x.inc.discard ∈ os := by
  obtain ⟨sa, got, sb, hs, ha, hb, hc, hodd, hlast, oa, ob⟩ := found hu
  simp only at hs hc hodd hlast oa ob
  obtain ⟨r, bs, q1, q2, han, _, hused⟩ := made s hr k hk hx hap
  rw [← H2Trip.holds_dynOf ht] at q2 hused
  obtain ⟨p, rst, e1, e2, e3, e4, _⟩ := headOf_frame h
  have hd := decode_data hu.toUp hodd (search_going hs hodd) d true e2 e3 e4
  obtain ⟨os, ho, hst⟩ := data_frame hu.toUp hodd (contentLength_of hc.1 hc.2.1) got d w true hs oa ob (by simp) h.2.2.1
  simp only [if_true] at hd hst
  have hcon : contentOf (part x.inc.sid (fieldsOf x) mb (got ++ d).length (got ++ d) w).body = some x.inc.body ∧
      (part x.inc.sid (fieldsOf x) mb (got ++ d).length (got ++ d) w).discard = x.inc.discard := by
    obtain ⟨_, _, h1, h2, h3⟩ := hc
    generalize got ++ d = body at h1 h2 h3
    by_cases hbn : body = []
    · obtain ⟨g1, g2⟩ := h3 hbn
      simp [part, hbn, g1, g2, contentOf]
    · by_cases hmb : body.length ≤ mb
      · obtain ⟨g1, g2⟩ := h1 hbn hmb
        simp [part, hbn, g1, g2, hmb, contentOf]
      · obtain ⟨g1, g2⟩ := h2 (by omega)
        simp [part, hbn, g1, g2, hmb, contentOf]
        omega
  have hz : answer (negotiating s) k l.t ⟨z, ⟨w, conn⟩⟩ x.inc.sid (fieldsOf x) (part x.inc.sid (fieldsOf x) mb (got ++ d).length (got ++ d) w).body
      (part x.inc.sid (fieldsOf x) mb (got ++ d).length (got ++ d) w).discard = some bs := by
    have := answer_of q1 q2 ⟨z, ⟨w, conn⟩⟩ _ hbel.1 hbel.2.1 hbel.2.2.1 hbel.2.2.2 hcon.1
    rwa [← hcon.2] at this
  have hans : answers (negotiating s) k l.t ⟨z, ⟨w, conn⟩⟩ (os ++ [.dispatch x.inc.sid (fieldsOf x) (part x.inc.sid (fieldsOf x) mb (got ++ d).length (got ++ d) w).body
      (part x.inc.sid (fieldsOf x) mb (got ++ d).length (got ++ d) w).discard]) = some [(x.inc.sid, bs)] := by
    rw [(answers_none (negotiating s) k l.t ⟨z, ⟨w, conn⟩⟩ os ho _).1]
    simp only [answers, hz, Option.map_some]
  have hdr : drawn (negotiating s) k l.t ⟨z, ⟨w, conn⟩⟩ (os ++ [.dispatch x.inc.sid (fieldsOf x) (part x.inc.sid (fieldsOf x) mb (got ++ d).length (got ++ d) w).body
      (part x.inc.sid (fieldsOf x) mb (got ++ d).length (got ++ d) w).discard]) = n := by
    rw [(answers_none (negotiating s) k l.t ⟨z, ⟨w, conn⟩⟩ os ho _).2]
    simp only [drawn, hcon.1]
    obtain ⟨b1, b2, b3, b4⟩ := hbel
    simp only at b1 b2 b3 b4
    rw [← b1, ← b4, ← hcon.2] at q1
    simp only [q1]
    rw [b2, b3, hused n hdraw]; rfl
  have hs0 : x.inc.sid ≠ 0 := by omega
  have hw := windows_of hs0 (c := { l.c with streams := sa ++ { part x.inc.sid (fieldsOf x) mb (got ++ d).length (got ++ d) w with st := .halfRemote, canResp := true } :: sb }) rfl oa rfl
  have hw' := hw.trans (show (⟨w, l.c.window⟩ : Send.Win) = ⟨w, conn⟩ by rw [hu.conn])
  obtain ⟨hstep, hwat⟩ := step_eq (negotiating s) k l z hu.goaway hu.ended e1 hd hst (show fresh l x.inc.sid _ = _ by unfold fresh; rw [if_pos (search_going hs hodd)]) (by rw [hw']; exact hans)
  rw [hw'] at hstep hwat
  rw [hdr] at hstep
  simp only [closeAll] at hstep
  rw [finish_eq (st := { part x.inc.sid (fieldsOf x) mb (got ++ d).length (got ++ d) w with st := .halfRemote, canResp := true }) rfl oa ob rfl rfl rfl] at hstep
  refine ⟨_, _, bs, hstep, hwat, ?_, rfl, han, ?_, _, hcon.1, by rw [← hcon.2]; simp⟩
  · refine { goaway := hu.goaway, ended := hu.ended, comm := hu.comm, maxConc := hu.maxConc, maxFrame := hu.maxFrame, maxBody := hu.maxBody, root := hu.root,
             streams := ?_, nodup := ?_, ids := ?_, maxSid := hu.maxSid, init := hu.init, conn := by simp only [hu.conn] }
    · show Each _ _ ((sa ++ sb).filter live)
      rw [List.filter_append]
      exact Trip.each_append ha hb
    · have := hu.nodup
      rw [hs, List.map_append, List.map_cons, List.nodup_append] at this
      obtain ⟨h1, h2, h3⟩ := this
      show ((sa ++ sb).map (·.id)).Nodup
      rw [List.map_append, List.nodup_append]
      exact ⟨h1, (List.nodup_cons.1 h2).2, fun i hi j hj => h3 i hi j (List.mem_cons_of_mem _ hj)⟩
    · intro t ht
      refine hu.ids t ?_
      rw [hs]
      rcases List.mem_append.1 ht with ht | ht <;> simp [ht]
  · intro o hoo
    simp only [List.mem_append, List.mem_singleton] at hoo
    rcases hoo with hoo | hoo
    · obtain ⟨i, m, rfl⟩ := ho o hoo; trivial
    · rw [hoo]; trivial

/-! ## Any frame -/

/-- The connection is as its client thinks. -/
structure Agrees (limit mb : Nat) (c : Client) (l : Link) : Prop where
  ready : Ready mb c.init c.last c.conn c.under l
  table : H2Trip.Holds l.t limit c.tab

/-- The request that is complete with a frame is answered. -/
def Replied (s : Site) (k : H2Trip.Conn) (limit : Nat) (l l' : Link) (a : Arrival) (os : List Out) (rs : List (Nat × Bytes)) (x : Step) : Prop :=
  ∃ (bs : Bytes) (tab tab' : List Entry) (b : Option (Nat × Bytes)), rs = [(x.inc.sid, bs)] ∧ x.Answered s k bs ∧ x.Proper s k limit tab tab' ∧ Apart s (H2Trip.dynOf l'.t) x ∧
    Belongs x ⟨a, winAt l a⟩ ∧ contentOf b = some x.inc.body ∧ Out.dispatch x.inc.sid (fieldsOf x) b x.inc.discard ∈ os

theorem says_step (s : Site) (hr : ∀ x ∈ s.app.routes, WrittenPath x.1) (k : H2Trip.Conn) (hk : 16384 ≤ k.maxFrame ∧ k.maxFrame < 2 ^ 24) {limit mb : Nat} {c c' : Client}
    {l : Link} (ha : Agrees limit mb c l) {a : Arrival} {xs : List Step} (h : Says (negotiating s) k limit mb c a xs c') :
    ∃ l' os rs, step (negotiating s) k l a = some (l', os, rs) ∧ Agrees limit mb c' l' ∧ (∀ o ∈ os, Calm o) ∧
      ((xs = [] ∧ rs = []) ∨ ∃ x, xs = [x] ∧ Replied (negotiating s) k limit l l' a os rs x) := by
  obtain ⟨hu, ht⟩ := ha
  cases h with
  | control tab last conn init under n a h =>
    obtain ⟨set, os, e, hi, ho⟩ := control_step (negotiating s) k l a hu.toUp h
    exact ⟨_, os, [], e, ⟨{ toUp := hu.toUp.window _, streams := hu.streams, nodup := hu.nodup, ids := hu.ids, maxSid := hu.maxSid, init := hi.trans hu.init, conn := by simp only [hu.conn] }, ht⟩,
      ho, Or.inl ⟨rfl, rfl⟩⟩
  | bare tab tab' last conn init under x d z hx ho hl hodd h1 h2 hb hd =>
    obtain ⟨l1, os, b, e, hw, hu1, ht1, ha, ho, cont, c1, c2⟩ := bare_step s hr k hk hu ht hx ho hl hodd h1 h2 hb hd
    exact ⟨l1, os, _, e, ⟨hu1, ht1⟩, ho, Or.inr ⟨x, rfl, b, tab, tab', cont, rfl, ha, hx, by rw [H2Trip.holds_dynOf ht1]; exact proper_apart hx, by rw [hw]; exact hb, c1, c2⟩⟩
  | opens tab tab' last conn init under x body a hx ho hl hodd hb =>
    obtain ⟨l1, os, e, hu1, ht1, ho⟩ := opens_step (negotiating s) k hu ht hx ho hl hodd hb
    exact ⟨l1, os, [], e, ⟨hu1, ht1⟩, ho, Or.inl ⟨rfl, rfl⟩⟩
  | data tab last conn init pre post x d rest w a h =>
    obtain ⟨l1, os, e, hu1, ht1, ho⟩ := data_step (negotiating s) k hu h
    exact ⟨l1, os, [], e, ⟨hu1, by rw [ht1]; exact ht⟩, ho, Or.inl ⟨rfl, rfl⟩⟩
  | ends tab tab0 tab0' last conn init pre post x b w d z hx h hb hap hd =>
    obtain ⟨l1, os, b, e, hw, hu1, ht1, ha, ho, cont, c1, c2⟩ := ends_step s hr k hk hu ht hx h hb hap hd
    exact ⟨l1, os, _, e, ⟨hu1, by rw [ht1]; exact ht⟩, ho,
      Or.inr ⟨x, rfl, b, tab0, tab0', cont, rfl, ha, hx, by rw [ht1, H2Trip.holds_dynOf ht]; exact hap, by rw [hw]; exact hb, c1, c2⟩⟩
  | grows tab last conn init pre post x rest w n a h =>
    obtain ⟨l1, e, hu1, ht1⟩ := grow_step (negotiating s) k hu h
    exact ⟨l1, [], [], e, ⟨hu1, by rw [ht1]; exact ht⟩, by simp, Or.inl ⟨rfl, rfl⟩⟩
  | unknown tab last conn init pre post c type flags payload a h10 h =>
    exact ⟨l, [], [], other_step (negotiating s) k hu h10 h, ⟨hu, ht⟩, by simp, Or.inl ⟨rfl, rfl⟩⟩
  | cancels tab last conn init pre post c flags code a h h4 =>
    obtain ⟨l1, e, hu1, ht1⟩ := cancel_step (negotiating s) k hu h h4
    exact ⟨l1, [], [], e, ⟨hu1, by rw [ht1]; exact ht⟩, by simp, Or.inl ⟨rfl, rfl⟩⟩

/-- The first frame of a connection. -/
theorem first_step (s : Site) (k : H2Trip.Conn) (maxBody : Nat) (g : Hpack.DNode) (limit : Nat) (first : Arrival) (ss : List (Nat × Nat))
    (hfirst : Holds first.place 4 0 0 (wireSettings ss)) (hss : ∀ p ∈ ss, Setting p) (init : Nat) (hinit : Starts ss init) :
    ∃ l os, step s k (Link.init maxBody g limit) first = some (l, os, []) ∧ Agrees limit maxBody (Client.fresh init) l ∧ ∀ o ∈ os, Calm o := by
  obtain ⟨set, e, e'⟩ := settings_step s k (Link.init maxBody g limit) first rfl rfl rfl rfl ss hfirst hss
  refine ⟨_, _, e, ⟨?_, H2Trip.holds_init g limit⟩, by simp [Calm]⟩
  exact { goaway := rfl, ended := rfl, comm := rfl, maxConc := rfl, maxFrame := rfl, maxBody := rfl, root := rfl, streams := .nil, nodup := List.nodup_nil,
          ids := fun _ h => absurd h List.not_mem_nil, maxSid := Nat.le_refl _, init := foldl_starts hinit hss rfl rfl e', conn := rfl }

/-- One step, then the rest. -/
theorem run_step {s : Site} {k : H2Trip.Conn} {l l' l'' : Link} {a : Arrival} {as : List Arrival} {os os' : List Out} {rs rs' : List (Nat × Bytes)}
    (h : step s k l a = some (l', os, rs)) (h' : run s k l' as = some (l'', os', rs')) (c : ∀ o ∈ os, Calm o) (c' : ∀ o ∈ os', Calm o) :
    run s k l (a :: as) = some (l'', os ++ os', rs ++ rs') ∧ ∀ o ∈ os ++ os', Calm o := by
  refine ⟨by rw [run, h]; simp only [h', Option.map_some], ?_⟩
  intro o ho
  rcases List.mem_append.1 ho with ho | ho
  · exact c o ho
  · exact c' o ho

/-- **C199** *(partial)*.  A client opens an HTTP/2 connection with its settings and then sends any number of requests, each as the bytes of a HEADERS frame (with or without priority)
and, if it has content, of any number of DATA frames.  The frames of different requests may mix in any way, with settings, acknowledgements, window updates and frames of unknown
types anywhere, and lie over the chunks of the receive buffer in any way.  Requests may be cancelled before they are complete.  Every other request, and nothing else, is answered when it is complete, on its stream, with what it asks for (C195) or the
refusal it deserves (C198: 400, 406, 413); the server reports no error on the connection or a stream.  The windows are those that the client has given, less what the responses before
have taken.
Missing: padding (C64), CONTINUATION (C63), PING (C57); frames that end with the memory of the buffer; a window update that lies over two chunks with a last byte of 128 or
more (C07); a response that has to wait for the window (C59); a second setting of the window (C56). -/
theorem C199_frames_answered_partial (s : Site) (hr : ∀ x ∈ s.app.routes, WrittenPath x.1) (k : H2Trip.Conn) (hk : 16384 ≤ k.maxFrame ∧ k.maxFrame < 2 ^ 24)
    (maxBody : Nat) (g : Hpack.DNode) (limit : Nat) (first : Arrival) (ss : List (Nat × Nat)) (hfirst : Holds first.place 4 0 0 (wireSettings ss)) (hss : ∀ p ∈ ss, Setting p)
    (init : Nat) (hinit : Starts ss init) (as : List Arrival) (xs : List Step) (hf : Talk (negotiating s) k limit maxBody (Client.fresh init) as xs) :
    ∃ l os rs, run (negotiating s) k (Link.init maxBody g limit) (first :: as) = some (l, os, rs) ∧ rs.map (·.1) = xs.map (·.inc.sid) ∧
      Each (Step.Answered (negotiating s) k) xs (rs.map (·.2)) ∧ ∀ o ∈ os, Calm o := by
  have key : ∀ (c : Client) (as : List Arrival) (xs : List Step), Talk (negotiating s) k limit maxBody c as xs → ∀ (l : Link), Agrees limit maxBody c l →
      ∃ l' os rs, run (negotiating s) k l as = some (l', os, rs) ∧ rs.map (·.1) = xs.map (·.inc.sid) ∧
        Each (Step.Answered (negotiating s) k) xs (rs.map (·.2)) ∧ ∀ o ∈ os, Calm o := by
    intro c as xs hf
    induction hf with
    | done => intro l _; exact ⟨l, [], [], rfl, rfl, .nil, by simp⟩
    | next c c' a as xs ys h hf ih =>
      intro l hl
      obtain ⟨l1, os, rs, e, h1, ho, hx⟩ := says_step s hr k hk hl h
      obtain ⟨l', os', rs', r1, r2, r3, r4⟩ := ih l1 h1
      obtain ⟨q1, q2⟩ := run_step e r1 ho r4
      refine ⟨l', _, _, q1, ?_, ?_, q2⟩
      · rcases hx with ⟨rfl, rfl⟩ | ⟨x, rfl, bs, _, _, _, rfl, _⟩ <;> simp [r2]
      · rcases hx with ⟨rfl, rfl⟩ | ⟨x, rfl, bs, _, _, _, rfl, ha, _⟩
        · exact r3
        · exact .cons ha r3
  obtain ⟨l0, os0, e, h0, ho⟩ := first_step (negotiating s) k maxBody g limit first ss hfirst hss init hinit
  obtain ⟨l', os, rs, r1, r2, r3, r4⟩ := key _ as xs hf l0 h0
  obtain ⟨q1, q2⟩ := run_step e r1 ho r4
  exact ⟨l', _, _, q1, r2, r3, q2⟩

/-! ## A connection -/

/-- A frame in one chunk of the buffer. -/
def place (type flags sid : Nat) (payload : Bytes) : Cursor := ⟨wireHeader payload.length type flags false sid ++ payload ++ [0], []⟩

def arrival (c : Cursor) : Arrival := ⟨c, fun _ => false, H2Trip.sampleWrites, fun _ => []⟩

theorem place_holds (type flags sid : Nat) (payload : Bytes) (h1 : sid < 2 ^ 31) (h2 : payload.length ≤ 16384) : Holds (place type flags sid payload) type flags sid payload :=
  ⟨⟨by simp [place], by simp [place]⟩, h1, h2, false, [0], by simp, by simp [place]⟩

theorem place_behind (type flags sid : Nat) (prio block : Bytes) : Behind (9 + prio.length) (place type flags sid (prio ++ block)) ⟨block ++ [0], []⟩ :=
  ⟨by simp, [], wireHeader (prio ++ block).length type flags false sid ++ prio, by simp [place], by simp [wireHeader]; omega⟩

/-- Five bytes of content, where four are allowed. -/
def askFive : H2Trip.Ask := ⟨.post, b!"/f", none, [(b!":method", b!"POST"), (b!":scheme", b!"https"), (b!":path", b!"/f"), (b!"content-length", b!"5")], none⟩
def repsFive : List Hpack.Rep := [.indexed 3, .indexed 7, .indexed 62, .literal .noIndex (.index 28) ⟨false, b!"5"⟩]

theorem repsFive_ok : ∀ r ∈ repsFive, Hpack.okRep r := by
  intro r hr
  simp only [repsFive, List.mem_cons, List.not_mem_nil, or_false] at hr
  rcases hr with rfl | rfl | rfl | rfl
  · exact by unfold Hpack.okRep; decide
  · exact by unfold Hpack.okRep; decide
  · exact by unfold Hpack.okRep; decide
  · exact ⟨by decide, by decide, by decide, by simp⟩

theorem five_sound : askFive.Sound where
  wellFormed := ⟨[(b!":method", b!"POST"), (b!":scheme", b!"https"), (b!":path", b!"/f")], [(b!"content-length", b!"5")], rfl, Or.inl (List.Perm.refl _), by
    unfold H2R.Regular; simp⟩
  path := ⟨rfl, by unfold Req.PathByte Req.RfcPchar Req.RfcUnreserved Req.RfcSubDelims; simp [askFive]⟩
  query := by intro x hx; simp [askFive] at hx
  names := by unfold H2Trip.LowerName H2Trip.Ascii; simp [askFive]
  noCoding := by simp [askFive]
  known := by
    intro p hp h
    simp only [askFive, List.mem_cons, List.not_mem_nil, or_false] at hp
    rcases hp with rfl | rfl | rfl | rfl <;> simp at h

/-- A request with too much content, and one with a field against the rules. -/
def five : Step := .long askFive { H2Trip.sampleInc 3 repsFive none 65535 with discard := true, win := ⟨65544, 65986⟩ }
def fine : Step := .garbled H2Refuse.askFine { H2Trip.sampleInc 5 H2Refuse.repsFine none 65535 with win := ⟨65535, 65530⟩ }

theorem five_proper : five.Proper (negotiating Nego.sampleSite2) H2Trip.sampleConn 4096 [(b!":path", b!"/f")] [(b!":path", b!"/f")] := by
  refine ⟨five_sound, rfl, H2Refuse.sample_decodes 3 repsFive askFive.fields (by decide +kernel) repsFive_ok, ?_⟩
  have := H2Refuse.sample_short 413 (Or.inr rfl) 3 (by decide) repsFive
  exact ⟨this.1, this.2, this.3, this.4, this.5, this.6⟩

/-- The first again, which will be cancelled. -/
def seven : Step := .long askFive { H2Trip.sampleInc 7 repsFive none 65535 with discard := true }

theorem seven_proper : seven.Proper (negotiating Nego.sampleSite2) H2Trip.sampleConn 4096 [(b!":path", b!"/f")] [(b!":path", b!"/f")] := by
  refine ⟨five_sound, rfl, H2Refuse.sample_decodes 7 repsFive askFive.fields (by decide +kernel) repsFive_ok, ?_⟩
  have := H2Refuse.sample_short 413 (Or.inr rfl) 7 (by decide) repsFive
  exact ⟨this.1, this.2, this.3, this.4, this.5, this.6⟩

theorem fine_proper : fine.Proper (negotiating Nego.sampleSite2) H2Trip.sampleConn 4096 [(b!":path", b!"/f")] [(b!":path", b!"/f")] := by
  refine ⟨H2Refuse.fine_sound, H2Refuse.fine_garbled, rfl, H2Refuse.sample_decodes 5 H2Refuse.repsFine H2Refuse.askFine.fields (by decide +kernel) H2Refuse.reps_ok.1, ?_⟩
  have := H2Refuse.sample_short 400 (Or.inl rfl) 5 (by decide) H2Refuse.repsFine
  exact ⟨this.1, this.2, this.3, this.4, this.5, this.6⟩

/-- The first frame of the client, over three chunks: a window of 65535 and frames of up to 16384. -/
def hello : Arrival := arrival ⟨[0, 0, 12, 4, 0], [[0, 0, 0, 0, 0, 4, 0], [0, 255, 255, 0, 5, 0, 0, 64, 0, 7]]⟩

theorem hello_holds : Holds hello.place 4 0 0 (wireSettings [(4, 65535), (5, 16384)]) :=
  ⟨⟨by decide, by decide⟩, by decide, by decide, false, [7], by simp, by decide⟩

/-- One request is served; one is begun, and others come before the rest of its content, one of which is cancelled. -/
def frames : List Arrival :=
  [arrival (place 4 1 0 []), arrival (place 1 37 1 ([0, 0, 0, 0, 15] ++ Nego.repsTake.flatMap Hpack.Rep.wire)),
    arrival (place 1 4 3 (repsFive.flatMap Hpack.Rep.wire)), arrival (place 0 0 3 b!"he"), arrival (place 1 5 5 (H2Refuse.repsFine.flatMap Hpack.Rep.wire)),
    arrival (place 8 0 0 [0, 0, 1, 200]), arrival (place 8 0 3 [0, 0, 0, 9]), arrival (place 1 4 7 (repsFive.flatMap Hpack.Rep.wire)), arrival (place 16 0 3 b!"u=1"),
    arrival (place 0 1 3 b!"llo"), arrival (place 250 255 0 b!"?"), arrival (place 3 0 7 [0, 0, 0, 8])]

theorem take_draws : Draws (negotiating Nego.sampleSite2) (.turn Nego.takeTurn) 5 := ⟨fun _ => ⟨_, _, _, Nego.take_shown, rfl⟩, fun h => absurd Nego.take_met h⟩

theorem frames_talk : Talk (negotiating Nego.sampleSite2) H2Trip.sampleConn 4096 4 (Client.fresh 65535) frames [.turn Nego.takeTurn, fine, five] := by
  refine .next _ _ _ _ [] _ (.control _ _ _ _ _ 0 _ (.ack (place_holds 4 1 0 [] (by decide) (by decide)))) ?_
  refine .next _ _ _ _ [_] _ (.bare _ [(b!":path", b!"/f")] _ _ _ _ (.turn Nego.takeTurn) 5 _ ⟨Nego.take_says, fun _ => ⟨Nego.take_asked, trivial⟩, fun h => absurd Nego.take_met h⟩
    ⟨[0, 0, 0, 0, 15], Nego.repsTake.flatMap Hpack.Rep.wire, Or.inr rfl, rfl, place_holds 1 37 1 _ (by decide) (by decide +kernel), place_behind _ _ _ _ _⟩
    (by decide) (by decide) rfl rfl ⟨rfl, rfl, rfl, rfl⟩ take_draws) ?_
  refine .next _ _ _ _ [] _ (.opens _ [(b!":path", b!"/f")] _ _ _ _ five b!"hello" _ (proper_decodes five_proper)
    ⟨[], repsFive.flatMap Hpack.Rep.wire, Or.inl rfl, rfl, place_holds 1 4 3 _ (by decide) (by decide +kernel), place_behind _ _ _ [] _⟩ (by decide) (by decide)
    ⟨⟨b!"5", by decide, by unfold PyBridge.Reads; decide, by decide⟩, by decide, by decide, fun _ => ⟨rfl, rfl⟩, by decide⟩) ?_
  refine .next _ _ _ _ [] _ (.data _ _ _ _ [] [] five b!"he" b!"llo" _ _ (place_holds 0 0 3 b!"he" (by decide) (by decide))) ?_
  refine .next _ _ _ _ [_] _ (.bare _ [(b!":path", b!"/f")] _ _ _ _ fine 0 _ fine_proper
    ⟨[], H2Refuse.repsFine.flatMap Hpack.Rep.wire, Or.inl rfl, rfl, place_holds 1 5 5 _ (by decide) (by decide +kernel), place_behind _ _ _ [] _⟩ (by decide) (by decide)
    rfl rfl ⟨rfl, rfl, rfl, rfl⟩ rfl) ?_
  refine .next _ _ _ _ [] _ (.control _ _ _ _ _ 456 _ (.window 456 ⟨place_holds 8 0 0 [0, 0, 1, 200] (by decide) (by decide), by decide, by decide, Or.inr (by decide)⟩)) ?_
  refine .next _ _ _ _ [] _ (.grows _ _ _ _ [] [] five b!"llo" _ 9 _ ⟨place_holds 8 0 3 [0, 0, 0, 9] (by decide) (by decide), by decide, by decide, Or.inl (by decide)⟩) ?_
  refine .next _ _ _ _ [] _ (.opens _ [(b!":path", b!"/f")] _ _ _ _ seven b!"hello" _ (proper_decodes seven_proper)
    ⟨[], repsFive.flatMap Hpack.Rep.wire, Or.inl rfl, rfl, place_holds 1 4 7 _ (by decide) (by decide +kernel), place_behind _ _ _ [] _⟩ (by decide) (by decide)
    ⟨⟨b!"5", by decide, by unfold PyBridge.Reads; decide, by decide⟩, by decide, by decide, fun _ => ⟨rfl, rfl⟩, by decide⟩) ?_
  refine .next _ _ _ _ [] _ (.unknown _ _ _ _ [] [⟨seven, b!"hello", _⟩] ⟨five, b!"llo", _⟩ 16 0 b!"u=1" _ (by decide) (place_holds 16 0 3 b!"u=1" (by decide) (by decide))) ?_
  refine .next _ _ _ _ [_] _ (.ends _ _ _ _ _ _ [] [⟨seven, b!"hello", _⟩] five b!"llo" _ 0 _ five_proper (place_holds 0 1 3 b!"llo" (by decide) (by decide)) ⟨rfl, rfl, rfl, rfl⟩
    (show ∀ e ∈ [(b!":path", b!"/f")], ¬ e.1 <+: b!":status" by decide) rfl) ?_
  refine .next _ _ _ _ [] _ (.control _ _ _ _ _ 0 _ (.unknown 250 255 b!"?" (by decide) (place_holds 250 255 0 b!"?" (by decide) (by decide)))) ?_
  exact .next _ _ _ _ [] _ (.cancels _ _ _ _ [] [] ⟨seven, b!"hello", _⟩ 0 [0, 0, 0, 8] _ (place_holds 3 0 7 [0, 0, 0, 8] (by decide) (by decide)) rfl) (.done _)

example (g : Hpack.DNode) : ∃ l os rs, run (negotiating Nego.sampleSite2) H2Trip.sampleConn (Link.init 4 g 4096) (hello :: frames) = some (l, os, rs) ∧ rs.map (·.1) = [1, 5, 3] ∧
    Each (Step.Answered (negotiating Nego.sampleSite2) H2Trip.sampleConn) [.turn Nego.takeTurn, fine, five] (rs.map (·.2)) ∧ ∀ o ∈ os, Calm o :=
  C199_frames_answered_partial Nego.sampleSite2 Nego.sampleSite_written H2Trip.sampleConn (by decide) 4 g 4096 hello _ hello_holds (by unfold Setting; decide) 65535
    (Or.inr ⟨[], [(5, 16384)], rfl, by decide⟩) frames _ frames_talk

/-! ## Padding -/

/-- Padding of a frame that is read to its end, one chunk. -/
theorem skipPad_padded {len type flags sid : Nat} (hlen : 0 < len ∧ len ≤ 16384) (hf : H2S.flag flags 3 = true) {p : Cursor} (hne : NE p) {b : Nat} {more : Bytes} (hp : p.flat = b :: more)
    (hm : more ≠ []) : ∃ q, skipPad ⟨len, type, flags, sid, some p⟩ = some (len - 1, some q) ∧ NE q ∧ q.flat = more ∧ (p.rest = [] → q.rest = []) := by
  have hml := List.length_pos_iff.2 hm
  obtain ⟨r, t1, t2⟩ := H2.takeN_spec 1 p hne (by rw [hp, List.length_cons]; omega)
  obtain ⟨w, rfl, w1, w2⟩ := t2 (by rw [hp, List.length_cons]; omega)
  refine ⟨w, ?_, w1, by rw [w2, hp]; rfl, fun h => ?_⟩
  · unfold skipPad
    simp only [hf, if_true, oneByte, t1, Option.map_some, Option.some.injEq, Prod.mk.injEq, and_true]
    omega
  · have := takeN_behind hne.cur t1
    obtain ⟨_, a, b, h1, _⟩ := this
    rw [h] at h1
    cases a with
    | nil => simp at h1; exact h1.2
    | cons x a => simp at h1

/-- **C206 refuted: padding of HEADERS.** On every live connection, for every correct header block: if the client pads the frame with `3 * k` zeros, as RFC 9113, 6.2 demands them to be, the request
gets `k` more fields, with empty names and values, behind those the client has sent. -/
theorem C206_padded_headers_refuted {mb : Nat} {l : Link} (hu : Up mb l.c) {limit : Nat} {tab tab' : List Entry} (ht : H2Trip.Holds l.t limit tab) (sid : Nat) (hodd : sid % 2 = 1)
    (hnew : l.c.maxSid < sid) (rs : List Hpack.Rep) (hok : ∀ r ∈ rs, Hpack.okRep r) (fs : Pairs) (hb : Hpack.rfcBlock limit tab rs = some (fs, tab')) (k : Nat) (fin : Bool) (c : Cursor)
    (hc : Holds c 1 (if fin then 13 else 12) sid (3 * k :: (rs.flatMap Hpack.Rep.wire ++ List.replicate (3 * k) 0))) (h1 : c.rest = []) :
    ∃ h t', headOf c = some h ∧ H2Trip.Holds t' limit tab' ∧
      decode l h = some ({ type := 1, flags := if fin then 13 else 12, sid := sid, length := 1 + (rs.flatMap Hpack.Rep.wire).length + 3 * k, hdrs := fs ++ List.replicate k ([], []) }, t', l.set) := by
  obtain ⟨p, rest, e1, e2, e3, e4, e5⟩ := headOf_frame hc
  have hl := hc.2.2.1
  let e : Hpack.Rep := .literal .noUpdate (.new ⟨false, []⟩) ⟨false, []⟩
  have hew : ∀ k, (List.replicate k e).flatMap Hpack.Rep.wire = List.replicate (3 * k) 0 := by
    intro k
    induction k with
    | zero => rfl
    | succ k ih =>
      rw [List.replicate_succ, List.flatMap_cons, ih, show 3 * (k + 1) = 3 * k + 1 + 1 + 1 by omega, List.replicate_succ, List.replicate_succ, List.replicate_succ]
      rfl
  have heb : ∀ k t, Hpack.rfcBlock limit t (List.replicate k e) = some (List.replicate k ([], []), t) := by
    intro k t
    induction k with
    | zero => rfl
    | succ k ih => rw [List.replicate_succ]; simp [Hpack.rfcBlock, e, Hpack.rfcRep, ih, List.replicate_succ]
  have happ : ∀ (rs : List Hpack.Rep) (t : List Entry) (fs : Pairs), Hpack.rfcBlock limit t rs = some (fs, tab') →
      Hpack.rfcBlock limit t (rs ++ List.replicate k e) = some (fs ++ List.replicate k ([], []), tab') := by
    intro rs
    induction rs with
    | nil => intro t fs h; simp only [Hpack.rfcBlock, Option.some.injEq, Prod.mk.injEq] at h; obtain ⟨rfl, rfl⟩ := h; simp [heb]
    | cons r rs ih =>
      intro t fs h
      rw [List.cons_append]
      unfold Hpack.rfcBlock at h ⊢
      cases hr : Hpack.rfcRep limit t r with
      | none => rw [hr] at h; simp at h
      | some q =>
        rw [hr] at h
        obtain ⟨x, t'⟩ := q
        simp only [Option.map_eq_some_iff, Prod.mk.injEq] at h ⊢
        obtain ⟨⟨fs', tt⟩, g1, rfl, rfl⟩ := h
        exact ⟨_, ih _ _ g1, by simp, rfl⟩
  obtain ⟨q, s1, s2, s3, s4⟩ := skipPad_padded (len := (3 * k :: (rs.flatMap Hpack.Rep.wire ++ List.replicate (3 * k) 0)).length) (type := 1) (flags := if fin then 13 else 12) (sid := sid)
    ⟨by simp, hl⟩ (by cases fin <;> simp [H2S.flag]) e2 (by rw [e3]; rfl) (by simp [e4])
  have hpr : p.rest = [] := by
    obtain ⟨_, a, b, g1, _⟩ := e5
    rw [h1] at g1
    cases a with
    | nil => simp at g1; exact g1.2
    | cons x a => simp at g1
  obtain ⟨t', d1, d2, d3⟩ := H2Trip.decoded l.t ht ⟨sid, q, ((rs ++ List.replicate k e).flatMap Hpack.Rep.wire).length, fun _ => true, none, false, ⟨0, 0⟩, ⟨[], [], []⟩⟩ (fs ++ List.replicate k ([], []))
    ⟨s2, rs ++ List.replicate k e, rest, by rw [List.flatMap_append, hew]; exact s3, e4, rfl, happ _ _ _ hb, by
      intro r hr
      rcases List.mem_append.1 hr with h | h
      · exact hok r h
      · rw [List.eq_of_mem_replicate h]; exact ⟨by simp, ⟨by simp, by simp⟩, ⟨by simp, by simp⟩⟩, Or.inl (s4 hpr)⟩
  refine ⟨_, t', e1, d2, ?_⟩
  have href : H2S.refuse l.c sid = false := by
    have : ¬ sid ≤ l.c.maxSid := by omega
    simp [H2S.refuse, hu.maxConc, this, hodd]
  have hla : looksAt l.c ⟨(3 * k :: (rs.flatMap Hpack.Rep.wire ++ List.replicate (3 * k) 0)).length, 1, if fin then 13 else 12, sid, some p⟩ = true := by
    simp [looksAt, href, hu.comm]
  have hlen : ((rs ++ List.replicate k e).flatMap Hpack.Rep.wire).length = (3 * k :: (rs.flatMap Hpack.Rep.wire ++ List.replicate (3 * k) 0)).length - 1 := by
    rw [List.flatMap_append, hew, List.length_cons]; rfl
  have f5 : H2S.flag (if fin then 13 else 12) 5 = false := by cases fin <;> simp [H2S.flag]
  simp only [hlen] at d1
  unfold decode
  simp only [hla, Bool.not_true, Bool.false_eq_true, if_false]
  unfold headerBlock
  simp only [s1, f5, Bool.false_eq_true, if_false, d1, Option.some.injEq, Prod.mk.injEq, and_true]
  congr 1
  simp; omega

/-- **C206 refuted: padding of DATA.** On every live connection: the padding of a DATA frame, whatever it is, is taken for content. -/
theorem C206_padded_data_refuted {mb : Nat} {l : Link} (hu : Up mb l.c) (sid : Nat) (hf : (H2S.search l.c sid).isSome) (d z : Bytes) (fin : Bool) (c : Cursor)
    (hc : Holds c 0 (if fin then 9 else 8) sid (z.length :: (d ++ z))) :
    ∃ h, headOf c = some h ∧ decode l h = some ({ type := 0, flags := if fin then 9 else 8, sid := sid, length := 1 + d.length + z.length, data := d ++ z }, l.t, l.set) := by
  obtain ⟨p, rest, e1, e2, e3, e4, e5⟩ := headOf_frame hc
  have hl := hc.2.2.1
  have hrl := List.length_pos_iff.2 e4
  obtain ⟨q, s1, s2, s3, s4⟩ := skipPad_padded (len := (z.length :: (d ++ z)).length) (type := 0) (flags := if fin then 9 else 8) (sid := sid)
    ⟨by simp, hl⟩ (by cases fin <;> simp [H2S.flag]) e2 (by rw [e3]; rfl) (by simp [e4])
  have s3 : q.flat = (d ++ z) ++ rest := s3
  refine ⟨_, e1, ?_⟩
  have hla : looksAt l.c ⟨(z.length :: (d ++ z)).length, 0, if fin then 9 else 8, sid, some p⟩ = true := by simp [looksAt, hf, hu.comm]
  have hlen : (z.length :: (d ++ z)).length - 1 = (d ++ z).length := by simp
  rw [hlen] at s1
  unfold decode
  simp only [hla, Bool.not_true, Bool.false_eq_true, if_false, s1]
  cases hdz : d ++ z with
  | nil =>
    simp only [List.length_nil, List.length_cons, Option.some.injEq, Prod.mk.injEq, and_true]
    have := congrArg List.length hdz
    simp only [List.length_append, List.length_nil] at this
    congr 1; omega
  | cons x y =>
    have hm := Buffer.memcpy_spec (x :: y).length q s2 (by rw [s3, hdz, List.length_append]; omega)
    rw [s3, hdz] at hm
    rw [List.length_cons] at hm
    have := congrArg List.length hdz
    simp only [List.length_append, List.length_cons] at this
    simp only [List.length_cons, hm, Option.map_some, Option.some.injEq, Prod.mk.injEq, and_true]
    rw [show 1 + d.length + z.length = y.length + 1 + 1 by omega]
    simp

/-- **C206 (partial): frames that are marked as padded, without padding,** are read like those that are not padded.  Missing: padding (`C206_padded_headers_refuted`,
`C206_padded_data_refuted`), padded header blocks over several chunks. -/
theorem C206_no_padding_partial {mb : Nat} {l : Link} (hu : Up mb l.c) :
    (∀ {limit : Nat} {tab tab' : List Entry}, H2Trip.Holds l.t limit tab → ∀ (sid : Nat), sid % 2 = 1 → l.c.maxSid < sid →
      ∀ (rs : List Hpack.Rep), (∀ r ∈ rs, Hpack.okRep r) → ∀ (fs : Pairs), Hpack.rfcBlock limit tab rs = some (fs, tab') → ∀ (fin : Bool) (c : Cursor),
      Holds c 1 (if fin then 13 else 12) sid (0 :: rs.flatMap Hpack.Rep.wire) → c.rest = [] →
      ∃ h t', headOf c = some h ∧ H2Trip.Holds t' limit tab' ∧
        decode l h = some ({ type := 1, flags := if fin then 13 else 12, sid := sid, length := 1 + (rs.flatMap Hpack.Rep.wire).length, hdrs := fs }, t', l.set)) ∧
    (∀ (sid : Nat), (H2S.search l.c sid).isSome → ∀ (d : Bytes) (fin : Bool) (c : Cursor), Holds c 0 (if fin then 9 else 8) sid (0 :: d) →
      ∃ h, headOf c = some h ∧ decode l h = some ({ type := 0, flags := if fin then 9 else 8, sid := sid, length := 1 + d.length, data := d }, l.t, l.set)) := by
  constructor
  · intro limit tab tab' ht sid hodd hnew rs hok fs hb fin c hc h1
    have := C206_padded_headers_refuted hu ht sid hodd hnew rs hok fs hb 0 fin c (by simpa using hc) h1
    simpa using this
  · intro sid hf d fin c hc
    have := C206_padded_data_refuted hu sid hf d [] fin c (by simpa using hc)
    simpa using this

/-- A connection after the first SETTINGS frame, with a request whose content is to come on stream 3. -/
def padLink : Link := { Link.init 100 ⟨[], [], 0, 0, 0⟩ 4096 with c := { H2S.Conn.init 100 with comm := true, maxSid := 3, streams := [opened 3 []] } }

theorem padLink_up : Up 100 padLink.c := ⟨rfl, rfl, rfl, rfl, rfl, rfl, rfl⟩

example : ∃ h t', headOf (place 1 13 5 (6 :: (H2Trip.repsHead.flatMap Hpack.Rep.wire ++ List.replicate 6 0))) = some h ∧ H2Trip.Holds t' 4096 [] ∧
    decode padLink h = some ({ type := 1, flags := 13, sid := 5, length := 1 + (H2Trip.repsHead.flatMap Hpack.Rep.wire).length + 6, hdrs := H2Trip.askHead.fields ++ [([], []), ([], [])] }, t', padLink.set) :=
  C206_padded_headers_refuted padLink_up (H2Trip.holds_init _ _) 5 (by decide) (by decide) H2Trip.repsHead (by
    intro r hr
    simp only [H2Trip.repsHead, List.mem_cons, List.not_mem_nil, or_false] at hr
    rcases hr with rfl | rfl | rfl
    · exact ⟨by decide, by decide, by decide, by simp⟩
    · exact by unfold Hpack.okRep; decide
    · exact ⟨by decide, by decide, by decide, by simp⟩) _ (by decide +kernel) 2 true _ (place_holds 1 13 5 _ (by decide) (by decide +kernel)) rfl

example : ∃ h, headOf (place 0 9 3 (4 :: (b!"hello" ++ [0, 0, 0, 0]))) = some h ∧
    decode padLink h = some ({ type := 0, flags := 9, sid := 3, length := 10, data := b!"hello" ++ [0, 0, 0, 0] }, padLink.t, padLink.set) :=
  C206_padded_data_refuted padLink_up 3 rfl b!"hello" [0, 0, 0, 0] true _ (place_holds 0 9 3 _ (by decide) (by decide))

end Fly.H2Wire
