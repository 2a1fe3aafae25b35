import Verif.H2Access.Lemmas

/-! # C200: the access log agrees with what clients asked and read over HTTP/2 -/

namespace Fly.H2Access
open Hpack (DTab Entry)
open Header (HList Pairs view)
open H2S (Out)
open H2Trip (Writes Resp Conn cells Sendable)
open H2Wire (Link Arrival At Call Client Says Agrees Starts winAt contentOf step answers answer fieldsOf Apart Talk Holds Setting Calm run)
open H2Refuse (Step)
open Site (Site)
open Send (Win)
open PyBridge (Cfg statuses)
open Access (Ends Fits Tidy)
open Nego (negotiating)
open Trip (WrittenPath Each)

/-- The first field the client should see. -/
theorem shown_status {s : Site} {x : H2Site.Exchange} (hm : H2Site.Makes s x) {pre post : Pairs} {body : Bytes} (h : H2Site.Shown s x = some (pre, post, body)) :
    ∃ code phrase rest, (code, phrase) ∈ statuses ∧ pre = (b!":status", Response.threeDigits code) :: rest := by
  obtain ⟨ask, inc, now, out⟩ := x
  cases out with
  | app o =>
    simp only [H2Site.Shown, Option.map_eq_some_iff, Prod.mk.injEq] at h
    obtain ⟨p, hs, rfl, _, _⟩ := h
    cases o with
    | response code reason hs' ct b =>
      simp only [H2Trip.Shown, Option.some.injEq] at hs
      rw [← hs]
      exact ⟨code, reason, _, hm.2.2.1, rfl⟩
    | value v b =>
      simp only [H2Trip.Shown, Option.some.injEq] at hs
      rw [← hs]
      exact ⟨200, b!"OK", _, by decide +kernel, rfl⟩
    | failed =>
      simp only [H2Trip.Shown, Option.some.injEq] at hs
      rw [← hs]
      exact ⟨500, b!"Internal Server Error", _, by decide +kernel, rfl⟩
    | tooLong r b =>
      simp only [H2Trip.Shown, Option.some.injEq] at hs
      rw [← hs]
      exact ⟨413, b!"Payload Too Large", _, by decide +kernel, rfl⟩
    | notFound =>
      simp only [H2Trip.Shown, Option.some.injEq] at hs
      rw [← hs]
      exact ⟨404, b!"Not Found", _, by decide +kernel, rfl⟩
    | codedTooLong r b => simp [H2Trip.Shown] at hs
  | file f =>
    simp only [H2Site.Shown, Option.some.injEq, Prod.mk.injEq] at h
    rw [← h.1]
    exact ⟨200, b!"OK", _, by decide +kernel, rfl⟩
  | notAllowed =>
    simp only [H2Site.Shown, Option.some.injEq, Prod.mk.injEq] at h
    rw [← h.1]
    exact ⟨405, b!"Method Not Allowed", _, by decide +kernel, rfl⟩

theorem proper_sid {s : Site} {k : Conn} {limit : Nat} {tab tab' : List Entry} {x : Step} (hx : x.Proper s k limit tab tab') : x.inc.sid < 2 ^ 31 := by
  cases x with
  | turn t =>
    rcases Classical.em t.wish.Met with hm | hm
    · exact (hx.served hm).1.sid
    · exact (hx.refused hm).2.2.2.1
  | garbled q i => exact hx.2.2.2.2.sid
  | malformed fs i => exact hx.2.2.2.sid
  | long q i => exact hx.2.2.2.sid

theorem proper_sound {s : Site} {k : Conn} {limit : Nat} {tab tab' : List Entry} {x : Step} (hx : x.Proper s k limit tab tab') {q : H2Trip.Ask} (hq : askOf x = some q) :
    q.Sound ∧ fieldsOf x = q.fields := by
  cases x with
  | turn t =>
    simp only [askOf, Option.some.injEq] at hq
    subst hq
    rcases Classical.em t.wish.Met with hm | hm
    · exact ⟨(hx.served hm).1.good.toSound, rfl⟩
    · exact ⟨(hx.refused hm).1, rfl⟩
  | garbled q i => simp only [askOf, Option.some.injEq] at hq; subst hq; exact ⟨hx.1, rfl⟩
  | malformed fs i => simp [askOf] at hq
  | long q i => simp only [askOf, Option.some.injEq] at hq; subst hq; exact ⟨hx.1, rfl⟩

/-- The response to a request: its status is the one that would be logged. -/
theorem told (s : Site) (hr : ∀ x ∈ s.app.routes, WrittenPath x.1) (k : Conn) (hk : 16384 ≤ k.maxFrame ∧ k.maxFrame < 2 ^ 24) {limit : Nat} {tab tab' tab2 : List Entry}
    {x : Step} (hx : x.Proper (negotiating s) k limit tab tab') (hap : Apart (negotiating s) tab2 x) :
    ∃ r bs code phrase, H2Site.response (negotiating s) x.now ⟨true, cells x.inc.alloc (fieldsOf x), x.inc.body, x.inc.discard⟩ = some r ∧
      H2Trip.send k tab2 x.inc.sid x.inc.win r x.inc.writes = some bs ∧ x.Answered (negotiating s) k bs ∧ (∃ body, Sendable k tab2 r x.inc.writes body) ∧
      (code, phrase) ∈ statuses ∧ Told k x.inc.sid bs code ∧ status (negotiating s) ⟨true, cells x.inc.alloc (fieldsOf x), x.inc.body, x.inc.discard⟩ = code := by
  obtain ⟨r, bs, e1, e2, ha, hs, _⟩ := H2Wire.made s hr k hk hx hap
  cases x with
  | turn t =>
    rcases Classical.em t.wish.Met with hm | hm
    · obtain ⟨hp, _⟩ := hx.served hm
      obtain ⟨pre, post, body, r', f1, f2, f3, _, _⟩ := H2Site.response_made (negotiating s) hr k t.ask hp
      have e1' : H2Site.response (negotiating s) t.ask.now ⟨true, cells t.ask.inc.alloc t.ask.ask.fields, t.ask.inc.body, t.ask.inc.discard⟩ = some r := e1
      rw [e1'] at f2
      cases f2
      obtain ⟨code, phrase, rest, g1, g2⟩ := shown_status hp.makes f1
      obtain ⟨pre', post', body', len, a1, _, _, a4⟩ := (ha.1 hm).1
      rw [f1] at a1
      cases a1
      refine ⟨r, bs, code, phrase, e1, e2, ha, hs, g1, ⟨rest ++ [(b!"content-length", len)] ++ post, body, ?_⟩, ?_⟩
      · rw [g2] at a4
        exact a4
      · exact first_is (status_first e1) g1 (by rw [f3, g2]; rfl)
    · obtain ⟨hg, hc, hdis, _⟩ := hx.refused hm
      obtain ⟨len, _, h2⟩ := ha.2 hm
      refine ⟨r, bs, 406, b!"Not Acceptable", e1, e2, ha, hs, by decide +kernel, ⟨_, _, h2⟩, ?_⟩
      show status _ ⟨true, cells t.ask.inc.alloc t.ask.ask.fields, t.ask.inc.body, t.ask.inc.discard⟩ = 406
      unfold status
      rw [hdis, (H2R.answer_well_formed _ true _ _ t.ask.ask.method true t.ask.ask.path t.ask.ask.query t.ask.inc.body
          (H2Trip.cells_hold t.ask.inc.alloc t.ask.ask.fields) hg.wellFormed hg.path hg.query).2.2.1 t.wish hx.says hm]
  | garbled q i =>
    obtain ⟨h1, h2, h3, h4, h5⟩ := hx
    obtain ⟨len, _, h6⟩ := ha
    refine ⟨r, bs, 400, b!"Bad Request", e1, e2, ⟨len, ‹_›, h6⟩, hs, by decide +kernel, ⟨_, _, h6⟩, ?_⟩
    show status _ ⟨true, cells i.alloc q.fields, i.body, i.discard⟩ = 400
    unfold status
    rw [h3, H2Refuse.garbled_answer _ h1 h2]
  | malformed fs i =>
    obtain ⟨h1, h2, h4, h5⟩ := hx
    obtain ⟨len, _, h6⟩ := ha
    refine ⟨r, bs, 400, b!"Bad Request", e1, e2, ⟨len, ‹_›, h6⟩, hs, by decide +kernel, ⟨_, _, h6⟩, ?_⟩
    show status _ ⟨true, cells i.alloc fs, i.body, i.discard⟩ = 400
    unfold status
    rw [H2Trip.malformed_answer _ i fs h1 h2]
  | long q i =>
    obtain ⟨h1, h2, h4, h5⟩ := hx
    obtain ⟨len, _, h6⟩ := ha
    refine ⟨r, bs, 413, b!"Payload Too Large", e1, e2, ⟨len, ‹_›, h6⟩, hs, by decide +kernel, ⟨_, _, h6⟩, ?_⟩
    show status _ ⟨true, cells i.alloc q.fields, i.body, i.discard⟩ = 413
    unfold status
    rw [h2, H2R.C100_discarded_is_413_partial _ true (cells i.alloc q.fields) q.fields q.method true q.path q.query i.body (H2Trip.cells_hold i.alloc q.fields)
      h1.wellFormed h1.path h1.query]

/-! ## Entries -/

theorem entry_record {c : Ends} {line : Bytes} (hf : Fits c line) (stamp : Bytes) {code : Nat} {phrase : Bytes} (h : (code, phrase) ∈ statuses) :
    entry c stamp line code = record c stamp line code phrase := by
  obtain ⟨h1, h2, h3, _, _, h4⟩ := phrases _ h
  simp only at h1 h2 h3 h4
  unfold entry record Log.accessText Log.stored
  simp only [h1, h2, h3]
  unfold Fits at hf
  rw [if_neg]
  · simp only [List.append_assoc]
  · have : (Response.threeDigits code).length = 3 := rfl
    simp only [List.length_append, List.length_cons, List.length_nil, this]
    omega

theorem cutLine_ok {s : Site} {k : Conn} {limit : Nat} {tab tab' : List Entry} {x : Step} (hx : x.Proper s k limit tab tab') {q : H2Trip.Ask} (hq : askOf x = some q) :
    Log.Clean (cutLine x) ∧ ∀ alloc body d, line ⟨true, cells alloc (fieldsOf x), body, d⟩ = some (cutLine x) := by
  obtain ⟨h1, h2⟩ := proper_sound hx hq
  constructor
  · have : Log.Clean (lineOf x) := by
      unfold lineOf
      simp only [hq]
      exact ((((method_clean q.method).append (by decide)).append (plain_clean h1.path)).append (query_clean h1.query)).append (by decide)
    unfold cutLine
    simp only [hq]
    exact ⟨fun h => this.1 (List.mem_of_mem_take h), fun h => this.2 (List.mem_of_mem_take h)⟩
  · intro alloc body d
    rw [h2, line_ok s.full.env h1]
    unfold cutLine lineOf
    simp only [hq]

theorem cutLine_plain {x : Step} (h : NoQuery x) : cutLine x = lineOf x := by
  unfold cutLine
  cases hq : askOf x with
  | none => rfl
  | some q =>
    simp only [h q hq, Req.queryText, List.length_nil, Nat.sub_zero]
    exact List.take_length

theorem cutLine_query {x : Step} {q : H2Trip.Ask} (hq : askOf x = some q) {y : Bytes} (hy : q.query = some y) : (cutLine x).length < (lineOf x).length := by
  unfold cutLine
  simp only [hq, hy]
  rw [List.length_take]
  have : 0 < (lineOf x).length := by
    unfold lineOf
    simp only [hq, List.length_append, List.length_cons]
    omega
  simp only [Req.queryText, List.length_append, List.length_cons]
  omega

theorem cutLine_fits {c : Ends} {x : Step} (h : Fits c (lineOf x)) : Fits c (cutLine x) := by
  unfold Fits at *
  have : (cutLine x).length ≤ (lineOf x).length := by
    unfold cutLine
    cases askOf x with
    | none => exact Nat.le_refl _
    | some q => simp only [List.length_take]; omega
  omega

theorem record_line {c : Ends} (hc : c.Ok) {stamp line : Bytes} (hs : Tidy stamp) (hl : Log.Clean line) {code : Nat} {phrase : Bytes} (h : (code, phrase) ∈ statuses) :
    Log.IsLine (record c stamp line code phrase) := by
  obtain ⟨h1, h2, h3, h4⟩ := hc
  obtain ⟨_, _, _, p1, p2, _⟩ := phrases _ h
  have hd : Log.Clean (Response.threeDigits code) := by
    constructor <;> (unfold Response.threeDigits; simp; omega)
  have e : (b!")\n" : Bytes) = b!")" ++ [10] := by decide
  have key : Log.Clean (stamp ++ c.host ++ b!":" ++ c.port ++ b!" (" ++ line ++ b!") --> " ++ c.myHost ++ b!":" ++ c.myPort ++ b!" (" ++ Response.threeDigits code ++ b!" " ++ phrase ++ b!")") :=
    Log.Clean.append (Log.Clean.append (Log.Clean.append (Log.Clean.append (Log.Clean.append (Log.Clean.append (Log.Clean.append (Log.Clean.append (Log.Clean.append (Log.Clean.append (Log.Clean.append
      (Log.Clean.append (Log.Clean.append (Log.Clean.append hs h1) (by decide)) h2) (by decide)) hl) (by decide)) h3) (by decide)) h4) (by decide)) hd) (by decide)) ⟨p1, p2⟩) (by decide)
  refine ⟨_, ?_, key.1, key.2⟩
  unfold record
  rw [e]
  simp only [List.append_assoc]

theorem step_answers {s : Site} {k : Conn} {l l' : Link} {a : Arrival} {os : List Out} {rs : List (Nat × Bytes)} (h : step s k l a = some (l', os, rs)) :
    answers s k l'.t ⟨a, winAt l a⟩ os = some rs := by
  unfold step at h
  split at h
  · simp only [Option.some.injEq, Prod.mk.injEq] at h
    obtain ⟨rfl, rfl, rfl⟩ := h
    rfl
  · split at h
    · simp at h
    · split at h
      · simp at h
      · rename_i ha
        simp only [Option.some.injEq, Prod.mk.injEq] at h
        obtain ⟨rfl, rfl, rfl⟩ := h
        exact ha

theorem run_of {s : Site} {k : Conn} {l l' l'' : Link} {a : Arrival} {as : List Arrival} {os os' : List Out} {rs rs' : List (Nat × Bytes)}
    (h : step s k l a = some (l', os, rs)) (h' : run s k l' as = some (l'', os', rs')) : run s k l (a :: as) = some (l'', os ++ os', rs ++ rs') := by
  rw [run, h]; simp only [h', Option.map_some]

/-- A frame without response adds nothing. -/
theorem entries_none (s : Site) (k : Conn) (c : Ends) (t : DTab) (a : At) : ∀ (os : List Out), answers s k t a os = some [] → ∀ stamps,
    entries s k c t a os stamps = some ([], stamps)
  | [], _, stamps => rfl
  | o :: os, h, stamps => by
    cases o with
    | dispatch sid hs b d =>
      simp only [answers] at h
      split at h
      · simp at h
      · simp at h
    | _ => exact entries_none s k c t a os h stamps

theorem answers_no_dispatch (s : Site) (k : Conn) (t : DTab) (a : At) : ∀ (os : List Out), answers s k t a os = some [] → ∀ sid hs b d, Out.dispatch sid hs b d ∉ os
  | [], _, _, _, _, _ => by simp
  | o :: os, h, sid, hs, b, d => by
    cases o with
    | dispatch sid hs b d =>
      simp only [answers] at h
      split at h <;> simp at h
    | _ =>
      intro hm
      rcases List.mem_cons.1 hm with hm | hm
      · simp at hm
      · exact answers_no_dispatch s k t a os h sid hs b d hm

/-- A frame with one response adds the entry for it. -/
theorem entries_one (s : Site) (k : Conn) (c : Ends) (t : DTab) (a : At) (sid : Nat) (hs : List (Bytes × Bytes)) (b : Option (Nat × Bytes)) (d : Bool) (p : Nat × Bytes) :
    ∀ (os : List Out), answers s k t a os = some [p] → Out.dispatch sid hs b d ∈ os → ∀ stamps e, entryFor s k c t a sid hs b d (stamps.headD []) = some e →
      entries s k c t a os stamps = some (e, stamps.tail)
  | [], _, hm, _, _, _ => by simp at hm
  | o :: os, h, hm, stamps, e, he => by
    cases o with
    | dispatch sid' hs' b' d' =>
      simp only [answers] at h
      split at h
      · simp at h
      · simp only [Option.map_eq_some_iff, List.cons.injEq] at h
        obtain ⟨q, hq, _, rfl⟩ := h
        rcases List.mem_cons.1 hm with hm | hm
        · cases hm
          simp only [entries, he, entries_none s k c t a os hq, Option.map_some, List.append_nil]
        · exact absurd hm (answers_no_dispatch s k t a os hq _ _ _ _)
    | _ =>
      rcases List.mem_cons.1 hm with hm | hm
      · simp at hm
      · exact entries_one s k c t a sid hs b d p os h hm stamps e he

/-- The response is that to the request. -/
theorem answer_one (s : Site) (k : Conn) (t : DTab) (a : At) (sid : Nat) (hs : List (Bytes × Bytes)) (b : Option (Nat × Bytes)) (d : Bool) (p : Nat × Bytes) :
    ∀ (os : List Out), answers s k t a os = some [p] → Out.dispatch sid hs b d ∈ os → answer s k t a sid hs b d = some p.2
  | [], _, hm => by simp at hm
  | o :: os, h, hm => by
    cases o with
    | dispatch sid' hs' b' d' =>
      simp only [answers] at h
      split at h
      · simp at h
      · rename_i bs hbs
        simp only [Option.map_eq_some_iff, List.cons.injEq] at h
        obtain ⟨q, hq, rfl, rfl⟩ := h
        rcases List.mem_cons.1 hm with hm | hm
        · cases hm
          exact hbs
        · exact absurd hm (answers_no_dispatch s k t a os hq _ _ _ _)
    | _ =>
      rcases List.mem_cons.1 hm with hm | hm
      · simp at hm
      · exact answer_one s k t a sid hs b d p os h hm

/-- The entry for the response to a request. -/
theorem entryFor_ok (s : Site) (hr : ∀ x ∈ s.app.routes, WrittenPath x.1) (k : Conn) (hk : 16384 ≤ k.maxFrame ∧ k.maxFrame < 2 ^ 24) (c : Ends) {limit : Nat} {tab tab' : List Entry}
    {t : DTab} {x : Step} (hx : x.Proper (negotiating s) k limit tab tab') (hap : Apart (negotiating s) (H2Trip.dynOf t) x) (hp : Brief c x) {z : At} (hb : H2Wire.Belongs x z)
    {b : Option (Nat × Bytes)} (hc : contentOf b = some x.inc.body) {bs : Bytes} (hans : answer (negotiating s) k t z x.inc.sid (fieldsOf x) b x.inc.discard = some bs) (stamp : Bytes) :
    ∃ code phrase, (code, phrase) ∈ statuses ∧ Told k x.inc.sid bs code ∧
      entryFor (negotiating s) k c t z x.inc.sid (fieldsOf x) b x.inc.discard stamp = some (record c stamp (cutLine x) code phrase) := by
  obtain ⟨⟨q, hq⟩, hf, ho⟩ := hp
  obtain ⟨r, bs', code, phrase, e1, e2, _, ⟨body, e3⟩, e4, e5, e6⟩ := told s hr k hk hx hap
  obtain ⟨z1, z2, z3, z4⟩ := hb
  have hbs : bs' = bs := by
    unfold answer at hans
    simp only [hc, z1, z2, z3, z4, e1, e2, Option.some.injEq] at hans
    exact hans
  subst hbs
  refine ⟨code, phrase, e4, e5, ?_⟩
  have hl := (cutLine_ok hx hq).2 x.inc.alloc x.inc.body x.inc.discard
  unfold entryFor
  simp only [hc, z1, z2, z3, z4, e1, hl, e6]
  rw [finished_ok k hk _ (proper_sid hx) _ ho _ r _ body e3, if_pos rfl, entry_record (cutLine_fits hf) stamp e4]

/-- A connection and its log, when an entry `E` is known to be made for each response. -/
theorem session (s : Site) (hr : ∀ x ∈ s.app.routes, WrittenPath x.1) (k : Conn) (hk : 16384 ≤ k.maxFrame ∧ k.maxFrame < 2 ^ 24)
    (maxBody : Nat) (g : Hpack.DNode) (limit : Nat) (first : Arrival) (ss : List (Nat × Nat)) (hfirst : Holds first.place 4 0 0 (H2.wireSettings ss)) (hss : ∀ p ∈ ss, Setting p)
    {init : Nat} (hinit : Starts ss init) (c : Ends) (P : Step → Prop) (E : Step → Bytes → Bytes → Bytes → Prop)
    (hE : ∀ {tab tab' : List Entry} {t : DTab} {x : Step} {z : At} {b : Option (Nat × Bytes)} {bs stamp : Bytes}, x.Proper (negotiating s) k limit tab tab' →
      Apart (negotiating s) (H2Trip.dynOf t) x → P x → H2Wire.Belongs x z → contentOf b = some x.inc.body →
      answer (negotiating s) k t z x.inc.sid (fieldsOf x) b x.inc.discard = some bs → Tidy stamp →
      ∃ e, entryFor (negotiating s) k c t z x.inc.sid (fieldsOf x) b x.inc.discard stamp = some e ∧ E x stamp bs e)
    (as : List Arrival) (xs : List Step) (hf : Talk (negotiating s) k limit maxBody (Client.fresh init) as xs) (hp : ∀ x ∈ xs, P x)
    (stamps : List Bytes) (hlen : stamps.length = xs.length) (hst : ∀ t ∈ stamps, Tidy t) :
    ∃ l os rs es, run (negotiating s) k (Link.init maxBody g limit) (first :: as) = some (l, os, rs) ∧ rs.map (·.1) = xs.map (·.inc.sid) ∧
      Each (Step.Answered (negotiating s) k) xs (rs.map (·.2)) ∧ logged (negotiating s) k c (Link.init maxBody g limit) (first :: as) stamps = some es.flatten ∧
      Each (fun p e => E p.1.1 p.1.2 p.2 e) ((xs.zip stamps).zip (rs.map (·.2))) es := by
  have key : ∀ (cl : Client) (as : List Arrival) (xs : List Step), Talk (negotiating s) k limit maxBody cl as xs → ∀ (l : Link), Agrees limit maxBody cl l → (∀ x ∈ xs, P x) →
      ∀ (stamps : List Bytes), stamps.length = xs.length → (∀ t ∈ stamps, Tidy t) →
      ∃ l' os rs es, run (negotiating s) k l as = some (l', os, rs) ∧ rs.map (·.1) = xs.map (·.inc.sid) ∧
        Each (Step.Answered (negotiating s) k) xs (rs.map (·.2)) ∧ logged (negotiating s) k c l as stamps = some es.flatten ∧
        Each (fun p e => E p.1.1 p.1.2 p.2 e) ((xs.zip stamps).zip (rs.map (·.2))) es := by
    have silent : ∀ {l l1 : Link} {a : Arrival} {as : List Arrival} {os : List Out} {stamps : List Bytes} {text : Bytes}, step (negotiating s) k l a = some (l1, os, []) →
        logged (negotiating s) k c l1 as stamps = some text → logged (negotiating s) k c l (a :: as) stamps = some text := by
      intro l l1 a as os stamps text e h
      unfold logged
      simp only [e, entries_none _ k c _ _ os (step_answers e), h, Option.map_some, List.nil_append]
    have speaks : ∀ {l l1 : Link} {x : Step} {z : Arrival} {as : List Arrival} {os : List Out} {b : Bytes} {tab tab' : List Entry} {stamps : List Bytes} {stamp text : Bytes}
        {cont : Option (Nat × Bytes)}, step (negotiating s) k l z = some (l1, os, [(x.inc.sid, b)]) → x.Proper (negotiating s) k limit tab tab' → Apart (negotiating s) (H2Trip.dynOf l1.t) x →
        P x → H2Wire.Belongs x ⟨z, winAt l z⟩ → contentOf cont = some x.inc.body → Out.dispatch x.inc.sid (fieldsOf x) cont x.inc.discard ∈ os → Tidy stamp →
        logged (negotiating s) k c l1 as stamps = some text →
        ∃ e, E x stamp b e ∧ logged (negotiating s) k c l (z :: as) (stamp :: stamps) = some (e ++ text) := by
      intro l l1 x z as os b tab tab' stamps stamp text cont e hx hap hpl hbel hcont hmem hstamp h
      have ha := step_answers e
      have hans : answer (negotiating s) k l1.t ⟨z, winAt l z⟩ x.inc.sid (fieldsOf x) cont x.inc.discard = some b :=
        answer_one _ k l1.t _ _ _ _ _ (x.inc.sid, b) os ha hmem
      obtain ⟨en, g3, g4⟩ := hE hx hap hpl hbel hcont hans hstamp
      refine ⟨en, g4, ?_⟩
      have he := entries_one (negotiating s) k c l1.t _ _ _ _ _ _ os ha hmem (stamp :: stamps) _ g3
      unfold logged
      simp only [e, he, List.tail_cons, h, Option.map_some]
    intro cl as xs hf
    induction hf with
    | done =>
      intro l _ _ stamps _ _
      exact ⟨l, [], [], [], rfl, rfl, .nil, rfl, .nil⟩
    | next cl cl' a as xs ys h hf ih =>
      intro l hl hp stamps hlen hst
      obtain ⟨l1, os, rs, e, h1, _, hx⟩ := H2Wire.says_step s hr k hk hl h
      rcases hx with ⟨rfl, rfl⟩ | ⟨x, rfl, b, tab, tab', cont, rfl, ha, hx, hap, hbel, c1, c2⟩
      · obtain ⟨l', os', rs, es, r1, r2, r3, r4, r6⟩ := ih l1 h1 hp stamps hlen hst
        exact ⟨l', _, rs, es, run_of e r1, r2, r3, silent e r4, r6⟩
      · obtain ⟨stamp, stamps, rfl⟩ : ∃ a b, stamps = a :: b := by cases stamps <;> simp at hlen ⊢
        obtain ⟨l', os', rs, es, r1, r2, r3, r4, r6⟩ := ih l1 h1 (fun x hx => hp x (by simp [hx])) stamps (by simpa using hlen) (fun t ht => hst t (by simp [ht]))
        obtain ⟨en, q3, q4⟩ := speaks e hx hap (hp x (by simp)) hbel c1 c2 (hst stamp (by simp)) r4
        exact ⟨l', _, (x.inc.sid, b) :: rs, en :: es, run_of e r1, by simp [r2], .cons ha r3, by rw [List.flatten_cons]; exact q4, .cons q3 r6⟩
  obtain ⟨l0, os0, e, h0, _⟩ := H2Wire.first_step (negotiating s) k maxBody g limit first ss hfirst hss init hinit
  obtain ⟨l', os, rs, es, r1, r2, r3, r4, r6⟩ := key _ as xs hf l0 h0 hp stamps hlen hst
  refine ⟨l', _, rs, es, run_of e r1, r2, r3, ?_, r6⟩
  unfold logged
  simp only [e, entries_none _ k c _ _ _ (step_answers e), r4, Option.map_some, List.nil_append]

/-- The log of a connection. -/
theorem recorded (s : Site) (hr : ∀ x ∈ s.app.routes, WrittenPath x.1) (k : Conn) (hk : 16384 ≤ k.maxFrame ∧ k.maxFrame < 2 ^ 24)
    (maxBody : Nat) (g : Hpack.DNode) (limit : Nat) (first : Arrival) (ss : List (Nat × Nat)) (hfirst : Holds first.place 4 0 0 (H2.wireSettings ss)) (hss : ∀ p ∈ ss, Setting p)
    (init : Nat) (hinit : Starts ss init) (as : List Arrival) (xs : List Step) (hf : Talk (negotiating s) k limit maxBody (Client.fresh init) as xs)
    (c : Ends) (hc : c.Ok) (hp : ∀ x ∈ xs, Brief c x) (stamps : List Bytes) (hlen : stamps.length = xs.length) (hst : ∀ t ∈ stamps, Tidy t) :
    ∃ l os rs text, run (negotiating s) k (Link.init maxBody g limit) (first :: as) = some (l, os, rs) ∧ rs.map (·.1) = xs.map (·.inc.sid) ∧
      Each (Step.Answered (negotiating s) k) xs (rs.map (·.2)) ∧ logged (negotiating s) k c (Link.init maxBody g limit) (first :: as) stamps = some text ∧
      Each (fun p line => ∃ code phrase, (code, phrase) ∈ statuses ∧ Told k p.1.1.inc.sid p.2 code ∧ line = record c p.1.2 (cutLine p.1.1) code phrase)
        ((xs.zip stamps).zip (rs.map (·.2))) (Log.readLines text) := by
  obtain ⟨l, os, rs, es, r1, r2, r3, r4, r5⟩ := session s hr k hk maxBody g limit first ss hfirst hss hinit c (Brief c)
    (fun x stamp bs e => Log.IsLine e ∧ ∃ code phrase, (code, phrase) ∈ statuses ∧ Told k x.inc.sid bs code ∧ e = record c stamp (cutLine x) code phrase)
    (by
      intro tab tab' t x z b bs stamp hx hap hpl hbel hcont hans hstamp
      obtain ⟨code, phrase, g1, g2, g3⟩ := entryFor_ok s hr k hk c hx hap hpl hbel hcont hans stamp
      obtain ⟨⟨q, hq⟩, _⟩ := hpl
      exact ⟨_, g3, record_line hc hstamp (cutLine_ok hx hq).1 g1, code, phrase, g1, g2, rfl⟩)
    as xs hf hp stamps hlen hst
  refine ⟨l, os, rs, es.flatten, r1, r2, r3, r4, ?_⟩
  have hl : ∀ {ps : List ((Step × Bytes) × Bytes)} {es : List Bytes}, Each (fun p e => Log.IsLine e ∧ ∃ code phrase, (code, phrase) ∈ statuses ∧ Told k p.1.1.inc.sid p.2 code ∧
      e = record c p.1.2 (cutLine p.1.1) code phrase) ps es → ∀ l ∈ es, Log.IsLine l := by
    intro ps es h
    induction h with
    | nil => simp
    | cons h1 _ ih =>
      intro l hl
      rcases List.mem_cons.1 hl with rfl | hl
      · exact h1.1
      · exact ih l hl
  rw [Log.readLines_flatten es (hl r5)]
  exact H2Wire.each_mono (fun _ _ h => h.2) r5

theorem each_with {α β : Type} {R Q : α → β → Prop} {l : List α} {m : List β} (h : Each R l m) (f : ∀ a b, a ∈ l → R a b → Q a b) : Each Q l m := by
  induction h with
  | nil => exact .nil
  | cons h1 _ ih => exact .cons (f _ _ (by simp) h1) (ih fun a b ha => f a b (by simp [ha]))

theorem zip_mem {α β γ : Type} {xs : List α} {ys : List β} {zs : List γ} {p : (α × β) × γ} (h : p ∈ (xs.zip ys).zip zs) : p.1.1 ∈ xs :=
  (List.of_mem_zip (List.of_mem_zip h).1).1

/-- **C200** *(partial)*.  For the connections of C199: the access log has one line for each request in the order in which they are answered, with the time, the two addresses, what
the client asked for and the status which the client reads on the stream of the request; there is nothing else in the log.
Missing: fields that are no request; queries (`C200_query_refuted`); entries of 297 bytes and more (C106); closed windows (`C200_closed_window_refuted`); what is missing in C199. -/
theorem C200_access_log_h2_partial (s : Site) (hr : ∀ x ∈ s.app.routes, WrittenPath x.1) (k : Conn) (hk : 16384 ≤ k.maxFrame ∧ k.maxFrame < 2 ^ 24)
    (maxBody : Nat) (g : Hpack.DNode) (limit : Nat) (first : Arrival) (ss : List (Nat × Nat)) (hfirst : Holds first.place 4 0 0 (H2.wireSettings ss)) (hss : ∀ p ∈ ss, Setting p)
    (init : Nat) (hinit : Starts ss init) (as : List Arrival) (xs : List Step) (hf : Talk (negotiating s) k limit maxBody (Client.fresh init) as xs)
    (c : Ends) (hc : c.Ok) (hp : ∀ x ∈ xs, Brief c x ∧ NoQuery x) (stamps : List Bytes) (hlen : stamps.length = xs.length) (hst : ∀ t ∈ stamps, Tidy t) :
    ∃ l os rs text, run (negotiating s) k (Link.init maxBody g limit) (first :: as) = some (l, os, rs) ∧ rs.map (·.1) = xs.map (·.inc.sid) ∧
      Each (Step.Answered (negotiating s) k) xs (rs.map (·.2)) ∧ logged (negotiating s) k c (Link.init maxBody g limit) (first :: as) stamps = some text ∧
      Each (fun p line => ∃ code phrase, (code, phrase) ∈ statuses ∧ Told k p.1.1.inc.sid p.2 code ∧ line = record c p.1.2 (lineOf p.1.1) code phrase)
        ((xs.zip stamps).zip (rs.map (·.2))) (Log.readLines text) := by
  obtain ⟨l, os, rs, text, r1, r2, r3, r4, r5⟩ := recorded s hr k hk maxBody g limit first ss hfirst hss init hinit as xs hf c hc (fun x hx => (hp x hx).1) stamps hlen hst
  refine ⟨l, os, rs, text, r1, r2, r3, r4, each_with r5 fun p line hm h => ?_⟩
  rwa [cutLine_plain (hp _ (zip_mem hm)).2] at h

/-- **C200** *(negation of the rest)*.  Of a request with a query, the log keeps what is too short by the length of the query. -/
theorem C200_query_refuted (s : Site) (hr : ∀ x ∈ s.app.routes, WrittenPath x.1) (k : Conn) (hk : 16384 ≤ k.maxFrame ∧ k.maxFrame < 2 ^ 24)
    (maxBody : Nat) (g : Hpack.DNode) (limit : Nat) (first : Arrival) (ss : List (Nat × Nat)) (hfirst : Holds first.place 4 0 0 (H2.wireSettings ss)) (hss : ∀ p ∈ ss, Setting p)
    (init : Nat) (hinit : Starts ss init) (as : List Arrival) (xs : List Step) (hf : Talk (negotiating s) k limit maxBody (Client.fresh init) as xs)
    (c : Ends) (hc : c.Ok) (hp : ∀ x ∈ xs, Brief c x ∧ ∀ q, askOf x = some q → q.query ≠ none) (stamps : List Bytes) (hlen : stamps.length = xs.length) (hst : ∀ t ∈ stamps, Tidy t) :
    ∃ l os rs text, run (negotiating s) k (Link.init maxBody g limit) (first :: as) = some (l, os, rs) ∧ rs.map (·.1) = xs.map (·.inc.sid) ∧
      Each (Step.Answered (negotiating s) k) xs (rs.map (·.2)) ∧ logged (negotiating s) k c (Link.init maxBody g limit) (first :: as) stamps = some text ∧
      Each (fun p line => ∃ code phrase, (code, phrase) ∈ statuses ∧ Told k p.1.1.inc.sid p.2 code ∧ line = record c p.1.2 (cutLine p.1.1) code phrase ∧
        line ≠ record c p.1.2 (lineOf p.1.1) code phrase)
        ((xs.zip stamps).zip (rs.map (·.2))) (Log.readLines text) := by
  obtain ⟨l, os, rs, text, r1, r2, r3, r4, r5⟩ := recorded s hr k hk maxBody g limit first ss hfirst hss init hinit as xs hf c hc (fun x hx => (hp x hx).1) stamps hlen hst
  refine ⟨l, os, rs, text, r1, r2, r3, r4, each_with r5 fun p line hm h => ?_⟩
  obtain ⟨code, phrase, h1, h2, h3⟩ := h
  refine ⟨code, phrase, h1, h2, h3, ?_⟩
  obtain ⟨⟨⟨q, hq⟩, _⟩, hn⟩ := hp _ (zip_mem hm)
  obtain ⟨y, hy⟩ := Option.ne_none_iff_exists'.1 (hn q hq)
  have := cutLine_query hq hy
  rw [h3]
  intro e
  have := congrArg List.length e
  simp only [record, List.length_append] at this
  omega

/-- The windows of a connection's only frame with a response. -/
theorem talk_window {s : Site} {k : Conn} {limit mb init : Nat} {tab : List Entry} {last : Nat} {conn : Int} {z : Arrival} {x : Step}
    (hf : Talk s k limit mb ⟨tab, last, conn, init, []⟩ [z] [x]) : x.inc.win = ⟨init, conn⟩ := by
  generalize hu : ([] : List Call) = under at hf
  generalize hx : [x] = ys at hf
  cases hf with
  | next _ c' _ _ xs ys h hf =>
    cases hf
    rw [List.append_nil] at hx
    cases h with
    | bare _ _ _ _ _ _ x _ _ _ _ _ _ _ _ hb =>
      simp only [List.cons.injEq, and_true] at hx
      subst hx
      exact hb.2.1.symm
    | ends => simp at hu
    | _ => simp at hx

/-- **C200** *(negation of the rest)*.  A client that begins with a window of 0 in its settings and asks for something without content, a page that does not exist, say, reads the whole
response; there is no entry for it in the log (as long as the window stays closed). -/
theorem C200_closed_window_refuted (s : Site) (hr : ∀ x ∈ s.app.routes, WrittenPath x.1) (k : Conn) (hk : 16384 ≤ k.maxFrame ∧ k.maxFrame < 2 ^ 24)
    (maxBody : Nat) (g : Hpack.DNode) (limit : Nat) (first : Arrival) (ss : List (Nat × Nat)) (hfirst : Holds first.place 4 0 0 (H2.wireSettings ss)) (hss : ∀ p ∈ ss, Setting p)
    (hinit : Starts ss 0) (z : Arrival) (x : Step) (hf : Talk (negotiating s) k limit maxBody (Client.fresh 0) [z] [x]) (c : Ends) (q : H2Trip.Ask) (hq : askOf x = some q)
    (stamp : Bytes) (hst : Tidy stamp) :
    ∃ l os bs, run (negotiating s) k (Link.init maxBody g limit) [first, z] = some (l, os, [(x.inc.sid, bs)]) ∧ x.Answered (negotiating s) k bs ∧
      logged (negotiating s) k c (Link.init maxBody g limit) [first, z] [stamp] = some [] := by
  have hw : x.inc.win.stream ≤ 0 ∨ x.inc.win.conn ≤ 0 := by
    left
    rw [talk_window hf]
    exact Int.le_refl 0
  obtain ⟨l, os, rs, es, r1, r2, r3, r4, r5⟩ := session s hr k hk maxBody g limit first ss hfirst hss hinit c
    (fun x => (∃ q, askOf x = some q) ∧ (x.inc.win.stream ≤ 0 ∨ x.inc.win.conn ≤ 0)) (fun _ _ _ e => e = [])
    (by
      intro tab tab' t x z b bs stamp hx hap hpl hbel hcont hans _
      obtain ⟨⟨q, hq⟩, hw⟩ := hpl
      obtain ⟨r, bs', code, phrase, e1, _⟩ := told s hr k hk hx hap
      obtain ⟨z1, z2, z3, z4⟩ := hbel
      have hl := (cutLine_ok hx hq).2 x.inc.alloc x.inc.body x.inc.discard
      refine ⟨[], ?_, rfl⟩
      have hfin : finished k (H2Trip.dynOf t) x.inc.sid x.inc.win r x.inc.writes = false := by
        unfold finished Send.startData
        rw [if_pos hw]
        cases H2Trip.headerFrames k (H2Trip.dynOf t) r <;> simp
      unfold entryFor
      simp only [hcont, z1, z2, z3, z4, e1, hl, hfin]
      rfl)
    [z] [x] hf (by simpa using ⟨⟨q, hq⟩, hw⟩) [stamp] rfl (by simpa using hst)
  match rs, r2, r3, r5 with
  | [(sid, bs)], r2, r3, r5 =>
    simp only [List.map_cons, List.map_nil, List.cons.injEq, and_true] at r2
    subst r2
    cases r5 with
    | cons h1 h2 =>
      cases h2
      cases r3 with
      | cons h3 _ =>
        refine ⟨l, os, bs, r1, h3, ?_⟩
        rw [r4, h1]; rfl

/-! ## A connection -/

def ends : Ends := ⟨b!"10.0.0.7", b!"50001", b!"10.0.0.1", b!"443"⟩
def stampsOf : List Bytes := [b!"2026-11-16 10:00:00 [UTC+0:00] (42): ", b!"2026-11-16 10:00:01 [UTC+0:00] (42): ", b!"2026-11-16 10:00:02 [UTC+0:00] (42): "]

/-- The connection of C199: a request that is served, one that is refused with 400, and one with too much content, begun before the second. -/
example (g : Hpack.DNode) : ∃ l os rs text,
    run (negotiating Nego.sampleSite2) H2Trip.sampleConn (Link.init 4 g 4096) (H2Wire.hello :: H2Wire.frames) = some (l, os, rs) ∧ rs.map (·.1) = [1, 5, 3] ∧
      Each (Step.Answered (negotiating Nego.sampleSite2) H2Trip.sampleConn) [.turn Nego.takeTurn, H2Wire.fine, H2Wire.five] (rs.map (·.2)) ∧
      logged (negotiating Nego.sampleSite2) H2Trip.sampleConn ends (Link.init 4 g 4096) (H2Wire.hello :: H2Wire.frames) stampsOf = some text ∧
      Each (fun p line => ∃ code phrase, (code, phrase) ∈ statuses ∧ Told H2Trip.sampleConn p.1.1.inc.sid p.2 code ∧ line = record ends p.1.2 (lineOf p.1.1) code phrase)
        (([Step.turn Nego.takeTurn, H2Wire.fine, H2Wire.five].zip stampsOf).zip (rs.map (·.2))) (Log.readLines text) :=
  C200_access_log_h2_partial Nego.sampleSite2 Nego.sampleSite_written H2Trip.sampleConn (by decide) 4 g 4096 H2Wire.hello _ H2Wire.hello_holds (by unfold Setting; decide) 65535
    (Or.inr ⟨[], [(5, 16384)], rfl, by decide⟩) H2Wire.frames _
    H2Wire.frames_talk ends ⟨by unfold Tidy; decide, by unfold Tidy; decide, by unfold Tidy; decide, by unfold Tidy; decide⟩
    (by
      intro x hx
      simp only [List.mem_cons, List.not_mem_nil, or_false] at hx
      rcases hx with rfl | rfl | rfl
      · exact ⟨⟨⟨_, rfl⟩, by unfold Fits; decide +kernel, by decide +kernel, by decide +kernel⟩, by intro q hq; cases hq; rfl⟩
      · exact ⟨⟨⟨_, rfl⟩, by unfold Fits; decide +kernel, by decide +kernel, by decide +kernel⟩, by intro q hq; cases hq; rfl⟩
      · exact ⟨⟨⟨_, rfl⟩, by unfold Fits; decide +kernel, by decide +kernel, by decide +kernel⟩, by intro q hq; cases hq; rfl⟩)
    stampsOf rfl (by unfold Tidy; decide)

/-- The lines for these requests. -/
example : record ends b!"2026-11-16 10:00:00 [UTC+0:00] (42): " (lineOf (.turn Nego.takeTurn)) 200 b!"OK" =
    b!"2026-11-16 10:00:00 [UTC+0:00] (42): 10.0.0.7:50001 (GET /f HTTP/2) --> 10.0.0.1:443 (200 OK)\n" := by decide +kernel

/-- A request with a query and a field against the rules, from a client with this window. -/
def askOdd : H2Trip.Ask := ⟨.get, b!"/f", some b!"a=1", [(b!":method", b!"GET"), (b!":scheme", b!"https"), (b!":path", b!"/f?a=1"), (b!"accept-language", b!"en;q=0.1234")], none⟩
def repsOdd : List Hpack.Rep := [.indexed 2, .indexed 7, .literal .update (.index 4) ⟨false, b!"/f?a=1"⟩, .literal .noUpdate (.index 17) ⟨false, b!"en;q=0.1234"⟩]
def odd (w : Nat) : Step := .garbled askOdd (H2Trip.sampleInc 1 repsOdd none w)
def oddFrame : Arrival := H2Wire.arrival (H2Wire.place 1 5 1 (repsOdd.flatMap Hpack.Rep.wire))

theorem odd_sound : askOdd.Sound where
  wellFormed := ⟨[(b!":method", b!"GET"), (b!":scheme", b!"https"), (b!":path", b!"/f?a=1")], [(b!"accept-language", b!"en;q=0.1234")], rfl, Or.inl (List.Perm.refl _), by
    unfold H2R.Regular; simp⟩
  path := ⟨rfl, by unfold Req.PathByte Req.RfcPchar Req.RfcUnreserved Req.RfcSubDelims; simp [askOdd]⟩
  query := by
    intro x hx
    simp only [askOdd, Option.some.injEq] at hx
    subst hx
    exact ⟨by simp, by unfold Req.QueryByte Req.RfcPchar Req.RfcUnreserved Req.RfcSubDelims; simp⟩
  names := by unfold H2Trip.LowerName H2Trip.Ascii; simp [askOdd]
  noCoding := by simp [askOdd]
  known := by
    intro p hp h
    simp only [askOdd, List.mem_cons, List.not_mem_nil, or_false] at hp
    rcases hp with rfl | rfl | rfl | rfl <;> simp at h

theorem odd_garbled : Refuse.Garbled askOdd.fields := by
  refine ⟨.nothing, ?_, by rintro _ ⟨⟩, ?_, by rintro _ ⟨⟩, Or.inr ⟨?_, by rintro _ ⟨⟩, ?_⟩⟩
  · show ∀ x ∈ askOdd.fields, _
    simp [askOdd]
  · show ∀ x ∈ askOdd.fields, _
    simp [askOdd]
  · show ∀ x ∈ askOdd.fields, _
    simp [askOdd, Lang.Field.name]
  · exact ⟨b!"en", [], [1, 2, 3, 4], by unfold Lang.NameChar; decide, by simp, by decide, by decide,
      [(b!":method", b!"GET"), (b!":scheme", b!"https"), (b!":path", b!"/f?a=1")], [], rfl, by decide⟩

theorem repsOdd_ok : ∀ r ∈ repsOdd, Hpack.okRep r := by
  intro r hr
  simp only [repsOdd, List.mem_cons, List.not_mem_nil, or_false] at hr
  rcases hr with rfl | rfl | rfl | rfl
  · exact by unfold Hpack.okRep; decide
  · exact by unfold Hpack.okRep; decide
  · exact ⟨by decide, by decide, by decide, by simp⟩
  · exact ⟨by decide, by decide, by decide, by simp⟩

theorem odd_talk (w : Nat) : Talk (negotiating Nego.sampleSite2) H2Trip.sampleConn 4096 4 (Client.fresh w) [oddFrame] [odd w] :=
  .next _ _ _ _ [_] _ (.bare _ [(b!":path", b!"/f?a=1")] _ _ _ _ (odd w) 0 _
    ⟨odd_sound, odd_garbled, rfl, ⟨⟨by simp [H2Trip.sampleInc, repsOdd], by simp [H2Trip.sampleInc]⟩, repsOdd, [0], by simp [H2Trip.sampleInc, Buffer.Cursor.flat], by simp, rfl, by decide +kernel, repsOdd_ok, Or.inl rfl⟩,
      ⟨by show 1 < 2 ^ 31; decide, by show 0 < 1024; decide, rfl, by decide, by decide, H2Trip.sample_takes _ (by decide)⟩⟩
    ⟨[], repsOdd.flatMap Hpack.Rep.wire, Or.inl rfl, rfl, H2Wire.place_holds 1 5 1 _ (by decide) (by decide +kernel), H2Wire.place_behind _ _ _ [] _⟩
    (by show 0 < 1; decide) (by show 1 % 2 = 1; decide) rfl rfl ⟨rfl, rfl, rfl, rfl⟩ rfl) (.done _)

/-- The first frame of a client that gives no window. -/
def shut : Arrival := H2Wire.arrival (H2Wire.place 4 0 0 (H2.wireSettings [(4, 0)]))

example (g : Hpack.DNode) (stamp : Bytes) (hst : Tidy stamp) : ∃ l os bs,
    run (negotiating Nego.sampleSite2) H2Trip.sampleConn (Link.init 4 g 4096) [shut, oddFrame] = some (l, os, [(1, bs)]) ∧
      (odd 0).Answered (negotiating Nego.sampleSite2) H2Trip.sampleConn bs ∧
      logged (negotiating Nego.sampleSite2) H2Trip.sampleConn ends (Link.init 4 g 4096) [shut, oddFrame] [stamp] = some [] :=
  C200_closed_window_refuted Nego.sampleSite2 Nego.sampleSite_written H2Trip.sampleConn (by decide) 4 g 4096 shut [(4, 0)]
    (H2Wire.place_holds _ _ _ _ (by decide) (by decide)) (by unfold Setting; decide) (Or.inr ⟨[], [], rfl, by simp⟩) _ _ (odd_talk 0) ends askOdd rfl stamp hst

/-- The query is cut off, with some of the version. -/
example : cutLine (odd 65535) = b!"GET /f?a=1 HT" ∧ lineOf (odd 65535) = b!"GET /f?a=1 HTTP/2" := by decide +kernel

theorem odd_brief : Brief ends (odd 65535) ∧ ∀ q, askOf (odd 65535) = some q → q.query ≠ none :=
  ⟨⟨⟨_, rfl⟩, by unfold Fits; decide +kernel, by show (0 : Int) < 65535; decide, by show (0 : Int) < 65535; decide⟩, by intro q hq; cases hq; simp [askOdd]⟩

example (g : Hpack.DNode) (stamp : Bytes) (hst : Tidy stamp) : ∃ l os rs text,
    run (negotiating Nego.sampleSite2) H2Trip.sampleConn (Link.init 4 g 4096) [H2Wire.hello, oddFrame] = some (l, os, rs) ∧
      logged (negotiating Nego.sampleSite2) H2Trip.sampleConn ends (Link.init 4 g 4096) [H2Wire.hello, oddFrame] [stamp] = some text ∧
      Each (fun p line => ∃ code phrase, (code, phrase) ∈ statuses ∧ Told H2Trip.sampleConn p.1.1.inc.sid p.2 code ∧ line = record ends p.1.2 (cutLine p.1.1) code phrase ∧
        line ≠ record ends p.1.2 (lineOf p.1.1) code phrase) (([odd 65535].zip [stamp]).zip (rs.map (·.2))) (Log.readLines text) := by
  obtain ⟨l, os, rs, text, r1, _, _, r4, r5⟩ := C200_query_refuted Nego.sampleSite2 Nego.sampleSite_written H2Trip.sampleConn (by decide) 4 g 4096 H2Wire.hello _
    H2Wire.hello_holds (by unfold Setting; decide) 65535 (Or.inr ⟨[], [(5, 16384)], rfl, by decide⟩) _ _ (odd_talk 65535) ends ⟨by unfold Tidy; decide, by unfold Tidy; decide, by unfold Tidy; decide, by unfold Tidy; decide⟩
    (by intro x hx; simp only [List.mem_singleton] at hx; subst hx; exact odd_brief) [stamp] rfl (by intro t ht; simp only [List.mem_singleton] at ht; subst ht; exact hst)
  exact ⟨l, os, rs, text, r1, r4, r5⟩

end Fly.H2Access
