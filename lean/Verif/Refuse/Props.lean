import Verif.Refuse.Lemmas

/-! # C196: refused requests -/

namespace Fly.Refuse
open ReqEvent (Msg Rcv Env Reply St Plain dataOf)
open Header (Pairs HList HField)
open Site (Site)
open Trip (Seen CfgOk Readable Each client WrittenPath)
open Nego (negotiating told h1 Wish Says)
open H2R (pairs)
open Keep (End next)

/-! ## Garbled fields -/

theorem too_fine {f : Lang.Field} {fs : Pairs} (h : TooFine f fs) : Lang.accept f.code fs = .badRequest := by
  obtain ⟨n, rest, ds, h1, h2, h3, h4, h5⟩ := h
  exact Lang.C74_many_decimals_refused f n rest ds h1 h2 h3 h4 fs h5

theorem msg_lang (m : Msg) : H2R.negoLang m.header.items = H2R.langRes (Lang.accept Lang.lang (told m)) := by
  have hh := Nego.told_holds m
  unfold H2R.negoLang
  rw [hh]
  split
  · next n hf =>
    have hm := List.mem_of_find?_eq_some hf
    unfold ReqEvent.Msg.header ReqHeader.cells at hm
    simp only [List.mem_map] at hm
    obtain ⟨p, _, e⟩ := hm
    cases e
  · rfl

theorem garbled_bad (m : Msg) (h : Garbled (told m)) : h1 m.header = .syntaxError := by
  obtain ⟨w, c1, c2, m1, m2, ht⟩ := h
  have hh := Nego.told_holds m
  have e1 := (Nego.encoding_step hh c1).1 c2
  have e2 := (Nego.media_step hh m1).1 m2
  have e3 : H2R.negoCharset m.header.items = H2R.langRes (Lang.accept Lang.charset (told m)) := by
    unfold H2R.negoCharset; rw [hh]
  have key : H2R.nego m.header.items = .bad := by
    unfold H2R.nego
    rcases ht with ht | ⟨t1, t2, ht⟩
    · have := too_fine ht
      simp only [Lang.Field.code] at this
      simp only [e1, e2, e3, this, H2R.langRes]
    · have t3 := (Nego.tags_step .charset _ t1).1 t2
      simp only [Lang.Field.code] at t3
      have := too_fine ht
      simp only [Lang.Field.code] at this
      rw [← e3] at t3
      simp only [e1, e2, t3, msg_lang, this]
      rfl
  unfold h1
  rw [key]

/-! ## Steps -/

theorem writeAll_step (s : Site) (mem : Nat → Nat) {q : Reply} {r : Reply × Bool} {l : List (Reply × Reply × Bool)} {now : Bytes → Bytes} {bs : Bytes}
    (h : bytes s now mem q r = some bs) (blocked room : Nat) (hl : bs.length ≤ room) (ns : List (Bytes → Bytes)) (ss : List (List Send.Sys)) :
    writeAll s mem ((q, r) :: l) (now :: ns) ((List.replicate blocked .block ++ [.sent room]) :: ss) = bs ++ writeAll s mem l ns ss := by
  have hw := Send.C16_h1_exactly_once_partial bs blocked room hl []
  simp only [writeAll, List.headD_cons, h, hw, List.tail_cons]

theorem bytes_site {s : Site} {now : Bytes → Bytes} {mem : Nat → Nat} {q r : Reply} {bs : Bytes} (h : s.bytes now mem q r = some bs) (b : Bool) :
    bytes s now mem q (r, b) = some bs := by
  unfold bytes
  split
  · next e =>
    cases e
    exfalso
    unfold Site.bytes at h
    cases q <;> simp [Trip.App.bytes, Site.full] at h
  · next e =>
    cases e
    exfalso
    unfold Site.bytes at h
    cases q <;> simp [Trip.App.bytes, Site.full] at h
  · next e =>
    cases e
    exfalso
    unfold Site.bytes at h
    cases q <;> simp [Trip.App.bytes, Site.full] at h
  · next r' b' _ _ _ e =>
    cases e
    exact h

theorem own_shown (s : Site) (hc : CfgOk s.app.cfg0) {n : Nat} {line : Bytes} (hline : Response.statusLine .v1_1 n = some (line ++ [13, 10])) (hcr : 13 ∉ line)
    (hd : s.app.cfg0.dflt n = none) (conn : Bytes) (hconn : 13 ∉ conn) (hlen : line.length + conn.length ≤ 142) :
    ∃ bs, own s n conn = some bs ∧ bs.length ≤ room s ∧ Readable bs (short s line conn) := by
  obtain ⟨h, buf, e1, e2, e3, e4⟩ := own_wire s.app.cfg0 hc hline hcr hd conn hconn
  refine ⟨buf.bytes, ?_, ?_, e4⟩
  · unfold own; simp only [e1, e2, Option.map_some]
  · rw [e3]; unfold room; omega

/-- A request with fields the server does not understand. -/
theorem bad_step (s : Site) (hc : CfgOk s.app.cfg0) (hd : s.app.cfg0.dflt 400 = none) (m : Msg) (hg : m.Good) (hn : h1 m.header = .syntaxError) (hb : m.body = [])
    (he : Header.expect100 m.header = false) (rs : List Rcv) (ha : Keep.Arrives m rs) :
    ∃ bs, Readable bs (short s b!"HTTP/1.1 400 Bad Request" b!"keep-alive") ∧ bs.length ≤ room s ∧
      (∀ q now mem b, next (negotiating s).full.keeps b (.status 400) = .again → bytes (negotiating s) now mem q (.status 400, b) = some bs) ∧
      Keep.round (negotiating s).full.env (negotiating s).full.keeps rs.length St.init rs = ([.status 400], .open St.init) ∧
      Keep.round (Site.asked (negotiating s).full.env) (fun _ => true) rs.length St.init rs = ([.status 400], .open St.init) := by
  obtain ⟨bs, o1, o2, o3⟩ := own_shown (negotiating s) hc (n := 400) (line := b!"HTTP/1.1 400 Bad Request") (by decide +kernel) (by decide) hd b!"keep-alive" (by decide) (by decide)
  have hw : ∀ e : Env, e.nego = h1 → Keep.Whole e m ∧ ReqEvent.answer e m = .reply (.status 400) := by
    intro e hen
    refine ⟨⟨hg, Or.inr ⟨hb, by rw [hen, hn]; simp⟩, he, by rw [hb]; simp⟩, ?_⟩
    unfold ReqEvent.answer
    rw [hen, hn]
  obtain ⟨w1, a1⟩ := hw (negotiating s).full.env rfl
  obtain ⟨w2, a2⟩ := hw (Site.asked (negotiating s).full.env) rfl
  refine ⟨bs, o3, o2, ?_, Keep.round_whole _ _ _ w1 _ a1 _ ha, Keep.round_whole _ _ _ w2 _ a2 _ ha⟩
  intro q now mem b hb
  cases b with
  | true => exact absurd hb (by simp [next])
  | false => exact o1

/-- A response after which the connection goes on. -/
theorem kept_read (s : Site) (mem : Nat → Nat) {rs : List Rcv} {q r : Reply} {b b' : Bool} {bs : Bytes} {now : Bytes → Bytes} {blocked room : Nat}
    (g3 : bytes s now mem q (r, b) = some bs) (g5 : bs.length ≤ room)
    (h1 : round s.full.env s.full.keeps rs.length St.init rs = ([(r, b)], .open St.init))
    (h3 : round (Site.asked s.full.env) (fun _ => true) rs.length St.init rs = ([(q, b')], .open St.init)) (rounds : List (List Rcv))
    (ns : List (Bytes → Bytes)) (ss : List (List Send.Sys)) :
    received s mem (rs :: rounds) (now :: ns) ((List.replicate blocked .block ++ [.sent room]) :: ss) = bs ++ received s mem rounds ns ss ∧
      after s (rs :: rounds) = after s rounds := by
  constructor
  · unfold received
    rw [session, session, h1, h3]
    simp only [List.singleton_append, List.zip_cons_cons, List.map_cons]
    exact writeAll_step _ mem g3 _ _ g5 ns ss
  · unfold after
    rw [session, h1]

/-- The events for a request after which the connection goes on. -/
theorem step_round (s : Site) (hr : ∀ x ∈ s.app.routes, WrittenPath x.1) (mem : Nat → Nat) (hc : CfgOk s.app.cfg0) (hd : s.app.cfg0.dflt 400 = none)
    (t : Step) (ht : t.Proper (negotiating s) mem) :
    ∃ q r b b' bs o, Readable bs o ∧ t.Shown (negotiating s) o ∧ bytes (negotiating s) t.now mem q (r, b) = some bs ∧
      (∃ blocked room, t.writes = List.replicate blocked .block ++ [.sent room] ∧ bs.length ≤ room) ∧
      round (negotiating s).full.env (negotiating s).full.keeps t.pieces.length St.init t.pieces = ([(r, b)], .open St.init) ∧
      round (Site.asked (negotiating s).full.env) (fun _ => true) t.pieces.length St.init t.pieces = ([(q, b')], .open St.init) ∧
      next (negotiating s).full.keeps b r = .again := by
  have key : ∃ q r bs o, Readable bs o ∧ t.Shown (negotiating s) o ∧ (∀ b, next (negotiating s).full.keeps b r = .again → bytes (negotiating s) t.now mem q (r, b) = some bs) ∧
      (∃ blocked room, t.writes = List.replicate blocked .block ++ [.sent room] ∧ bs.length ≤ room) ∧
      Keep.round (negotiating s).full.env (negotiating s).full.keeps t.pieces.length St.init t.pieces = ([r], .open St.init) ∧
      Keep.round (Site.asked (negotiating s).full.env) (fun _ => true) t.pieces.length St.init t.pieces = ([q], .open St.init) := by
    cases t with
    | turn t =>
      obtain ⟨q, r, bs, o, g1, g2, g3, g4, g5, g6⟩ := Nego.turn_step s hr mem t ht
      exact ⟨q, r, bs, o, g1, g2, fun b _ => bytes_site g3 b, ⟨_, _, rfl, g4⟩, g5, g6⟩
    | garbled m rs blocked room =>
      obtain ⟨t1, t2, t3, t4, t5, t6⟩ := ht
      obtain ⟨bs, b1, b2, b3, b4, b5⟩ := bad_step s hc hd m t1 (garbled_bad m t2) t3 t4 rs t5
      exact ⟨.status 400, .status 400, bs, _, b1, rfl, b3 _ _ _, ⟨_, _, rfl, Nat.le_trans b2 t6⟩, b4, b5⟩
  obtain ⟨q, r, bs, o, g1, g2, g3, g4, g6, g7⟩ := key
  obtain ⟨b, h1, h2⟩ := round_again _ _ _ _ _ _ _ g6
  obtain ⟨b', h3, _⟩ := round_again _ _ _ _ _ _ _ g7
  exact ⟨q, r, b, b', bs, o, g1, g2, g3 b h2, g4, h1, h3, h2⟩

/-- The response to a request after which the connection goes on. -/
theorem step_read (s : Site) (hr : ∀ x ∈ s.app.routes, WrittenPath x.1) (mem : Nat → Nat) (hc : CfgOk s.app.cfg0) (hd : s.app.cfg0.dflt 400 = none)
    (t : Step) (ht : t.Proper (negotiating s) mem) :
    ∃ bs o, Readable bs o ∧ t.Shown (negotiating s) o ∧ ∀ rounds ns ss,
      received (negotiating s) mem (t.pieces :: rounds) (t.now :: ns) (t.writes :: ss) = bs ++ received (negotiating s) mem rounds ns ss ∧
      after (negotiating s) (t.pieces :: rounds) = after (negotiating s) rounds := by
  obtain ⟨q, r, b, b', bs, o, g1, g2, g3, ⟨blocked, room, g4, g5⟩, g6, g7, _⟩ := step_round s hr mem hc hd t ht
  refine ⟨bs, o, g1, g2, fun rounds ns ss => ?_⟩
  rw [g4]
  exact kept_read _ mem g3 g5 g6 g7 rounds ns ss

/-- The events for what ends a connection. -/
theorem offence_round (s : Site) (mem : Nat → Nat) (hc : CfgOk s.app.cfg0) (hd : s.app.cfg0.dflt 400 = none) (hd' : s.app.cfg0.dflt 413 = none) (x : Offence)
    (hx : x.Proper (negotiating s)) (rs : List Rcv) (hp : Plain rs) (ht : dataOf rs = x.text) :
    ∃ q b b' n, round (negotiating s).full.env (negotiating s).full.keeps rs.length St.init rs = ([(.status n, b)], .closed) ∧
      round (Site.asked (negotiating s).full.env) (fun _ => true) rs.length St.init rs = ([(q, b')], .closed) ∧
      ((∃ y more, x = .line y more) → b = true) ∧ ((∃ m, x = .long m) → n = 413) ∧
      ∀ now, ∃ bs, bytes (negotiating s) now mem q (.status n, b) = some bs ∧ bs.length ≤ room s ∧ Readable bs (short s x.status b!"close") := by
  cases x with
  | line x more =>
    obtain ⟨x1, x2, x3⟩ := hx
    obtain ⟨bs, o1, o2, o3⟩ := own_shown (negotiating s) hc (n := 400) (line := b!"HTTP/1.1 400 Bad Request") (by decide +kernel) (by decide) hd b!"close" (by decide) (by decide)
    exact ⟨_, true, _, 400, round_line _ _ x more x1 x2 x3 rs hp ht, round_line _ _ x more x1 x2 x3 rs hp ht, fun _ => rfl, (by rintro ⟨m, h⟩; cases h), fun _ => ⟨bs, o1, o2, o3⟩⟩
  | long m =>
    obtain ⟨x1, ⟨w, x2, x3⟩, x4, x5⟩ := hx
    have hn := (Nego.h1_says x2).1 x3
    obtain ⟨bs, o1, o2, o3⟩ := own_shown (negotiating s) hc (n := 413) (line := b!"HTTP/1.1 413 Payload Too Large") (by decide +kernel) (by decide) hd' b!"close" (by decide) (by decide)
    have hs : ∀ e : Env, e.nego = h1 → e.maxLen = s.app.maxLen → ReqEvent.serve e rs.length St.init rs = .reply (.status 413) := by
      intro e he hl
      have x5 : s.app.maxLen < m.body.length := x5
      have := ReqEvent.C50_limit_decides_partial e m x1 rs hp ht (by rw [he]; exact hn) x4 (by rintro h0; rw [h0] at x5; simp at x5)
      rw [if_neg (by omega)] at this
      exact this
    obtain ⟨b, b1⟩ := round_last _ (negotiating s).full.keeps (.status 413) (by intro b; cases b <;> rfl) _ _ _ (hs (negotiating s).full.env rfl rfl)
    obtain ⟨b', b2⟩ := round_last _ (fun _ => true) (.status 413) (by intro b; cases b <;> rfl) _ _ _ (hs (Site.asked (negotiating s).full.env) rfl rfl)
    refine ⟨_, b, b', 413, b1, b2, (by rintro ⟨y, more, h⟩; cases h), fun _ => rfl, fun _ => ⟨bs, ?_, o2, o3⟩⟩
    unfold bytes
    exact o1

/-- The response to what ends a connection. -/
theorem offence_read (s : Site) (mem : Nat → Nat) (hc : CfgOk s.app.cfg0) (hd : s.app.cfg0.dflt 400 = none) (hd' : s.app.cfg0.dflt 413 = none) (x : Offence)
    (hx : x.Proper (negotiating s)) (rs : List Rcv) (hp : Plain rs) (ht : dataOf rs = x.text) (blocked r : Nat) (hrm : room s ≤ r) (rounds : List (List Rcv))
    (ns : List (Bytes → Bytes)) (ss : List (List Send.Sys)) :
    Readable (received (negotiating s) mem (rs :: rounds) ns ((List.replicate blocked .block ++ [.sent r]) :: ss)) (short s x.status b!"close") ∧
      after (negotiating s) (rs :: rounds) = .closed := by
  obtain ⟨q, b, b', n, h1, h2, _, _, h3⟩ := offence_round s mem hc hd hd' x hx rs hp ht
  constructor
  · obtain ⟨bs, e1, e2, e3⟩ := h3 (ns.headD fun _ => [])
    have hw := Send.C16_h1_exactly_once_partial bs blocked r (Nat.le_trans e2 hrm) []
    have : received (negotiating s) mem (rs :: rounds) ns ((List.replicate blocked .block ++ [.sent r]) :: ss) = bs := by
      unfold received
      rw [session, session, h1, h2]
      simp only [List.zip_cons_cons, List.map_cons, List.zip_nil_right, List.map_nil, writeAll, List.headD_cons, e1, hw, List.append_nil]
    rw [this]
    exact e3
  · unfold after
    rw [session, h1]

/-! ## Whole connections -/

theorem steps_read (s : Site) (hr : ∀ x ∈ s.app.routes, WrittenPath x.1) (mem : Nat → Nat) (hc : CfgOk s.app.cfg0) (hd : s.app.cfg0.dflt 400 = none)
    (ts : List Step) (h : ∀ t ∈ ts, t.Proper (negotiating s) mem) :
    ∃ bufs os, Each Readable bufs os ∧ Each (Step.Shown (negotiating s)) ts os ∧ ∀ rounds ns ss,
      received (negotiating s) mem (ts.map (·.pieces) ++ rounds) (ts.map (·.now) ++ ns) (ts.map (·.writes) ++ ss) = bufs.flatten ++ received (negotiating s) mem rounds ns ss ∧
      after (negotiating s) (ts.map (·.pieces) ++ rounds) = after (negotiating s) rounds := by
  induction ts with
  | nil => exact ⟨[], [], .nil, .nil, fun _ _ _ => ⟨rfl, rfl⟩⟩
  | cons t ts ih =>
    obtain ⟨bufs, os, i1, i2, i3⟩ := ih fun x hx => h x (by simp [hx])
    obtain ⟨bs, o, h1, h2, h3⟩ := step_read s hr mem hc hd t (h t (by simp))
    refine ⟨bs :: bufs, o :: os, .cons h1 i1, .cons h2 i2, fun rounds ns ss => ?_⟩
    simp only [List.map_cons, List.cons_append, List.flatten_cons, List.append_assoc]
    obtain ⟨j1, j2⟩ := h3 (ts.map (·.pieces) ++ rounds) (ts.map (·.now) ++ ns) (ts.map (·.writes) ++ ss)
    obtain ⟨k1, k2⟩ := i3 rounds ns ss
    exact ⟨by rw [j1, k1], by rw [j2, k2]⟩

theorem each_snoc {α β : Type} {R : α → β → Prop} {l : List α} {m : List β} (h : Each R l m) {a : α} {b : β} (hab : R a b) : Each R (l ++ [a]) (m ++ [b]) := by
  induction h with
  | nil => exact .cons hab .nil
  | cons h _ ih => exact .cons h ih

/-- **C196** *(partial)*, connections that go on.  Requests whose fields are against the rules (a weight with more than three decimals for a character set or language)
and that have no content are answered 400, without a function having been called, and cost the client nothing else: the requests before and behind them, in any
number, get their responses in order, and the connection stays open.  Missing: other wrong fields, some of which are taken as right (C27, C29, C74), and requests with
content (C115). -/
theorem C196_bad_fields_partial (s : Site) (hr : ∀ x ∈ s.app.routes, WrittenPath x.1) (mem : Nat → Nat) (hc : CfgOk s.app.cfg0) (hd : s.app.cfg0.dflt 400 = none)
    (ts : List Step) (h : ∀ t ∈ ts, t.Proper (negotiating s) mem) :
    ∃ os, client (received (negotiating s) mem (ts.map (·.pieces)) (ts.map (·.now)) (ts.map (·.writes))) = some os ∧
      Each (Step.Shown (negotiating s)) ts os ∧ after (negotiating s) (ts.map (·.pieces)) = .open St.init := by
  obtain ⟨bufs, os, h1, h2, h3⟩ := steps_read s hr mem hc hd ts h
  obtain ⟨k1, k2⟩ := h3 [] [] []
  simp only [List.append_nil] at k1 k2
  refine ⟨os, ?_, h2, by rw [k2]; rfl⟩
  rw [k1]
  show client (bufs.flatten ++ []) = _
  rw [List.append_nil]
  exact Trip.client_all bufs os h1

/-- **C196**, connections that end.  Behind any number of requests the client sends, in any pieces, something that is no request line, or a request with more content
than allowed.  The client reads all responses to the requests before, and then exactly one more: 400 or 413, with `Connection: close`; then the connection is closed.
What was sent behind it (`more`, `rounds`) has no effect. -/
theorem C196_connection_ends (s : Site) (hr : ∀ x ∈ s.app.routes, WrittenPath x.1) (mem : Nat → Nat) (hc : CfgOk s.app.cfg0) (hd : s.app.cfg0.dflt 400 = none)
    (hd' : s.app.cfg0.dflt 413 = none) (ts : List Step) (h : ∀ t ∈ ts, t.Proper (negotiating s) mem) (x : Offence) (hx : x.Proper (negotiating s)) (rs : List Rcv)
    (hp : Plain rs) (ht : dataOf rs = x.text) (blocked r : Nat) (hrm : room s ≤ r) (rounds : List (List Rcv)) (ns : List (Bytes → Bytes)) (ss : List (List Send.Sys)) :
    ∃ os, client (received (negotiating s) mem (ts.map (·.pieces) ++ rs :: rounds) (ts.map (·.now) ++ ns)
        (ts.map (·.writes) ++ (List.replicate blocked .block ++ [.sent r]) :: ss)) = some (os ++ [short s x.status b!"close"]) ∧
      Each (Step.Shown (negotiating s)) ts os ∧ after (negotiating s) (ts.map (·.pieces) ++ rs :: rounds) = .closed := by
  obtain ⟨bufs, os, h1, h2, h3⟩ := steps_read s hr mem hc hd ts h
  obtain ⟨k1, k2⟩ := h3 (rs :: rounds) ns ((List.replicate blocked .block ++ [.sent r]) :: ss)
  obtain ⟨o1, o2⟩ := offence_read s mem hc hd hd' x hx rs hp ht blocked r hrm rounds ns ss
  refine ⟨os, ?_, h2, by rw [k2, o2]⟩
  rw [k1]
  have := Trip.client_all _ _ (each_snoc h1 o1)
  rw [List.flatten_append, List.flatten_singleton] at this
  exact this

/-- A client that says of a media type it takes it with quality 1, as RFC 9110 allows, gets 400 from every site for every request, and never what it asked for. -/
theorem C195_quality_one_refuted (s : Site) (mem : Nat → Nat) (hc : CfgOk s.app.cfg0) (hd : s.app.cfg0.dflt 400 = none) (m : Msg) (hg : m.Good) (hb : m.body = [])
    (he : Header.expect100 m.header = false) (w : Wish) (hw : Nego.SaysCodings (told m) w.codings) (hw' : SomeCoding w) (l : List (Mime.Range × Bytes)) (t : Mime.Media)
    (g rest : Bytes) (hl : Mime.PrefixOk l) (ht : t.Ok) (hgb : Mime.Blanks g)
    (hf : Mime.FirstAccept (Mime.prefixText l ++ t.text ++ 59 :: (g ++ b!"q=1" ++ rest)) (told m)) (rs : List Rcv) (ha : Keep.Arrives m rs)
    (now : Bytes → Bytes) (blocked r : Nat) (hrm : room s ≤ r) :
    client (received (negotiating s) mem [rs] [now] [List.replicate blocked .block ++ [.sent r]]) = some [short s b!"HTTP/1.1 400 Bad Request" b!"keep-alive"] := by
  have hn : h1 m.header = .syntaxError := by
    have hh := Nego.told_holds m
    have e1 := (Nego.encoding_step hh hw).1 hw'
    have e2 : H2R.negoMime m.header.items = .bad := by
      unfold H2R.negoMime
      have : m.header.items.filter (fun f => f.value.isSome) = m.header.items := by
        rw [List.filter_eq_self]
        intro f hf
        unfold ReqEvent.Msg.header ReqHeader.cells at hf
        simp only [List.mem_map] at hf
        obtain ⟨p, _, rfl⟩ := hf
        rfl
      rw [this, hh, Mime.C29_quality_one_refuted l t g rest hl ht hgb _ (by simpa using hf)]
    unfold h1 H2R.nego
    simp only [e1, e2]
  obtain ⟨bs, b1, b2, b3, b4, b5⟩ := bad_step s hc hd m hg hn hb he rs ha
  obtain ⟨c, h1, h2⟩ := round_again _ _ _ _ _ _ _ b4
  obtain ⟨c', h3, _⟩ := round_again _ _ _ _ _ _ _ b5
  have := (kept_read (negotiating s) mem (b3 _ now mem _ h2) (Nat.le_trans b2 hrm) h1 h3 [] [] [] (blocked := blocked)).1
  rw [this]
  show client (bs ++ []) = _
  have hc := Trip.client_all [bs] _ (.cons b1 .nil)
  simpa using hc

/-! ## The hypotheses are met -/

/-- The site of C195, with a limit of four bytes for contents. -/
def sampleSite : Site := { Nego.sampleSite with app := { Nego.sampleSite.app with maxLen := 4 } }

/-- A client that weighs a language with four decimals, and one that takes HTML with quality 1. -/
def fineMsg : Msg := Nego.sampleMsg b!"/f" [(b!"Host", b!"h"), (b!"Accept-Language", b!"en;q=0.1234")]
def oneMsg : Msg := Nego.sampleMsg b!"/f" [(b!"Host", b!"h"), (b!"Accept", b!"text/html;q=1")]

theorem fine_good : fineMsg.Good :=
  Nego.sample_good _ (Or.inl rfl) _ (by simp) (by unfold ReqHeader.NameByte ReqHeader.ValueByte ReqHeader.Blank; decide) (by decide) (by decide +kernel)

theorem one_good : oneMsg.Good :=
  Nego.sample_good _ (Or.inl rfl) _ (by simp) (by unfold ReqHeader.NameByte ReqHeader.ValueByte ReqHeader.Blank; decide) (by decide) (by decide +kernel)

theorem fine_garbled : Garbled (told fineMsg) := by
  refine ⟨.nothing, (by decide : ∀ x ∈ told fineMsg, ¬ b!"accept-encoding" <+: x.1), (by rintro es ⟨⟩),
    (by decide : ∀ x ∈ told fineMsg, x.1 ≠ b!"Accept" ∧ x.1 ≠ b!"accept"), (by rintro es ⟨⟩),
    Or.inr ⟨(by decide : ∀ x ∈ told fineMsg, x.1 ≠ Lang.Field.charset.name), (by rintro es ⟨⟩), b!"en", [], [1, 2, 3, 4], ?_, by decide, by decide, by decide, [(b!"host", b!"h")], [], by decide, by decide⟩⟩
  unfold Lang.NameChar; decide

theorem turn_proper : (Nego.sampleTurn Nego.browserFields Nego.browserWish).Proper (negotiating sampleSite) Site.sampleMem :=
  let h := Nego.sampleTurn_proper Nego.browserFields Nego.browserWish Nego.browser_good (Nego.browser_says _) (by decide +kernel) (by decide) (by decide +kernel)
  ⟨h.good, h.says, h.plain, Nat.zero_le _, h.arrives, h.served, h.refused, h.fitting⟩

def sampleSteps : List Step :=
  [.garbled fineMsg [.data fineMsg.text false] 2 1000, .turn (Nego.sampleTurn Nego.browserFields Nego.browserWish), .garbled fineMsg [.data (fineMsg.text.take 9) false, .data (fineMsg.text.drop 9) false] 0 1000]

theorem sampleSteps_proper : ∀ t ∈ sampleSteps, t.Proper (negotiating sampleSite) Site.sampleMem := by
  intro t ht
  simp only [sampleSteps, List.mem_cons, List.not_mem_nil, or_false] at ht
  rcases ht with rfl | rfl | rfl
  · exact ⟨fine_good, fine_garbled, rfl, by decide +kernel, ⟨by simp [Plain]; decide, by decide⟩, by decide⟩
  · exact turn_proper
  · exact ⟨fine_good, fine_garbled, rfl, by decide +kernel, ⟨by simp [Plain]; decide, by decide⟩, by decide⟩

theorem teapot_not : ¬ ∃ r, Req.Accepted b!"BREW /pot-1 HTCPCP/1.0" r := by
  rintro ⟨r, h⟩
  have h1 := ((Req.C22_accepted_iff_partial (b!"BREW /pot-1 HTCPCP/1.0" ++ b!"\r\n")).1 r).2 ⟨_, [], by simp, h⟩
  have h2 : Req.parseReqline (b!"BREW /pot-1 HTCPCP/1.0" ++ b!"\r\n") = .bad := by decide +kernel
  rw [h2] at h1
  cases h1

example : CfgOk sampleSite.app.cfg0 ∧ sampleSite.app.cfg0.dflt 400 = none ∧ sampleSite.app.cfg0.dflt 413 = none ∧ (∀ x ∈ sampleSite.app.routes, WrittenPath x.1) ∧
    (Offence.line b!"BREW /pot-1 HTCPCP/1.0" b!"Host: h\r\n\r\n").Proper (negotiating sampleSite) ∧ (Offence.long ReqEvent.sample).Proper (negotiating sampleSite) := by
  refine ⟨Trip.sampleCfg_ok, rfl, rfl, Nego.sampleSite_written, ⟨by decide, by decide, teapot_not⟩, ReqEvent.sample_good, ⟨.nothing, Nego.says_nothing (by decide), Nego.nothing_met⟩, by decide +kernel, by decide⟩

instance : DecidableEq Seen := inferInstanceAs (DecidableEq (Bytes × Pairs × Bytes))

/-- What two clients read. -/
example : client (received (negotiating sampleSite) Site.sampleMem [[.data fineMsg.text false], [.data b!"BREW /pot-1 HTCPC" false, .block, .data b!"P/1.0\r\nHost" false], [.data fineMsg.text false]]
        [fun _ => [], fun _ => [], fun _ => []] [[.sent 1000], [.block, .sent 1000], [.sent 1000]]) =
      some [short sampleSite b!"HTTP/1.1 400 Bad Request" b!"keep-alive", short sampleSite b!"HTTP/1.1 400 Bad Request" b!"close"] ∧
    client (received (negotiating sampleSite) Site.sampleMem [[.data (ReqEvent.sample.text.take 60) false, .data (ReqEvent.sample.text.drop 60) false], [.data fineMsg.text false]]
        [fun _ => [], fun _ => []] [[.sent 1000], [.sent 1000]]) =
      some [short sampleSite b!"HTTP/1.1 413 Payload Too Large" b!"close"] := by
  constructor <;> decide +kernel

example : Nego.SaysCodings (told oneMsg) Wish.nothing.codings ∧ SomeCoding .nothing ∧ Mime.PrefixOk [] ∧ (⟨b!"text", b!"html", []⟩ : Mime.Media).Ok ∧ Mime.Blanks [] ∧
    Header.expect100 oneMsg.header = false ∧
    Mime.FirstAccept (Mime.prefixText [] ++ (⟨b!"text", b!"html", []⟩ : Mime.Media).text ++ 59 :: ([] ++ b!"q=1" ++ [])) (told oneMsg) := by
  refine ⟨(by decide : ∀ x ∈ told oneMsg, ¬ b!"accept-encoding" <+: x.1), (by rintro es ⟨⟩), by simp [Mime.PrefixOk], ⟨by simp, ?_, by decide, by simp, ?_, by decide, by simp⟩, by simp [Mime.Blanks], by decide +kernel,
    [(b!"host", b!"h")], [], b!"accept", by decide, by simp, by decide⟩ <;> unfold Mime.Visible <;> decide

end Fly.Refuse
