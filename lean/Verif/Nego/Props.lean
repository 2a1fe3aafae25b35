import Verif.Nego.H1
import Verif.Nego.Turn2
import Verif.H2Site.Props

/-! # C195: a client gets what it takes, or 406 -/

namespace Fly.Nego
open ReqEvent (Msg Rcv Env Reply St)
open Header (Pairs HList)
open Site (Site received after)
open Trip (Seen CfgOk Readable Each client WrittenPath)
open H2R (pairs Holds)
open Encode (Named)
open H2Trip (Conn Takes Shows)
open Hpack (Entry)

/-! ## One turn -/

theorem writeAll_turn (s : Site) (mem : Nat → Nat) {q r : Reply} {l : List (Reply × Reply)} {now : Bytes → Bytes} {bs : Bytes} (h : s.bytes now mem q r = some bs)
    (blocked room : Nat) (hl : bs.length ≤ room) (ns : List (Bytes → Bytes)) (ss : List (List Send.Sys)) :
    Site.writeAll s mem ((q, r) :: l) (now :: ns) ((List.replicate blocked .block ++ [.sent room]) :: ss) = bs ++ Site.writeAll s mem l ns ss := by
  have hw := Send.C16_h1_exactly_once_partial bs blocked room hl []
  simp only [Site.writeAll, List.headD_cons, h, hw, List.tail_cons]

theorem session_turn (e : Env) (app : Reply → Bool) (m : Msg) (hw : Keep.Whole e m) (r : Reply) (ha : ReqEvent.answer e m = .reply r)
    (hn : Keep.next app false r = .again) (rs : List Rcv) (hr : Keep.Arrives m rs) (later : List (List Rcv)) :
    Keep.session e app St.init (rs :: later) = (r :: (Keep.session e app St.init later).1, (Keep.session e app St.init later).2) := by
  have h := Keep.round_whole e app m hw r ha rs hr
  rw [hn] at h
  rw [Keep.session, h]
  rfl

theorem coded_taken {w : Wish} {c : PyBridge.Cfg} (hname : c.encName = encName) (hdec : ∀ k, c.acc.decided = some k → ∃ c, encName k = Encode.nameOf c ∧ w.Takes c)
    (body : Bytes) (p : Bytes × Bytes)
    (hp : p ∈ (match Trip.coding c body with | some k => [(b!"Content-Encoding", c.encName k)] | none => [] : Pairs)) :
    ∃ k, p.2 = Encode.nameOf k ∧ w.Takes k := by
  cases hc : Trip.coding c body with
  | none => rw [hc] at hp; cases hp
  | some k =>
    rw [hc] at hp
    rcases List.mem_singleton.1 hp with rfl
    unfold Trip.coding at hc
    split at hc
    · obtain ⟨x, e, h⟩ := hdec k hc
      exact ⟨x, by rw [← e, ← hname], h⟩
    · cases hc

/-- Contents are in no coding the client does not take. -/
theorem shown_taken {s : Site} {x : Site.Exchange} {o : Seen} {w : Wish} (h : Site.Shown s x o) (hst : x.out.Stays) (hka : KeptAs w x.out)
    (hname : (s.app.cfg x.msg.header).encName = encName)
    (hdec : ∀ k, (s.app.cfg x.msg.header).acc.decided = some k → ∃ c, encName k = Encode.nameOf c ∧ w.Takes c)
    (hmat : ∀ k, (s.app.cfg x.msg.header).acc.matching k = true → (∀ c, code c = k → ¬ w.Refuses c) → ∃ c, encName k = Encode.nameOf c ∧ w.Takes c) :
    ∀ p ∈ o.2.1, p.1 = b!"Content-Encoding" → p ∈ own x.out ∨ ∃ k, p.2 = Encode.nameOf k ∧ w.Takes k := by
  obtain ⟨msg, pieces, now, blocked, room, out⟩ := x
  have other : ∀ {l : Pairs} {p : Bytes × Bytes}, p ∈ l → b!"Content-Encoding" ∉ l.map (·.1) → p.1 = b!"Content-Encoding" → False :=
    fun hp hl he => hl (he ▸ List.mem_map_of_mem hp)
  intro p hp he
  cases out with
  | app a =>
    cases a with
    | response code reason hs ct body =>
      obtain ⟨len, _, rfl⟩ := h
      simp only [List.mem_append] at hp
      rcases hp with ((hp | hp) | hp) | hp
      · exact Or.inl hp
      · exact (other (List.mem_filter.1 hp).1 (by simp) he).elim
      · exact Or.inr (coded_taken hname hdec body p hp)
      · exact (other hp (by simp [Site.fileFields]) he).elim
    | value v body =>
      obtain ⟨len, _, rfl⟩ := h
      simp only [List.mem_append] at hp
      rcases hp with (hp | hp) | hp
      · exact (other hp (by simp [Site.fileFields]) he).elim
      · exact Or.inr (coded_taken hname hdec body p hp)
      · exact (other hp (by simp [Site.fileFields]) he).elim
    | failed =>
      have h : o = _ := h
      rw [h] at hp
      exact (other hp (by simp [Site.fileFields]) he).elim
    | tooLong ret body => exact hst.elim
    | codedTooLong ret body => exact hst.elim
    | notFound =>
      have h : o = _ := h
      rw [h] at hp
      exact (other hp (by simp [Site.fileFields]) he).elim
  | file f =>
    obtain ⟨len, announced, body, _, hf, rfl⟩ := h
    rcases List.mem_append.1 hp with hp | hp
    · exact (other hp (by simp [Site.fileFields]) he).elim
    · rcases hf with ⟨rfl, _⟩ | ⟨k, hk, rfl, _⟩
      · cases hp
      · rcases List.mem_singleton.1 hp with rfl
        have : ∃ c, encName k = Encode.nameOf c ∧ w.Takes c := by
          rcases hk with ⟨h1, h2⟩ | h2
          · obtain ⟨⟨k', e⟩, g1, g2⟩ := Option.map_eq_some_iff.1 h1
            simp only at g2
            subst g2
            exact hmat k' h2 fun c hc => hka k' e c g1 hc
          · exact hdec k h2
        obtain ⟨c, e, h⟩ := this
        exact Or.inr ⟨c, by simp only [hname, e], h⟩
  | directory =>
    have h : o = _ := h
    rw [h] at hp
    exact (other hp (by simp [Site.fileFields]) he).elim
  | notAllowed =>
    obtain ⟨allow, _, rfl⟩ := h
    exact (other hp (by simp [Site.fileFields]) he).elim

/-- The events of a turn, and the bytes of the response. -/
theorem turn_step (s : Site) (hr : ∀ x ∈ s.app.routes, WrittenPath x.1) (mem : Nat → Nat) (t : Turn) (ht : t.Proper (negotiating s) mem) :
    ∃ q r bs o, Readable bs o ∧ t.Shown (negotiating s) o ∧ (negotiating s).bytes t.ask.now mem q r = some bs ∧ bs.length ≤ t.ask.room ∧
      Keep.round (negotiating s).full.env (negotiating s).full.keeps t.ask.pieces.length St.init t.ask.pieces = ([r], .open St.init) ∧
      Keep.round (Site.asked (negotiating s).full.env) (fun _ => true) t.ask.pieces.length St.init t.ask.pieces = ([q], .open St.init) := by
  obtain ⟨hok, hno⟩ := h1_says ht.says
  by_cases hm : t.wish.Met
  · obtain ⟨hmk, hst, hka⟩ := ht.served hm
    have hwi : Keep.Within (negotiating s).full.env t.ask.msg := ⟨ht.good, hok hm, ht.plain, ht.fits⟩
    obtain ⟨bs, o, e, hl, h1, h2, h3⟩ := Site.exchange_read (negotiating s) hr mem t.ask ⟨hwi, ht.arrives, hmk, ht.fitting⟩
    refine ⟨_, _, bs, o, h1, ⟨fun _ => ⟨h2, ?_⟩, fun h => absurd hm h⟩, e, hl, ?_, ?_⟩
    · have hdec : ∀ k, ((negotiating s).app.cfg t.ask.msg.header).acc.decided = some k → ∃ c, encName k = Encode.nameOf c ∧ t.wish.Takes c := by
        intro k hk
        refine decided_taken ht.says ?_
        rw [← told_holds]; exact hk
      have hmat : ∀ k, ((negotiating s).app.cfg t.ask.msg.header).acc.matching k = true → (∀ c, code c = k → ¬ t.wish.Refuses c) →
          ∃ c, encName k = Encode.nameOf c ∧ t.wish.Takes c := by
        intro k hk hn
        refine matching_taken ht.says ?_ hn
        rw [← told_holds]; exact hk
      exact shown_taken h2 hst hka rfl hdec hmat
    · have := Keep.round_arrives _ (negotiating s).full.keeps _ hwi _ ht.arrives
      rw [Keep.next_within _ _ _ hwi (h3 hst)] at this
      exact this
    · have := Keep.round_arrives _ (fun _ => true) _ (Site.within_asked hwi) _ ht.arrives
      rw [Keep.next_within _ _ _ (Site.within_asked hwi) (fun _ _ _ _ _ => rfl)] at this
      exact this
  · obtain ⟨hb, hc, hd⟩ := ht.refused hm
    have hn : h1 t.ask.msg.header = .notAcceptable := hno hm
    have hne : ReqEvent.Nego.notAcceptable ≠ .error := by simp
    have hwh : Keep.Whole (negotiating s).full.env t.ask.msg := ⟨ht.good, Or.inr ⟨hb, by show h1 _ ≠ _; rw [hn]; exact hne⟩, ht.plain, ht.fits⟩
    have hwa : Keep.Whole (Site.asked (negotiating s).full.env) t.ask.msg := ⟨ht.good, Or.inr ⟨hb, by show h1 _ ≠ _; rw [hn]; exact hne⟩, ht.plain, ht.fits⟩
    have ans : ∀ e : Env, e.nego = h1 → ReqEvent.answer e t.ask.msg = .reply (.status 406) := by
      intro e he
      unfold ReqEvent.answer
      rw [he, hn]
    have a1 := ans (negotiating s).full.env rfl
    have a2 := ans (Site.asked (negotiating s).full.env) rfl
    obtain ⟨h, buf, e1, e2, hrd⟩ := Trip.own_read (negotiating s).app.cfg0 hc (n := 406) (line := b!"HTTP/1.1 406 Not Acceptable") (by decide +kernel) (by decide) hd
    have hbuf : (negotiating s).full.bytes (.status 406) = some buf := by
      have e1 : PyBridge.serverHeader (negotiating s).full.cfg0.date b!"keep-alive" = some h := e1
      have e2 : PyBridge.send (negotiating s).full.cfg0 (some 406) h none = some buf := e2
      unfold Trip.App.bytes
      simp only [or_true, if_true, e1, e2]
    have hby : ∀ q, (negotiating s).bytes t.ask.now mem q (.status 406) = some buf.bytes := fun q => Site.bytes_app _ _ _ _ _ _ hbuf
    refine ⟨.status 406, .status 406, buf.bytes, _, hrd, ⟨fun h => absurd h hm, fun _ => rfl⟩, hby _, ht.fitting none _ _ a1 (hby _), ?_, ?_⟩
    · exact Keep.round_whole _ _ _ hwh _ a1 _ ht.arrives
    · exact Keep.round_whole _ _ _ hwa _ a2 _ ht.arrives

/-- The response to a turn, and the connection after it. -/
theorem turn_read (s : Site) (hr : ∀ x ∈ s.app.routes, WrittenPath x.1) (mem : Nat → Nat) (t : Turn) (ht : t.Proper (negotiating s) mem) :
    ∃ bs o, Readable bs o ∧ t.Shown (negotiating s) o ∧ ∀ rounds ns ss,
      received (negotiating s) mem (t.ask.pieces :: rounds) (t.ask.now :: ns) (t.ask.writes :: ss) = bs ++ received (negotiating s) mem rounds ns ss ∧
      after (negotiating s) (t.ask.pieces :: rounds) = after (negotiating s) rounds := by
  obtain ⟨q, r, bs, o, h1, h2, h3, h4, h5, h6⟩ := turn_step s hr mem t ht
  refine ⟨bs, o, h1, h2, fun rounds ns ss => ⟨?_, ?_⟩⟩
  · unfold received
    rw [Keep.session, Keep.session, h5, h6]
    simp only [List.singleton_append, List.zip_cons_cons]
    exact writeAll_turn _ mem h3 _ _ h4 ns ss
  · unfold after
    rw [Keep.session, h5]

/-- **C195** *(partial)*.  A client sends any number of requests over an HTTP/1.1 connection, each in any pieces, each when it has the response to the one before.  Each
says, as far as it likes, which content codings, media types, character sets and languages the client takes.  The client reads, for all of them and in order: the
function's response or the file, never in a content coding it does not take (unless the application itself announces one); or 406, without a function having been called,
if it refuses all codings or all media types or all character sets or all languages it speaks of.  After each response the connection goes on.
Missing: refused requests with content (C115), files kept in a coding that is refused (refuted below), weights followed by elements without weight (C27), qualities
below 0.01; media type, character set and language of the response are not compared with the wishes (refuted below), and what C185 misses. -/
theorem C195_negotiated_partial (s : Site) (hr : ∀ x ∈ s.app.routes, WrittenPath x.1) (mem : Nat → Nat) (ts : List Turn) (h : ∀ t ∈ ts, t.Proper (negotiating s) mem) :
    ∃ os, client (received (negotiating s) mem (ts.map (·.ask.pieces)) (ts.map (·.ask.now)) (ts.map (·.ask.writes))) = some os ∧
      Each (Turn.Shown (negotiating s)) ts os ∧ after (negotiating s) (ts.map (·.ask.pieces)) = .open St.init := by
  have key : ∀ ts : List Turn, (∀ t ∈ ts, t.Proper (negotiating s) mem) → ∃ bufs os, Each Readable bufs os ∧ Each (Turn.Shown (negotiating s)) ts os ∧
      received (negotiating s) mem (ts.map (·.ask.pieces)) (ts.map (·.ask.now)) (ts.map (·.ask.writes)) = bufs.flatten ∧
      after (negotiating s) (ts.map (·.ask.pieces)) = .open St.init := by
    intro ts
    induction ts with
    | nil => exact fun _ => ⟨[], [], .nil, .nil, rfl, rfl⟩
    | cons t ts ih =>
      intro h
      obtain ⟨bufs, os, i1, i2, i3, i4⟩ := ih fun x hx => h x (by simp [hx])
      obtain ⟨bs, o, h1, h2, h3⟩ := turn_read s hr mem t (h t (by simp))
      refine ⟨bs :: bufs, o :: os, .cons h1 i1, .cons h2 i2, ?_, ?_⟩
      · rw [List.map_cons, List.map_cons, List.map_cons, (h3 _ _ _).1, i3]
        rfl
      · rw [List.map_cons, (h3 _ (ts.map (·.ask.now)) (ts.map (·.ask.writes))).2, i4]
  obtain ⟨bufs, os, h1, h2, h3, h4⟩ := key ts h
  exact ⟨os, by rw [h3]; exact Trip.client_all bufs os h1, h2, h4⟩

/-! ## HTTP/2 -/

theorem serve_app (s : Site) (k : Conn) (t : Hpack.DTab) (i : H2Trip.Incoming) (now : Bytes → Bytes) (x : Hpack.DTab × Bytes) (h : H2Trip.serve s.full k t i = some x) :
    H2Site.serve s k t i now = some x := by
  unfold H2Trip.serve at h
  unfold H2Site.serve
  split at h
  · next st hst =>
    rw [hst]; simp only
    split at h
    · cases h
    · next r hr =>
      rw [H2Site.response_app s now _ r hr]
      exact h
  · cases h

theorem h2_taken {s : Site} {x : H2Site.Exchange} {w : Wish} (hw : Says x.ask.fields w) (hka : KeptAs2 w x.out) (pre post : Pairs) (body : Bytes)
    (h : H2Site.Shown (negotiating s) x = some (pre, post, body)) :
    ∀ p ∈ pre ++ post, p.1 = b!"content-encoding" → p ∈ own2 x.out ∨ ∃ k, p.2 = Encode.nameOf k ∧ w.Takes k := by
  obtain ⟨ask, inc, now, out⟩ := x
  have hcells : pairs (H2Trip.cells inc.alloc ask.fields) = ask.fields := H2Trip.cells_hold inc.alloc ask.fields
  have hdec : ∀ k, (accepts (accepted (pairs (H2Trip.cells inc.alloc ask.fields)))).decided = some k → ∃ c, encName k = Encode.nameOf c ∧ w.Takes c := by
    intro k hk
    rw [hcells] at hk
    exact decided_taken hw hk
  have other : ∀ {l : Pairs} {p : Bytes × Bytes}, p ∈ l → b!"content-encoding" ∉ l.map (·.1) → p.1 = b!"content-encoding" → False :=
    fun hp hl he => hl (he ▸ List.mem_map_of_mem hp)
  have field : ∀ (c : PyBridge.Cfg) (body : Bytes) (p : Bytes × Bytes), c.encName = encName →
      c.acc = accepts (accepted (pairs (H2Trip.cells inc.alloc ask.fields))) → p ∈ H2Trip.codingField c body → ∃ k, p.2 = Encode.nameOf k ∧ w.Takes k := by
    intro c body p h1 h2 hp
    unfold H2Trip.codingField at hp
    split at hp
    · next k hk =>
      rcases List.mem_singleton.1 hp with rfl
      unfold Trip.coding at hk
      split at hk
      · rw [h2] at hk
        obtain ⟨x, e, h⟩ := hdec k hk
        exact ⟨x, by rw [← e, ← h1], h⟩
      · cases hk
    · cases hp
  intro p hp he
  unfold H2Site.Shown at h
  cases out with
  | app o =>
    cases o with
    | response code reason hs ct body =>
      simp only [H2Trip.Shown, Option.map_some, Option.some.injEq, Prod.mk.injEq] at h
      obtain ⟨rfl, rfl, rfl⟩ := h
      simp only [List.append_nil, List.mem_append, List.cons_append, List.mem_cons] at hp
      rcases hp with rfl | (hp | hp) | hp
      · simp at he
      · exact Or.inl hp
      · exact (other (List.mem_filter.1 hp).1 (by simp) he).elim
      · exact Or.inr (field _ body p rfl rfl hp)
    | value v body =>
      simp only [H2Trip.Shown, Option.map_some, Option.some.injEq, Prod.mk.injEq] at h
      obtain ⟨rfl, rfl, rfl⟩ := h
      rw [List.append_nil] at hp
      rcases List.mem_append.1 hp with hp | hp
      · exact (other hp (by simp) he).elim
      · exact Or.inr (field _ body p rfl rfl hp)
    | failed =>
      simp only [H2Trip.Shown, Option.map_some, Option.some.injEq, Prod.mk.injEq] at h
      obtain ⟨rfl, rfl, rfl⟩ := h
      exact (other hp (by simp) he).elim
    | tooLong ret body =>
      simp only [H2Trip.Shown, Option.map_some, Option.some.injEq, Prod.mk.injEq] at h
      obtain ⟨rfl, rfl, rfl⟩ := h
      exact (other hp (by simp) he).elim
    | codedTooLong ret body => simp [H2Trip.Shown] at h
    | notFound =>
      simp only [H2Trip.Shown, Option.map_some, Option.some.injEq, Prod.mk.injEq] at h
      obtain ⟨rfl, rfl, rfl⟩ := h
      exact (other hp (by simp) he).elim
  | file f =>
    simp only [Option.some.injEq, Prod.mk.injEq] at h
    obtain ⟨rfl, rfl, rfl⟩ := h
    rcases List.mem_append.1 hp with hp | hp
    · exact (other hp (by simp) he).elim
    · rcases List.mem_append.1 hp with hp | hp
      · exact (other hp (by simp) he).elim
      · obtain ⟨k, hk, rfl⟩ := List.mem_map.1 hp
        have hk := Option.mem_toList.1 hk
        have : ∃ c, encName k = Encode.nameOf c ∧ w.Takes c := by
          unfold H2Site.fileCoding at hk
          split at hk
          · next q hq =>
            obtain ⟨h1, h2⟩ := Option.filter_eq_some_iff.1 hq
            injection hk with hk
            subst hk
            have h2 : (accepts (accepted (pairs (H2Trip.cells inc.alloc ask.fields)))).matching q.1 = true := h2
            rw [hcells] at h2
            exact matching_taken hw h2 fun c hc => hka q.1 q.2 c h1 hc
          · split at hk
            · exact hdec k hk
            · cases hk
        obtain ⟨c, e, h⟩ := this
        exact Or.inr ⟨c, e, h⟩
  | notAllowed =>
    simp only [Option.some.injEq, Prod.mk.injEq] at h
    obtain ⟨rfl, rfl, rfl⟩ := h
    exact (other hp (by simp) he).elim

theorem turn2_served (s : Site) (hr : ∀ x ∈ s.app.routes, WrittenPath x.1) (k : Conn) (hk : 16384 ≤ k.maxFrame ∧ k.maxFrame < 2 ^ 24)
    (t : Hpack.DTab) {limit : Nat} {tab tab' : List Entry} (ht : H2Trip.Holds t limit tab) (x : Turn2) (hp : x.Proper (negotiating s) k limit tab tab') :
    ∃ t' bs, H2Site.serve (negotiating s) k t x.ask.inc x.ask.now = some (t', bs) ∧ H2Trip.Holds t' limit tab' ∧ x.Answered (negotiating s) k bs := by
  by_cases hm : x.wish.Met
  · obtain ⟨h1, h2⟩ := hp.served hm
    obtain ⟨t', bs, e, ht', ha⟩ := H2Site.served (negotiating s) hr k hk t ht x.ask h1
    exact ⟨t', bs, e, ht', fun _ => ⟨ha, h2_taken hp.says h2⟩, fun h => absurd hm h⟩
  · obtain ⟨hg, hc, hdis, hsid, hth, hd, hdate, hap, hw⟩ := hp.refused hm
    obtain ⟨t', bs, len, e, ht', h1, h2⟩ := H2Trip.refused (negotiating s).full k hk t ht x.ask.inc x.ask.ask.fields hc hsid (n := 406)
      (Or.inr (Or.inr ⟨rfl, rfl⟩)) (by
        rw [hdis]
        exact (H2R.answer_well_formed _ true _ _ x.ask.ask.method true x.ask.ask.path x.ask.ask.query x.ask.inc.body
          (H2Trip.cells_hold x.ask.inc.alloc x.ask.ask.fields) hg.wellFormed hg.path hg.query).2.2.1 x.wish hp.says hm) hth hd hdate hap hw
    exact ⟨t', bs, serve_app _ _ _ _ _ _ e, ht', fun h => absurd h hm, fun _ => ⟨len, h1, h2⟩⟩

/-- **C195 (partial, HTTP/2).** The same on a new HTTP/2 connection with any number of requests: each client that refuses all codings, media types, character sets or languages
it speaks of reads one whole 406 response on the stream of its request, and no function is called; each other one reads what it asked for, in no coding it does not take. -/
theorem C195_http2_negotiated_partial (s : Site) (hr : ∀ x ∈ s.app.routes, WrittenPath x.1) (k : Conn) (hk : 16384 ≤ k.maxFrame ∧ k.maxFrame < 2 ^ 24)
    (g : Hpack.DNode) (limit : Nat) (ts : List Turn2) (h : Course2 (negotiating s) k limit [] ts) :
    ∃ bss, H2Site.session (negotiating s) k (Hpack.DTab.init g limit) (ts.map fun t => (t.ask.inc, t.ask.now)) = some bss ∧
      Each (Turn2.Answered (negotiating s) k) ts bss := by
  have key : ∀ (ts : List Turn2) (t : Hpack.DTab) (tab : List Entry), H2Trip.Holds t limit tab → Course2 (negotiating s) k limit tab ts →
      ∃ bss, H2Site.session (negotiating s) k t (ts.map fun t => (t.ask.inc, t.ask.now)) = some bss ∧ Each (Turn2.Answered (negotiating s) k) ts bss := by
    intro ts
    induction ts with
    | nil => intro t _ _ _; exact ⟨[], rfl, .nil⟩
    | cons x ts ih =>
      intro t tab ht hx
      obtain ⟨tab', hp, hx⟩ := hx
      obtain ⟨t', bs, e, ht', ha⟩ := turn2_served s hr k hk t ht x hp
      obtain ⟨bss, e', he⟩ := ih t' tab' ht' hx
      refine ⟨bs :: bss, ?_, .cons ha he⟩
      rw [List.map_cons, H2Site.session]
      simp only [e, e', Option.map_some]
  exact key ts _ [] (H2Trip.holds_init g limit) h

/-! ## What is wrong -/

/-- What is named stays in the list, unless it is `*`. -/
theorem settled {l : List Encode.Acc} {a : Encode.Acc} (h : a ∈ l) (hn : a.coding ≠ .any) : a ∈ Encode.settle l := by
  unfold Encode.settle
  split
  · split
    · next b _ hc =>
      refine List.mem_map.2 ⟨a, h, ?_⟩
      rw [if_neg]
      rintro rfl
      exact hn hc
    · exact h
  · exact h

theorem same_code {c k : Encode.Coding} (h : Same c k) : code k = code c ∧ (c ≠ .any → k ≠ .any) := by
  rcases h with rfl | ⟨rfl, rfl⟩ | ⟨rfl, rfl⟩
  · exact ⟨rfl, id⟩
  · exact ⟨rfl, fun _ => by simp⟩
  · exact ⟨rfl, fun _ => by simp⟩

/-- A coding that is refused is looked up with success. -/
theorem refused_matching {fs : Pairs} {w : Wish} (h : Says fs w) {c : Encode.Coding} (hc : c ≠ .any) (hr : w.Refuses c) : (accepts (accepted fs)).matching (code c) = true := by
  obtain ⟨es, hes, e, he, k, hs, hn, _⟩ := hr
  have hco := h.codings
  rw [hes] at hco
  obtain ⟨h1, h2, h3, h4⟩ := hco
  unfold accepts
  simp only
  rw [accepted_field h1 h2 h3 h4, List.any_eq_true]
  obtain ⟨g1, g2⟩ := same_code hs
  exact ⟨⟨k, Encode.pct e.quality⟩, settled ((Encode.mem_keep es _).2 ⟨e, he, hn, rfl⟩) (g2 hc), by simp [g1]⟩

/-- The response with a form made in advance. -/
theorem kept_read (c : PyBridge.Cfg) (hc : CfgOk c) (f : Site.Served) (hf : Site.FileOk f) (now : Bytes) (mem : Nat → Nat) {k : Response.Coding} {enc : Bytes}
    (hp : f.pre = some (k, enc)) (hm : c.acc.matching k = true) :
    ∃ bs len, (Site.sendFile c f now).map (Site.onWire mem) = some bs ∧ PyBridge.Reads len enc.length ∧
      Readable bs (b!"HTTP/1.1 200 OK", Site.fileFields c f len ++ [(b!"Content-Encoding", c.encName k)], enc) := by
  obtain ⟨h, h', e1, e2, i, v, cl⟩ := Site.form_sent c hc f hf (some k) enc.length
  simp only at e2 v
  have hl := Response.C17_serialized_layout .v1_1 200 _ Site.ok_line h' i (.encoded enc) enc rfl (max f.size enc.length) (by omega)
  have hl : Response.serialize .v1_1 200 f.size (.ready (.encoded enc) enc.length h') = _ := hl
  refine ⟨_, Response.contLenStr enc.length, ?_, PyBridge.reads _, Site.read_form cl v enc rfl⟩
  unfold Site.sendFile
  rw [e1]
  simp only [Site.prepareFile, hp, hm, if_true, e2, Option.map_some, hl, Site.onWire_full]

/-- **C195 refuted (a refused coding).**  A GET request for a file that is kept encoded, by a client that refuses this coding (`Accept-Encoding: br, gzip;q=0`) but not
everything: it gets the file in the refused coding. -/
theorem C195_refused_form_sent_refuted (s : Site) (hr : ∀ x ∈ s.app.routes, WrittenPath x.1) (mem : Nat → Nat) (m : Msg) (pieces : List Rcv) (now : Bytes → Bytes)
    (w : Wish) (hgood : m.Good) (hsays : Says (told m) w) (hmet : w.Met) (hplain : Header.expect100 m.header = false) (hfits : m.body.length ≤ s.app.maxLen)
    (ha : Keep.Arrives m pieces) (hu : Trip.Unserved (negotiating s).full m.line.uri m.line.method) (hg : m.line.method = .get) {f : Site.Served}
    (hf : s.files m.line.uri = some f) (hd : f.dir = false) (hok : Site.FileOk f) (hc : CfgOk ((negotiating s).app.cfg m.header))
    {c : Encode.Coding} (hany : c ≠ .any) {enc : Bytes} (hpre : f.pre = some (code c, enc)) (hno : w.Refuses c) :
    ∃ room, ∀ b n, room ≤ n → ∃ len, PyBridge.Reads len enc.length ∧
      client (received (negotiating s) mem [pieces] [now] [List.replicate b .block ++ [.sent n]]) =
        some [(b!"HTTP/1.1 200 OK", Site.fileFields (s.app.cfg m.header) f len ++ [(b!"Content-Encoding", Encode.nameOf (Encode.kind c))], enc)] := by
  have hw : Keep.Within (negotiating s).full.env m := ⟨hgood, (h1_says hsays).1 hmet, hplain, hfits⟩
  have hm : ((negotiating s).app.cfg m.header).acc.matching (code c) = true := by
    show (accepts (accepted (pairs m.header.items))).matching (code c) = true
    rw [told_holds]
    exact refused_matching hsays hany hno
  obtain ⟨bs, len, e, hl, hrd⟩ := kept_read _ hc f hok (now m.line.uri) mem hpre hm
  refine ⟨bs.length, fun b n hn => ⟨len, hl, ?_⟩⟩
  rw [Site.one_file (negotiating s) hr mem m pieces now _ hw ha hu hg hf hd, e]
  simp only [List.headD_cons, Send.C16_h1_exactly_once_partial _ b n hn []]
  rw [← code_name]
  have := Trip.client_all [bs] _ (.cons hrd .nil)
  rw [List.flatten_cons, List.flatten_nil, List.append_nil] at this
  exact this

/-- What a single turn brings. -/
theorem one_turn (s : Site) (hr : ∀ x ∈ s.app.routes, WrittenPath x.1) (mem : Nat → Nat) (t : Turn) (h : t.Proper (negotiating s) mem) :
    ∃ o, client (received (negotiating s) mem [t.ask.pieces] [t.ask.now] [t.ask.writes]) = some [o] ∧ t.Shown (negotiating s) o := by
  obtain ⟨os, h1, h2, _⟩ := C195_negotiated_partial s hr mem [t] (by intro x hx; rcases List.mem_singleton.1 hx with rfl; exact h)
  cases h2 with
  | cons a b =>
    cases b
    exact ⟨_, h1, a⟩

/-- **C195 refuted (the asterisk).**  A client that takes every coding but the ones it names, with `*` and quality 0 for these, gzip being one of them: a function's content,
if it is as long as the threshold, comes in gzip. -/
theorem C195_asterisk_refuted (s : Site) (hr : ∀ x ∈ s.app.routes, WrittenPath x.1) (mem : Nat → Nat) (t : Turn) (h : t.Proper (negotiating s) mem) (hmet : t.wish.Met)
    {es : List Encode.Elem} (hes : t.wish.codings = some es) (hstar : ∃ e ∈ es, Named e.name .any ∧ 10 ≤ e.quality)
    (_hgzip : ∃ e ∈ es, Named e.name .gzip) (hno : ∀ e ∈ es, ∀ k, k ≠ .any → Named e.name k → e.quality = 0)
    {v : PyBridge.PyObj} {body : Bytes} (ho : t.ask.out = .app (.value v body)) (hlen : (s.app.cfg t.ask.msg.header).threshold ≤ body.length) :
    ∃ line fields content, client (received (negotiating s) mem [t.ask.pieces] [t.ask.now] [t.ask.writes]) = some [(line, fields, content)] ∧
      (b!"Content-Encoding", b!"gzip") ∈ fields ∧ content = (s.app.cfg t.ask.msg.header).compress 1 body := by
  obtain ⟨o, h1, h2⟩ := one_turn s hr mem t h
  have h2 := (h2.1 hmet).1
  unfold Site.Shown at h2
  rw [ho] at h2
  obtain ⟨len, _, rfl⟩ := h2
  have hco := h.says.codings
  rw [hes] at hco
  obtain ⟨g1, g2, g3, g4⟩ := hco
  have hdec : ((negotiating s).app.cfg t.ask.msg.header).acc.decided = some 1 := by
    show (accepts (accepted (pairs t.ask.msg.header.items))).decided = some 1
    rw [told_holds]
    unfold accepts
    simp only
    rw [accept_accepted (Encode.C27_asterisk_selects_refused_refuted _ es g1 g3 g4 hstar hno)]
    rfl
  have hk : Trip.coding ((negotiating s).app.cfg t.ask.msg.header) body = some 1 := by
    unfold Trip.coding
    rw [if_pos (show ((negotiating s).app.cfg t.ask.msg.header).threshold ≤ body.length from hlen), hdec]
  refine ⟨_, _, _, h1, ?_, ?_⟩
  · have hk : Trip.coding ((negotiating s).full.cfg t.ask.msg.header) body = some 1 := hk
    simp only [hk]
    simp [show ((negotiating s).full.cfg t.ask.msg.header).encName 1 = b!"gzip" from rfl]
  · have hk : Trip.coding ((negotiating s).full.cfg t.ask.msg.header) body = some 1 := hk
    unfold Trip.coded
    simp only [hk]
    rfl

/-- **C195 refuted (identity).**  A client that names codings with quality 0, neither `identity` nor `*` among them, takes contents without coding (RFC 9110, 12.5.3).  It
gets 406. -/
theorem C195_identity_taken_refuted (s : Site) (hr : ∀ x ∈ s.app.routes, WrittenPath x.1) (mem : Nat → Nat) (t : Turn) (h : t.Proper (negotiating s) mem)
    {es : List Encode.Elem} (hes : t.wish.codings = some es) (hk : ∃ e ∈ es, ∃ k, Named e.name k) (hno : ∀ e ∈ es, ∀ k, Named e.name k → e.quality = 0)
    (_hid : ∀ e ∈ es, ¬ Named e.name .identity ∧ ¬ Named e.name .any) :
    ∃ fields, client (received (negotiating s) mem [t.ask.pieces] [t.ask.now] [t.ask.writes]) = some [(b!"HTTP/1.1 406 Not Acceptable", fields, [])] := by
  obtain ⟨o, h1, h2⟩ := one_turn s hr mem t h
  have hn : ¬ t.wish.Met := by
    intro hm
    rcases hm.1 es hes with ⟨e, he, k, g1, g2⟩ | g
    · have := hno e he k g1; omega
    · obtain ⟨e, he, k, hn⟩ := hk
      exact g e he k hn
  have := h2.2 hn
  rw [h1, this]
  exact ⟨_, rfl⟩

/-- **C195 refuted (media types).**  A client that takes no text at all, only media types of other kinds, asks for a function that returns a plain value.  It gets plain text. -/
theorem C195_media_not_compared_refuted (s : Site) (hr : ∀ x ∈ s.app.routes, WrittenPath x.1) (mem : Nat → Nat) (t : Turn) (h : t.Proper (negotiating s) mem)
    (hmet : t.wish.Met) {rs : List Mime.Range} (_hrs : t.wish.media = some rs) (_hno : ∀ r ∈ rs, r.media.type ≠ b!"text" ∧ r.media.type ≠ b!"*")
    {v : PyBridge.PyObj} {body : Bytes} (ho : t.ask.out = .app (.value v body)) :
    ∃ fields content, client (received (negotiating s) mem [t.ask.pieces] [t.ask.now] [t.ask.writes]) = some [(b!"HTTP/1.1 200 OK", fields, content)] ∧
      (b!"Content-Type", b!"text/plain") ∈ fields := by
  obtain ⟨o, h1, h2⟩ := one_turn s hr mem t h
  have h2 := (h2.1 hmet).1
  unfold Site.Shown at h2
  rw [ho] at h2
  obtain ⟨len, _, rfl⟩ := h2
  exact ⟨_, _, h1, by simp⟩

/-! ## Clients -/

/-- A function for GET at `/f`; a file `/x` that is kept in gzip.  Four bytes of content are encoded. -/
def sampleSite : Site :=
  { Site.sampleSite with
    app := { Site.sampleSite.app with cfg := fun _ => { Trip.sampleCfg with threshold := 4 } }
    files := fun u => if u = b!"/x" then some ⟨false, 5, b!"00", b!"Mon, 16 Nov 2026 10:00:00 GMT", b!"text/html", some (1, b!"GZ")⟩ else none }

/-- A GET request with these header fields. -/
def sampleMsg (uri : Bytes) (fs : Pairs) : Msg :=
  ⟨b!"GET " ++ uri ++ b!" HTTP/1.1", ⟨.get, uri, none, .v1_1⟩, fs.map fun p => p.1 ++ b!": " ++ p.2, fs, []⟩

/-- What a browser sends. -/
def browserFields : Pairs :=
  [(b!"Host", b!"h"), (b!"Accept", b!"text/html, */*;q=0.8"), (b!"Accept-Language", b!"en-US,en;q=0.5"), (b!"Accept-Encoding", b!"gzip, deflate, br")]
def browserWish : Wish where
  codings := some [⟨b!"gzip", none, b!" "⟩, ⟨b!"deflate", none, b!" "⟩, ⟨b!"br", none, []⟩]
  media := some [⟨⟨b!"text", b!"html", []⟩, none⟩, ⟨⟨b!"*", b!"*", []⟩, some ⟨[], [8]⟩⟩]
  charsets := none
  languages := some [⟨b!"en-US", none, []⟩, ⟨b!"en", some ⟨[], [], .zero [5]⟩, []⟩]

theorem sample_fields : ∀ fs : Pairs, (∀ p ∈ fs, (∀ c ∈ p.1, ReqHeader.NameByte c) ∧ (∀ c ∈ p.2, ReqHeader.ValueByte c) ∧ ∀ c, p.2.head? = some c → ¬ ReqHeader.Blank c) →
    ReqHeader.Fields ((fs.map fun p => p.1 ++ b!": " ++ p.2).map (· ++ b!"\r")) fs
  | [], _ => .nil
  | p :: fs, h => by
    obtain ⟨h1, h2, h3⟩ := h p (by simp)
    exact .field _ p.1 p.2 _ _ ⟨b!" ", b!"\r", by simp, h1, by simp, by simp [ReqHeader.Blank], h2, h3, Or.inl rfl⟩ (sample_fields fs fun q hq => h q (by simp [hq]))

theorem sample_good (uri : Bytes) (hu : uri = b!"/f" ∨ uri = b!"/x") (fs : Pairs) (h0 : fs ≠ [])
    (h1 : ∀ p ∈ fs, (∀ c ∈ p.1, ReqHeader.NameByte c) ∧ (∀ c ∈ p.2, ReqHeader.ValueByte c) ∧ ∀ c, p.2.head? = some c → ¬ ReqHeader.Blank c)
    (h2 : ∀ x ∈ (sampleMsg uri fs).headers, x ≠ [] ∧ 13 ∉ x ∧ 10 ∉ x ∧ 0 ∉ x) (h3 : (0 : Int) = Header.contentLength (sampleMsg uri fs).header) :
    (sampleMsg uri fs).Good where
  line := by
    refine ⟨0, 0, 1, uri ++ [], .origin .get uri [] none (by decide) ⟨?_, ?_⟩ .absent, ?_⟩
    · rcases hu with rfl | rfl <;>
      exact .byte _ _ (by simp [Req.PathByte]) <| .byte _ _ (by simp [Req.PathByte, Req.RfcPchar, Req.RfcUnreserved]) .nil
    · rcases hu with rfl | rfl <;> rfl
    · rw [List.append_nil]; rcases hu with rfl | rfl <;> rfl
  version := rfl
  cr := by rcases hu with rfl | rfl <;> simp [sampleMsg]
  short := by rcases hu with rfl | rfl <;> simp [sampleMsg]
  some := by simpa [sampleMsg] using h0
  plain := h2
  fields := sample_fields fs h1
  body := h3
  fits := by simp [sampleMsg]

theorem browser_good : (sampleMsg b!"/f" browserFields).Good :=
  sample_good _ (Or.inl rfl) _ (by simp [browserFields]) (by unfold ReqHeader.NameByte ReqHeader.ValueByte ReqHeader.Blank; decide) (by decide) (by decide +kernel)

theorem browser_says (uri : Bytes) : Says (told (sampleMsg uri browserFields)) browserWish where
  codings := by
    refine ⟨⟨[(b!"host", b!"h"), (b!"accept", b!"text/html, */*;q=0.8"), (b!"accept-language", b!"en-US,en;q=0.5")], [], rfl, by decide⟩, by simp, ?_, by simp [Encode.WeightsLast]⟩
    intro e he
    simp only [List.mem_cons, List.not_mem_nil, or_false] at he
    rcases he with rfl | rfl | rfl <;> exact ⟨by simp, by decide, by decide, by simp, by unfold Encode.Blanks; decide⟩
  media := by
    refine ⟨[(⟨⟨b!"text", b!"html", []⟩, none⟩, b!" ")], ⟨⟨b!"*", b!"*", []⟩, some ⟨[], [8]⟩⟩, [], rfl, ?_, ?_, Or.inl rfl,
      [(b!"host", b!"h")], [(b!"accept-language", b!"en-US,en;q=0.5"), (b!"accept-encoding", b!"gzip, deflate, br")], b!"accept", rfl, Or.inr rfl, by decide⟩
    · intro x hx
      rcases List.mem_singleton.1 hx with rfl
      exact ⟨⟨⟨by simp, by unfold Mime.Visible; decide, by decide, by simp, by unfold Mime.Visible; decide, by decide, by simp⟩, by simp⟩, Or.inl rfl, by unfold Mime.Gap; decide⟩
    · exact ⟨⟨by simp, by unfold Mime.Visible; decide, by decide, by simp, by unfold Mime.Visible; decide, by decide, by simp⟩,
        by rintro w ⟨⟩; exact ⟨by simp [Mime.Blanks], by decide, by simp, by decide⟩⟩
  charsets := by
    show ∀ x ∈ told (sampleMsg [] browserFields), x.1 ≠ _
    decide
  languages := by
    refine ⟨by simp, ?_, [], Or.inl rfl, [(b!"host", b!"h"), (b!"accept", b!"text/html, */*;q=0.8")], [(b!"accept-encoding", b!"gzip, deflate, br")], rfl, by decide⟩
    intro e he
    simp only [List.mem_cons, List.not_mem_nil, or_false] at he
    rcases he with rfl | rfl
    · exact ⟨⟨by simp, by unfold Lang.NameChar; decide, by simp, by simp⟩, by decide⟩
    · exact ⟨⟨by simp, by unfold Lang.NameChar; decide, by rintro w ⟨⟩; exact ⟨by simp [Lang.Blanks], by simp [Lang.Blanks], by simp [Encode.Q.Ok]⟩, by simp⟩, by decide⟩

/-- A client that says something of codings only. -/
theorem codings_says (uri v : Bytes) (es : List Encode.Elem) (hv : v = Encode.text es) (h1 : es ≠ []) (h2 : ∀ e ∈ es, e.Ok) (h3 : Encode.WeightsLast es) :
    Says (told (sampleMsg uri [(b!"Host", b!"h"), (b!"Accept-Encoding", v)])) ⟨some es, none, none, none⟩ where
  codings := ⟨⟨[(b!"host", b!"h")], [], by rw [← hv]; rfl, by decide⟩, h1, h2, h3⟩
  media := by
    show ∀ x ∈ [(b!"host", b!"h"), (b!"accept-encoding", v)], _
    simp
  charsets := by
    show ∀ x ∈ [(b!"host", b!"h"), (b!"accept-encoding", v)], _
    simp [Lang.Field.name]
  languages := by
    show ∀ x ∈ [(b!"host", b!"h"), (b!"accept-encoding", v)], _
    simp [Lang.Field.name]

theorem sampleSite_written : ∀ x ∈ sampleSite.app.routes, WrittenPath x.1 := Site.sample_written

theorem sample_cfg (h : HList) : CfgOk ((negotiating sampleSite).app.cfg h) :=
  ⟨(by decide : 0 < 4), Trip.sampleCfg_ok.date, by
    intro k
    show 13 ∉ encName k
    unfold encName
    split <;> decide⟩

theorem sample_returns (fs : Pairs) : Trip.Returns (negotiating sampleSite).full (sampleMsg b!"/f" fs) (.value (.str b!"file")) := by
  refine ⟨1, [], ⟨[(b!"/", .post, 1)], b!"/f", .get, [], rfl, ⟨?_, fun _ => rfl⟩, ?_, Or.inl ⟨by unfold Route.Plain; decide, rfl⟩⟩, Or.inl rfl, rfl⟩
  · rw [Route.fits_plain _ _ (by unfold Route.Plain; decide)]
    rfl
  · intro x hx
    rcases List.mem_singleton.1 hx with rfl
    rintro ⟨h, _⟩
    rw [Route.fits_plain _ _ (by unfold Route.Plain; decide)] at h
    exact absurd h (by simp [sampleMsg])

/-- The request for `/f` with these fields, in one piece. -/
def sampleTurn (fs : Pairs) (w : Wish) : Turn :=
  ⟨⟨sampleMsg b!"/f" fs, [.data (sampleMsg b!"/f" fs).text false], fun _ => b!"hello", 1, 1000, .app (.value (.str b!"file") b!"file")⟩, w⟩

theorem sampleTurn_proper (fs : Pairs) (w : Wish) (hg : (sampleMsg b!"/f" fs).Good) (hs : Says (told (sampleMsg b!"/f" fs)) w)
    (hp : Header.expect100 (sampleMsg b!"/f" fs).header = false) (ht : (sampleMsg b!"/f" fs).text ≠ [])
    (hfit : (match ReqEvent.answer (negotiating sampleSite).full.env (sampleMsg b!"/f" fs) with
      | .reply r => ((negotiating sampleSite).bytes (fun _ => b!"hello") Site.sampleMem (.handler 0 (sampleMsg b!"/f" fs).line (sampleMsg b!"/f" fs).header none) r).all
          (fun b => decide (b.length ≤ 1000))
      | _ => true) = true) : (sampleTurn fs w).Proper (negotiating sampleSite) Site.sampleMem where
  good := hg
  says := hs
  plain := hp
  fits := Nat.zero_le _
  arrives := Keep.arrives_whole _ ht
  served := fun _ => ⟨⟨by simp [sampleTurn, sampleMsg], sample_returns fs, sample_cfg _, rfl, (by decide : (4 : Int) ≤ 1048576), fun _ _ => (by decide : (decide (100000 < 4)) = false)⟩,
    trivial, trivial⟩
  refused := fun _ => ⟨rfl, Trip.sampleCfg_ok, rfl⟩
  fitting := by
    intro b bs r ha hb
    have hx : ReqEvent.answer (negotiating sampleSite).full.env (sampleMsg b!"/f" fs) = .reply r := ha
    rw [hx] at hfit
    simp only at hfit
    have hb : (negotiating sampleSite).bytes (fun _ => b!"hello") Site.sampleMem (.handler 0 (sampleMsg b!"/f" fs).line (sampleMsg b!"/f" fs).header none) r = some bs := by
      rw [← hb]
      unfold Site.Site.bytes
      rfl
    rw [hb] at hfit
    exact of_decide_eq_true hfit

theorem browser_met : browserWish.Met := by
  refine ⟨?_, ?_, ?_, ?_⟩
  · rintro es ⟨⟩
    exact Or.inl ⟨⟨b!"gzip", none, b!" "⟩, by simp, .gzip, by simp [Named, Encode.nameOf, Encode.SameLetters, Encode.SameLetter], by decide⟩
  · rintro rs ⟨⟩
    exact ⟨⟨⟨b!"text", b!"html", []⟩, none⟩, by simp, by decide⟩
  · rintro es ⟨⟩
  · rintro es ⟨⟩
    exact ⟨⟨b!"en-US", none, []⟩, by simp, by decide⟩

/-- The fields of a client that says something of codings only. -/
abbrev codingFields (v : Bytes) : Pairs := [(b!"Host", b!"h"), (b!"Accept-Encoding", v)]

/-- `br;q=0`. -/
def brNo : List Encode.Elem := [⟨b!"br", some ⟨[], [], .zero [], []⟩, []⟩]
/-- `*, gzip;q=0`. -/
def starNoGzip : List Encode.Elem := [⟨b!"*", none, b!" "⟩, ⟨b!"gzip", some ⟨[], [], .zero [], []⟩, []⟩]

theorem brNo_says (uri : Bytes) : Says (told (sampleMsg uri (codingFields b!"br;q=0"))) ⟨some brNo, none, none, none⟩ := by
  refine codings_says uri _ brNo (by decide) (by simp [brNo]) ?_ (by simp [brNo, Encode.WeightsLast])
  intro e he
  rcases List.mem_singleton.1 he with rfl
  exact ⟨by simp, by decide, by decide, by rintro w ⟨⟩; simp [Encode.Blanks, Encode.Q.Ok], by simp [Encode.Blanks]⟩

theorem starNoGzip_says (uri : Bytes) : Says (told (sampleMsg uri (codingFields b!"*, gzip;q=0"))) ⟨some starNoGzip, none, none, none⟩ := by
  refine codings_says uri _ starNoGzip (by decide) (by simp [starNoGzip]) ?_ (by simp [starNoGzip, Encode.WeightsLast])
  intro e he
  simp only [starNoGzip, List.mem_cons, List.not_mem_nil, or_false] at he
  rcases he with rfl | rfl
  · exact ⟨by simp, by decide, by decide, by simp, by simp [Encode.Blanks]⟩
  · exact ⟨by simp, by decide, by decide, by rintro w ⟨⟩; simp [Encode.Blanks, Encode.Q.Ok], by simp [Encode.Blanks]⟩

theorem brNo_good : (sampleMsg b!"/f" (codingFields b!"br;q=0")).Good :=
  sample_good _ (Or.inl rfl) _ (by simp) (by unfold ReqHeader.NameByte ReqHeader.ValueByte ReqHeader.Blank; decide) (by decide) (by decide +kernel)

theorem starNoGzip_good (uri : Bytes) (h : uri = b!"/f" ∨ uri = b!"/x") : (sampleMsg uri (codingFields b!"*, gzip;q=0")).Good :=
  sample_good uri h _ (by simp) (by unfold ReqHeader.NameByte ReqHeader.ValueByte ReqHeader.Blank; decide)
    (by rcases h with rfl | rfl <;> decide) (by rcases h with rfl | rfl <;> decide +kernel)

theorem brNo_refused : ¬ (⟨some brNo, none, none, none⟩ : Wish).Met := by
  intro h
  rcases h.1 brNo rfl with ⟨e, he, k, _, hq⟩ | hn
  · rcases List.mem_singleton.1 he with rfl
    revert hq; decide
  · exact hn _ (List.mem_singleton.2 rfl) .br (by simp [Named, Encode.nameOf, Encode.SameLetters, Encode.SameLetter])

/-- The hypotheses of C195 are met, by a browser that is served and by a client that is refused; and what they get on one connection. -/
example : (∀ t ∈ [sampleTurn browserFields browserWish, sampleTurn (codingFields b!"br;q=0") ⟨some brNo, none, none, none⟩, sampleTurn browserFields browserWish],
      t.Proper (negotiating sampleSite) Site.sampleMem) ∧ browserWish.Met ∧ ¬ (⟨some brNo, none, none, none⟩ : Wish).Met ∧
    received (negotiating sampleSite) Site.sampleMem [(sampleTurn browserFields browserWish).ask.pieces, [.data (sampleMsg b!"/f" (codingFields b!"br;q=0")).text false]]
        [fun _ => [], fun _ => []] [[.sent 1000], [.sent 1000]] =
      b!"HTTP/1.1 200 OK\r\nDate: Mon, 16 Nov 2026 10:00:00 GMT\r\nServer: fly\r\nContent-Type: text/plain\r\nContent-Encoding: gzip\r\nContent-Length: 4\r\n\r\nfile" ++
      b!"HTTP/1.1 406 Not Acceptable\r\nServer: fly\r\nDate: Mon, 16 Nov 2026 10:00:00 GMT\r\nConnection: keep-alive\r\nContent-Length: 0\r\n\r\n" := by
  refine ⟨?_, browser_met, brNo_refused, by decide +kernel⟩
  · have h1 := sampleTurn_proper browserFields browserWish browser_good (browser_says _) (by decide +kernel) (by decide) (by decide +kernel)
    have h2 := sampleTurn_proper (codingFields b!"br;q=0") ⟨some brNo, none, none, none⟩ brNo_good (brNo_says _) (by decide +kernel) (by decide) (by decide +kernel)
    intro t ht
    simp only [List.mem_cons, List.not_mem_nil, or_false] at ht
    rcases ht with rfl | rfl | rfl
    · exact h1
    · exact h2
    · exact h1

theorem starNoGzip_met : (⟨some starNoGzip, none, none, none⟩ : Wish).Met := by
  refine ⟨?_, ?_, ?_, ?_⟩
  · rintro es ⟨⟩
    exact Or.inl ⟨⟨b!"*", none, b!" "⟩, by simp [starNoGzip], .any, by simp [Named, Encode.nameOf, Encode.SameLetters, Encode.SameLetter], by decide⟩
  all_goals rintro es ⟨⟩

/-- The hypotheses of the refutations are met: `*, gzip;q=0` for a function and for a file kept in gzip, and what the client gets; `br;q=0` names neither `identity` nor `*`. -/
example : (sampleTurn (codingFields b!"*, gzip;q=0") ⟨some starNoGzip, none, none, none⟩).Proper (negotiating sampleSite) Site.sampleMem ∧
    (∃ e ∈ starNoGzip, Named e.name .any ∧ 10 ≤ e.quality) ∧ (∃ e ∈ starNoGzip, Named e.name .gzip) ∧ (⟨some starNoGzip, none, none, none⟩ : Wish).Refuses .gzip ∧
    Trip.Unserved (negotiating sampleSite).full b!"/x" .get ∧ sampleSite.files b!"/x" = some ⟨false, 5, b!"00", b!"Mon, 16 Nov 2026 10:00:00 GMT", b!"text/html", some (code .gzip, b!"GZ")⟩ ∧
    (∀ e ∈ brNo, ¬ Named e.name .identity ∧ ¬ Named e.name .any) ∧
    (client (received (negotiating sampleSite) Site.sampleMem [[.data (sampleMsg b!"/f" (codingFields b!"*, gzip;q=0")).text false],
        [.data (sampleMsg b!"/x" (codingFields b!"*, gzip;q=0")).text false]] [fun _ => [], fun _ => []] [[.sent 1000], [.sent 1000]])).map (·.map fun o => (o.2.1.getLast?, o.2.2)) =
      some [(some (b!"Content-Length", b!"4"), b!"file"), (some (b!"Content-Encoding", b!"gzip"), b!"GZ")] := by
  refine ⟨sampleTurn_proper _ _ (starNoGzip_good _ (Or.inl rfl)) (starNoGzip_says _) (by decide +kernel) (by decide) (by decide +kernel), ⟨⟨b!"*", none, b!" "⟩, ?_, ?_, by decide⟩,
    ⟨⟨b!"gzip", some ⟨[], [], .zero [], []⟩, []⟩, ?_, ?_⟩, ⟨starNoGzip, rfl, ⟨b!"gzip", some ⟨[], [], .zero [], []⟩, []⟩, ?_, .gzip, Or.inl rfl, ?_, by decide⟩, ?_, rfl, ?_, by decide +kernel⟩
  · simp [starNoGzip]
  · simp [Named, Encode.nameOf, Encode.SameLetters, Encode.SameLetter]
  · simp [starNoGzip]
  · simp [Named, Encode.nameOf, Encode.SameLetters, Encode.SameLetter]
  · simp [starNoGzip]
  · simp [Named, Encode.nameOf, Encode.SameLetters, Encode.SameLetter]
  · exact Site.sample_unserved _ _ (by decide) (by decide)
  · intro e he
    rcases List.mem_singleton.1 he with rfl
    simp [Named, Encode.nameOf, Encode.SameLetters, Encode.SameLetter]

/-! ### Over HTTP/2 -/

/-- The same site with another compression. -/
def sampleSite2 : Site :=
  { sampleSite with app := { sampleSite.app with cfg := fun _ => { H2Trip.sampleCfg with threshold := 4 }, cfg0 := H2Trip.sampleCfg } }

/-- A client that takes gzip and deflate, and one that refuses br and names nothing else. -/
def ask2 (v : Bytes) : H2Trip.Ask := ⟨.get, b!"/f", none, [(b!":method", b!"GET"), (b!":scheme", b!"https"), (b!":path", b!"/f"), (b!"accept-encoding", v)], none⟩
def repsTake : List Hpack.Rep := [.indexed 2, .indexed 7, .literal .update (.index 4) ⟨false, b!"/f"⟩, .literal .noUpdate (.index 16) ⟨false, b!"gzip, deflate"⟩]
def repsRefuse : List Hpack.Rep := [.indexed 2, .indexed 7, .indexed 62, .literal .noUpdate (.index 16) ⟨false, b!"br;q=0"⟩]

def takeWish : Wish := ⟨some [⟨b!"gzip", none, b!" "⟩, ⟨b!"deflate", none, []⟩], none, none, none⟩

theorem codings_says2 (v : Bytes) (es : List Encode.Elem) (hv : v = Encode.text es) (h1 : es ≠ []) (h2 : ∀ e ∈ es, e.Ok) (h3 : Encode.WeightsLast es) :
    Says (ask2 v).fields ⟨some es, none, none, none⟩ where
  codings := ⟨⟨[(b!":method", b!"GET"), (b!":scheme", b!"https"), (b!":path", b!"/f")], [], by rw [← hv]; rfl, by decide⟩, h1, h2, h3⟩
  media := by
    show ∀ x ∈ (ask2 v).fields, _
    simp [ask2]
  charsets := by
    show ∀ x ∈ (ask2 v).fields, _
    simp [ask2, Lang.Field.name]
  languages := by
    show ∀ x ∈ (ask2 v).fields, _
    simp [ask2, Lang.Field.name]

theorem take_says : Says (ask2 b!"gzip, deflate").fields takeWish := by
  refine codings_says2 _ _ (by decide) (by simp) ?_ (by simp [Encode.WeightsLast])
  intro e he
  simp only [List.mem_cons, List.not_mem_nil, or_false] at he
  rcases he with rfl | rfl <;> exact ⟨by simp, by decide, by decide, by simp, by unfold Encode.Blanks; decide⟩

theorem refuse_says : Says (ask2 b!"br;q=0").fields ⟨some brNo, none, none, none⟩ := by
  refine codings_says2 _ _ (by decide) (by simp [brNo]) ?_ (by simp [brNo, Encode.WeightsLast])
  intro e he
  rcases List.mem_singleton.1 he with rfl
  exact ⟨by simp, by decide, by decide, by rintro w ⟨⟩; simp [Encode.Blanks, Encode.Q.Ok], by simp [Encode.Blanks]⟩

theorem take_met : takeWish.Met := by
  refine ⟨?_, ?_, ?_, ?_⟩
  · rintro es ⟨⟩
    exact Or.inl ⟨⟨b!"gzip", none, b!" "⟩, by simp, .gzip, by simp [Named, Encode.nameOf, Encode.SameLetters, Encode.SameLetter], by decide⟩
  all_goals rintro es ⟨⟩

theorem ask2_sound (v : Bytes) (hv : ∀ c ∈ v, c < 128 ∧ c ≠ 0) : (ask2 v).Sound where
  wellFormed := ⟨[(b!":method", b!"GET"), (b!":scheme", b!"https"), (b!":path", b!"/f")], [(b!"accept-encoding", v)], rfl, Or.inl (List.Perm.refl _), by
    unfold H2R.Regular; simp⟩
  path := ⟨rfl, by unfold Req.PathByte Req.RfcPchar Req.RfcUnreserved Req.RfcSubDelims; simp [ask2]⟩
  query := by intro x hx; simp [ask2] at hx
  names := by unfold H2Trip.LowerName H2Trip.Ascii; simp [ask2]; exact hv
  noCoding := by simp [ask2]
  known := by
    intro p hp h
    simp only [ask2, List.mem_cons, List.not_mem_nil, or_false] at hp
    rcases hp with rfl | rfl | rfl | rfl <;> simp at h

theorem repsTake_ok : ∀ r ∈ repsTake, Hpack.okRep r := by
  intro r hr
  simp only [repsTake, List.mem_cons, List.not_mem_nil, or_false] at hr
  rcases hr with rfl | rfl | rfl | rfl
  · exact by unfold Hpack.okRep; decide
  · exact by unfold Hpack.okRep; decide
  · exact ⟨by decide, by decide, by decide, by simp⟩
  · exact ⟨by decide, by decide, by decide, by simp⟩

theorem repsRefuse_ok : ∀ r ∈ repsRefuse, Hpack.okRep r := by
  intro r hr
  simp only [repsRefuse, List.mem_cons, List.not_mem_nil, or_false] at hr
  rcases hr with rfl | rfl | rfl | rfl
  · exact by unfold Hpack.okRep; decide
  · exact by unfold Hpack.okRep; decide
  · exact by unfold Hpack.okRep; decide
  · exact ⟨by decide, by decide, by decide, by simp⟩

def takeTurn : Turn2 := ⟨⟨ask2 b!"gzip, deflate", H2Trip.sampleInc 1 repsTake none 65535, fun _ => [], .app (.value (.str b!"file") b!"file")⟩, takeWish⟩
def refuseTurn : Turn2 := ⟨⟨ask2 b!"br;q=0", H2Trip.sampleInc 3 repsRefuse none 65535, fun _ => [], .app (.value (.str b!"file") b!"file")⟩, ⟨some brNo, none, none, none⟩⟩

theorem take_shown : H2Site.Shown (negotiating sampleSite2) takeTurn.ask =
    some ([(b!":status", b!"200"), (b!"date", b!"Mon, 16 Nov 2026 10:00:00 GMT"), (b!"server", b!"fly"), (b!"content-type", b!"text/plain"), (b!"content-encoding", b!"gzip")], [],
      0 :: b!"file") := by
  decide +kernel

theorem take_returns : H2Trip.Returns (negotiating sampleSite2).full (ask2 b!"gzip, deflate") (.value (.str b!"file")) := by
  refine ⟨1, [], ⟨[(b!"/", .post, 1)], b!"/f", .get, [], rfl, ⟨?_, fun _ => rfl⟩, ?_, Or.inl ⟨by unfold Route.Plain; decide, rfl⟩⟩, rfl⟩
  · rw [Route.fits_plain _ _ (by unfold Route.Plain; decide)]
    rfl
  · intro x hx
    rcases List.mem_singleton.1 hx with rfl
    rintro ⟨h, _⟩
    exact absurd ((Route.fits_plain _ _ (by unfold Route.Plain; decide)).1 h) (by decide)

theorem take_asked : H2Site.Proper (negotiating sampleSite2) H2Trip.sampleConn 4096 [] [(b!":path", b!"/f")] takeTurn.ask where
  good := ⟨ask2_sound _ (by decide), takeWish, take_says, take_met⟩
  carries := H2Trip.sample_carries (ask2 b!"gzip, deflate") 1 repsTake _ (by decide +kernel) repsTake_ok
  sid := by show 1 < 2 ^ 31; decide
  threshold := by show 0 < 4; decide
  codings := by intro c b; show 0 :: b.take 10 ≠ []; simp
  makes := ⟨by simp [takeTurn, ask2], take_returns, rfl, by show (4 : Int) ≤ 1048576; decide,
    by intro k; show decide (100000 < (0 :: b!"file".take 10).length) = false; decide, by intro h; simp at h⟩
  fields := by
    intro pre post body h
    rw [take_shown] at h
    injection h with h; injection h with h1 h; injection h with h2 h3
    subst h1; subst h2
    refine ⟨by decide +kernel, by decide, ?_⟩
    unfold H2Trip.Apart
    decide
  takes := by
    intro pre post body h
    rw [take_shown] at h
    injection h with h; injection h with h1 h; injection h with h2 h3
    subst h3
    exact H2Trip.sample_takes _ (by decide)
  roomy := by
    intro pre post body h _
    rw [take_shown] at h
    injection h with h; injection h with h1 h; injection h with h2 h3
    subst h3
    decide

/-- The hypotheses are met over HTTP/2 as well: a client that is served in gzip, and then refused. -/
example : Course2 (negotiating sampleSite2) H2Trip.sampleConn 4096 [] [takeTurn, refuseTurn] ∧ takeWish.Met ∧ ¬ refuseTurn.wish.Met :=
  ⟨⟨[(b!":path", b!"/f")], ⟨take_says, fun _ => ⟨take_asked, trivial⟩, fun h => absurd take_met h⟩, [(b!":path", b!"/f")],
    ⟨refuse_says, fun h => absurd h brNo_refused, fun _ => ⟨ask2_sound _ (by decide), (H2Trip.sample_carries (ask2 b!"br;q=0") 3 repsRefuse 65535 (by decide +kernel) repsRefuse_ok).2.2,
      rfl, by show 3 < 2 ^ 31; decide, by show 0 < 1024; decide, rfl, by decide, by decide, H2Trip.sample_takes _ (by decide)⟩⟩, trivial⟩, take_met, brNo_refused⟩

end Fly.Nego
