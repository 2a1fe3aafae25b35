import Verif.H2Trip.Lemmas
import Verif.Trip.Props

/-! # C177: round trips over HTTP/2 -/

namespace Fly.H2Trip
open Trip (App Each Chosen Unserved WrittenPath Outcome CfgOk coding coded)
open Req (Method queryText)
open Header (Pairs HList HField view Inv)
open Hpack (Rep rfcBlock rfcRep Entry)
open PyReq (PyRequest)
open PyBridge (Reads statuses contentTypes missing Cfg build)
open H2R (WellFormed PlainPath PlainQuery)
open Send (Sys)

/-- What is made of the request. -/
theorem response_made (a : App) (hr : ∀ x ∈ a.routes, WrittenPath x.1) {limit : Nat} {tab tab' : List Entry} (x : Exchange) (h : Proper a limit tab tab' x) (fs : Pairs) (body : Bytes)
    (hs : Shown (x.cfg a) x.out = some (fs, body)) :
    ∃ r, response a (H2R.answer a.env ⟨true, cells x.inc.alloc x.ask.fields, x.inc.body, x.inc.discard⟩) = some r ∧ Made r fs body := by
  rw [h.carries.1, h.carries.2.1, answered a x.ask h.good x.inc.alloc]
  have hm := h.makes
  by_cases hn : x.out = .notFound
  · have hcfg : x.cfg a = a.cfg0 := by unfold Exchange.cfg; rw [hn]; rfl
    rw [hcfg, hn] at hm hs
    have hth := h.threshold
    rw [hcfg] at hth
    obtain ⟨hu, hf, hd⟩ := hm
    simp only [Shown, Option.some.injEq, Prod.mk.injEq] at hs
    obtain ⟨rfl, rfl⟩ := hs
    have hfind := Trip.find_unserved a hr hu
    have hch : H2R.choose a.env ⟨x.ask.method, b!"http", x.ask.path, x.ask.query, cells x.inc.alloc x.ask.fields, x.ask.body.map .bytes⟩ = .status 404 := by
      simp only [H2R.choose, App.env, hfind, Option.map_none, hf]
    rw [hch]
    obtain ⟨i4, v4⟩ := serverHeader_ok a.cfg0.date
    obtain ⟨r, r1, r2⟩ := finish_empty a.cfg0 (code := 404) (reason := b!"Not Found") (by decide +kernel) _ i4 (by rw [v4]; simp) hth hd
    refine ⟨r, r1, ?_⟩
    rw [v4, show Response.threeDigits 404 = b!"404" from by decide] at r2
    exact r2
  · have hcfg : x.cfg a = a.cfg ⟨cells x.inc.alloc x.ask.fields, (cells x.inc.alloc x.ask.fields).length⟩ := by
      unfold Exchange.cfg Outcome.cfg
      split
      · next he => exact absurd he hn
      · rfl
    have hret : ∃ ret, Returns a x.ask ret := by
      have key : ∀ o : Outcome, o ≠ .notFound → Makes a x.ask (x.cfg a) o → ∃ ret, Returns a x.ask ret := by
        intro o hn hm
        cases o with
        | response => exact ⟨_, hm.1⟩
        | value => exact ⟨_, hm.1⟩
        | failed => exact ⟨_, hm.1⟩
        | tooLong => exact ⟨_, hm.1⟩
        | codedTooLong => exact absurd hm (by simp [Makes])
        | notFound => exact absurd rfl hn
      exact key x.out hn hm
    obtain ⟨ret, hret⟩ := hret
    obtain ⟨i, e1, e2⟩ := choose_returns a hr x.ask h.good x.inc.alloc ret hret
    rw [e1]
    have huniq : ∀ r, Returns a x.ask r → r = ret := by
      intro r hx
      obtain ⟨_, _, e3⟩ := choose_returns a hr x.ask h.good x.inc.alloc r hx
      rw [e2] at e3
      exact (Option.some.inj e3).symm
    obtain ⟨r, r1, r2⟩ := respond_made (x.cfg a) h.threshold h.codings a x.ask x.out hm ret hn huniq fs body hs
    refine ⟨r, ?_, r2⟩
    rw [hcfg] at r1
    unfold response
    simp only [e2]
    rw [decide_eq_false h.method]
    exact r1

theorem shown_some (a : App) {limit : Nat} {tab tab' : List Entry} (x : Exchange) (h : Proper a limit tab tab' x) : ∃ fs body, Shown (x.cfg a) x.out = some (fs, body) := by
  have hm := h.makes
  cases ho : x.out with
  | codedTooLong r b => rw [ho] at hm; exact absurd hm (by simp [Makes])
  | _ => exact ⟨_, _, rfl⟩

theorem served (a : App) (hr : ∀ x ∈ a.routes, WrittenPath x.1) (k : Conn) (hk : 16384 ≤ k.maxFrame ∧ k.maxFrame < 2 ^ 24) (t : Hpack.DTab)
    {limit : Nat} {tab tab' : List Entry} (ht : Holds t limit tab) (x : Exchange) (h : Proper a limit tab tab' x) (hcl : Clear a tab' x)
    (hroom : Roomy a k x) :
    ∃ t' bs, serve a k t x.inc = some (t', bs) ∧ Holds t' limit tab' ∧ Answered a k x bs := by
  obtain ⟨fs, body, hs⟩ := shown_some a x h
  obtain ⟨t', e1, ht', hdyn⟩ := decoded t ht x.inc _ h.carries.2.2
  obtain ⟨r, e2, m1, m2, m3⟩ := response_made a hr x h fs body hs
  obtain ⟨bs, e3, hsh⟩ := sent_ok k hk x.inc.sid h.sid x.inc.win r x.inc.writes fs body m1 (h.fields fs body hs).1 (h.fields fs body hs).2 _ (hcl fs body hs) m2 m3
    (hroom fs body hs) (h.takes fs body hs)
  refine ⟨t', bs, ?_, ht', fs, body, _, hs, PyBridge.reads _, hsh⟩
  unfold serve
  simp only [e1, e2, hdyn, e3, Option.map_some]

/-- **C177 (partial).** For every application with routes without parameters or with one as last segment: on a new HTTP/2 connection with any number of
proper requests, every function is called with exactly what its client sent (see `Returns`), and on the stream of every request
the client reads exactly one whole response, with the status, fields and content that the function made of it, or the 500, 413 or 404 that is due.
Missing: HEAD, responses as long as a window or longer than a frame, encoded contents that are too long, header fields that the server takes for those entered in the
table by the client (`Apart`) or cannot encode (all refuted here or in C61), forms, content codings of requests, files, requests that refuse every form of the response (`C195_http2_negotiated_partial`) or say what they accept
in a form the server does not understand (C27, C29, C74). -/
theorem C177_h2_round_trips_partial (a : App) (hr : ∀ x ∈ a.routes, WrittenPath x.1) (k : Conn) (hk : 16384 ≤ k.maxFrame ∧ k.maxFrame < 2 ^ 24)
    (g : Hpack.DNode) (limit : Nat) (xs : List Exchange) (h : Course a k limit [] xs) :
    ∃ bss, session a k (Hpack.DTab.init g limit) (xs.map (·.inc)) = some bss ∧ Each (Answered a k) xs bss := by
  have key : ∀ (xs : List Exchange) (t : Hpack.DTab) (tab : List Entry), Holds t limit tab → Course a k limit tab xs →
      ∃ bss, session a k t (xs.map (·.inc)) = some bss ∧ Each (Answered a k) xs bss := by
    intro xs
    induction xs with
    | nil => intro t _ _ _; exact ⟨[], rfl, .nil⟩
    | cons x xs ih =>
      intro t tab ht hx
      obtain ⟨tab', hp, hcl, hroom, hx⟩ := hx
      obtain ⟨t', bs, e, ht', ha⟩ := served a hr k hk t ht x hp hcl hroom
      obtain ⟨bss, e', he⟩ := ih t' tab' ht' hx
      refine ⟨bs :: bss, ?_, .cons ha he⟩
      rw [List.map_cons, session, e]
      simp only [e', Option.map_some]
  exact key xs _ [] (holds_init g limit) h

/-- A refusal, made when the client's table has the entries `tab'`. -/
theorem refusal_made (a : App) (k : Conn) (hk : 16384 ≤ k.maxFrame ∧ k.maxFrame < 2 ^ 24) {tab' : List Entry}
    (i : Incoming) (hsid : i.sid < 2 ^ 31) {n : Nat} {reason : Bytes}
    (hn : (n = 400 ∧ reason = b!"Bad Request") ∨ (n = 413 ∧ reason = b!"Payload Too Large") ∨ (n = 406 ∧ reason = b!"Not Acceptable"))
    (hth : 0 < a.cfg0.threshold) (hd : a.cfg0.dflt n = none)
    (hdate : a.cfg0.date.length < 127) (hap : ∀ e ∈ tab', ¬ e.1 <+: b!":status") (hw : Takes i.writes 0) :
    ∃ r bs len, response a (.status n) = some r ∧ send k tab' i.sid i.win r i.writes = some bs ∧ Reads len 0 ∧ Shows k.maxFrame i.sid bs
      [(b!":status", Response.threeDigits n), (b!"server", b!"fly"), (b!"date", a.cfg0.date), (b!"content-length", len)] [] ∧ Sendable k tab' r i.writes [] := by
  obtain ⟨i4, v4⟩ := serverHeader_ok a.cfg0.date
  have hst : (n, reason) ∈ statuses := by
    rcases hn with ⟨rfl, rfl⟩ | ⟨rfl, rfl⟩ | ⟨rfl, rfl⟩ <;> decide +kernel
  obtain ⟨r, r1, r2⟩ := finish_empty a.cfg0 hst _ i4 (by rw [v4]; simp) hth hd
  rw [v4] at r2
  obtain ⟨m1, m2, m3⟩ := r2
  have hok : ∀ p ∈ ([(b!":status", Response.threeDigits n), (b!"server", b!"fly"), (b!"date", a.cfg0.date)] : Pairs), Hpack.okHeader p := by
    have h1 : Hpack.okHeader (b!":status", Response.threeDigits 400) ∧ Hpack.okHeader (b!":status", Response.threeDigits 413) ∧
        Hpack.okHeader (b!":status", Response.threeDigits 406) ∧ Hpack.okHeader (b!"server", b!"fly") := by
      decide +kernel
    intro p hp
    simp only [List.mem_cons, List.not_mem_nil, or_false] at hp
    rcases hp with rfl | rfl | rfl
    · rcases hn with ⟨rfl, _⟩ | ⟨rfl, _⟩ | ⟨rfl, _⟩
      · exact h1.1
      · exact h1.2.1
      · exact h1.2.2.1
    · exact h1.2.2.2
    · exact date_ok _ hdate
  have hap' : Apart tab' [(b!":status", Response.threeDigits n), (b!"server", b!"fly"), (b!"date", a.cfg0.date)] := by
    intro p hp hn e he _ hx
    simp only [List.mem_cons, List.not_mem_nil, or_false] at hp
    rcases hp with rfl | rfl | rfl
    · exact absurd hx (hap e he)
    · exact absurd (by simp) hn
    · exact absurd (by simp) hn
  have hsz : size [(b!":status", Response.threeDigits n), (b!"server", b!"fly"), (b!"date", a.cfg0.date)] ≤ 960 := by
    have : (Response.threeDigits n).length = 3 := by
      rcases hn with ⟨rfl, _⟩ | ⟨rfl, _⟩ | ⟨rfl, _⟩ <;> decide
    simp [size, this]; omega
  obtain ⟨bs, e4, hsh⟩ := sent_ok k hk i.sid hsid i.win r i.writes _ [] m1 hok hsz tab' hap' m2 m3 (fun h => absurd rfl h) hw
  have l1 := fields_length hok hsz (n := 0) (by decide)
  refine ⟨r, bs, _, ?_, e4, PyBridge.reads 0, hsh, sendable k r i.writes _ [] m1 l1.1 l1.2 tab' (apart_length hap' _) m2 (by decide) hw⟩
  unfold response
  simp only
  rw [if_pos (by omega)]
  exact r1

theorem refused (a : App) (k : Conn) (hk : 16384 ≤ k.maxFrame ∧ k.maxFrame < 2 ^ 24) (t : Hpack.DTab) {limit : Nat} {tab tab' : List Entry} (ht : Holds t limit tab)
    (i : Incoming) (fields : Pairs) (hc : Decodes limit tab tab' i fields) (hsid : i.sid < 2 ^ 31) {n : Nat} {reason : Bytes}
    (hn : (n = 400 ∧ reason = b!"Bad Request") ∨ (n = 413 ∧ reason = b!"Payload Too Large") ∨ (n = 406 ∧ reason = b!"Not Acceptable"))
    (hans : H2R.answer a.env ⟨true, cells i.alloc fields, i.body, i.discard⟩ = .status n) (hth : 0 < a.cfg0.threshold) (hd : a.cfg0.dflt n = none)
    (hdate : a.cfg0.date.length < 127) (hap : ∀ e ∈ tab', ¬ e.1 <+: b!":status") (hw : Takes i.writes 0) :
    ∃ t' bs len, serve a k t i = some (t', bs) ∧ Holds t' limit tab' ∧ Reads len 0 ∧ Shows k.maxFrame i.sid bs
      [(b!":status", Response.threeDigits n), (b!"server", b!"fly"), (b!"date", a.cfg0.date), (b!"content-length", len)] [] := by
  obtain ⟨t', e1, ht', hdyn⟩ := decoded t ht i fields hc
  obtain ⟨r, bs, len, hresp, e4, h1, h2, _⟩ := refusal_made a k hk i hsid hn hth hd hdate hap hw
  refine ⟨t', bs, len, ?_, ht', h1, h2⟩
  unfold serve
  simp only [e1, hans, hresp, hdyn, e4, Option.map_some]

theorem malformed_answer (a : App) (i : Incoming) (fields : Pairs) (hbad : Malformed fields) (hs : ∀ p ∈ fields, b!":scheme" <+: p.1 → p.2 ≠ []) :
    H2R.answer a.env ⟨true, cells i.alloc fields, i.body, i.discard⟩ = .status 400 := by
  have hcell : ∀ f ∈ cells i.alloc fields, ∃ p ∈ fields, ∃ al, f = cell al p := by
    intro f hf
    unfold cells at hf
    obtain ⟨j, hj, e⟩ := List.mem_mapIdx.1 hf
    exact ⟨fields[j], List.getElem_mem _, _, e.symm⟩
  have hcell' : ∀ p ∈ fields, ∃ al, cell al p ∈ cells i.alloc fields := by
    intro p hp
    obtain ⟨j, hj, e⟩ := List.getElem_of_mem hp
    exact ⟨i.alloc j, List.mem_mapIdx.2 ⟨j, hj, by rw [e]⟩⟩
  have hname : ∀ al (p : Bytes × Bytes), (cell al p).name.getD [] = p.1 := by
    intro al p; unfold cell; split <;> simp_all
  have hvalue : ∀ al (p : Bytes × Bytes), (cell al p).value.getD [] = p.2 := by
    intro al p; unfold cell; simp only; split <;> simp_all
  have hname' : ∀ al (p : Bytes × Bytes), p.1 ≠ [] → (cell al p).name = some p.1 := by
    intro al p h; unfold cell; simp [h]
  have hvalue' : ∀ al (p : Bytes × Bytes), p.2 ≠ [] → (cell al p).value = some p.2 := by
    intro al p h; unfold cell; simp [h]
  have hsv : ∀ g ∈ cells i.alloc fields, H2R.SchemeValue g := by
    intro g hg hpre
    obtain ⟨p, hp, al, rfl⟩ := hcell g hg
    rw [hname] at hpre
    rw [hvalue' al p (hs p hp hpre)]
    simp
  rcases hbad with ⟨p, hp, h1, h2⟩ | ⟨p, hp, h1, h2⟩ | ⟨p, hp, h1, h2⟩ | h | h
  · obtain ⟨al, hm⟩ := hcell' p hp
    exact H2R.C100_unknown_refused_partial a.env ⟨true, cells i.alloc fields, i.body, i.discard⟩ _ hm
      (Or.inl ⟨p.1, hname' al p (by intro e; rw [e] at h1; simp at h1), h1, h2⟩) hsv
  · obtain ⟨al, hm⟩ := hcell' p hp
    exact H2R.C100_unknown_refused_partial a.env ⟨true, cells i.alloc fields, i.body, i.discard⟩ _ hm
      (Or.inr (Or.inl ⟨by rw [hname' al p (by rw [h1]; simp), h1], by rw [hvalue]; exact h2⟩)) hsv
  · obtain ⟨al, hm⟩ := hcell' p hp
    exact H2R.C100_unknown_refused_partial a.env ⟨true, cells i.alloc fields, i.body, i.discard⟩ _ hm
      (Or.inr (Or.inr ⟨by rw [hname' al p (by rw [h1]; simp), h1], p.2, hvalue' al p (hs p hp (by rw [h1]; exact List.prefix_refl _)), h2⟩)) hsv
  · refine H2R.C100_incomplete_refused_partial a.env ⟨true, cells i.alloc fields, i.body, i.discard⟩ hsv (Or.inl fun f hf => ?_)
    obtain ⟨p, hp, al, rfl⟩ := hcell f hf
    rw [hname]; exact h p hp
  · refine H2R.C100_incomplete_refused_partial a.env ⟨true, cells i.alloc fields, i.body, i.discard⟩ hsv (Or.inr fun f hf => ?_)
    obtain ⟨p, hp, al, rfl⟩ := hcell f hf
    rw [hname]; exact h p hp

/-- **C177 (partial, malformed requests).** Whatever the application, and whatever the client has sent before: header fields that are no request are answered with one whole 400
response, and the connection goes on.
Missing: a `:scheme` without value (`C101_empty_scheme_refuted`), and what is malformed for the RFC but not for the server (C100). -/
theorem C177_malformed_partial (a : App) (k : Conn) (hk : 16384 ≤ k.maxFrame ∧ k.maxFrame < 2 ^ 24) (t : Hpack.DTab) {limit : Nat} {tab tab' : List Entry} (ht : Holds t limit tab)
    (i : Incoming) (fields : Pairs) (hc : Decodes limit tab tab' i fields) (hsid : i.sid < 2 ^ 31) (hbad : Malformed fields)
    (hs : ∀ p ∈ fields, b!":scheme" <+: p.1 → p.2 ≠ []) (hth : 0 < a.cfg0.threshold) (hd : a.cfg0.dflt 400 = none)
    (hdate : a.cfg0.date.length < 127) (hap : ∀ e ∈ tab', ¬ e.1 <+: b!":status") (hw : Takes i.writes 0) :
    ∃ t' bs len, serve a k t i = some (t', bs) ∧ Holds t' limit tab' ∧ Reads len 0 ∧ Shows k.maxFrame i.sid bs
      [(b!":status", b!"400"), (b!"server", b!"fly"), (b!"date", a.cfg0.date), (b!"content-length", len)] [] := by
  exact refused a k hk t ht i fields hc hsid (n := 400) (Or.inl ⟨rfl, rfl⟩) (malformed_answer a i fields hbad hs) hth hd hdate hap hw

/-- **C177 (partial, size limit).** Whatever the application: a proper request whose content is longer than allowed is answered with one whole 413 response, and no function is
called. -/
theorem C177_discarded_partial (a : App) (k : Conn) (hk : 16384 ≤ k.maxFrame ∧ k.maxFrame < 2 ^ 24) (t : Hpack.DTab) {limit : Nat} {tab tab' : List Entry} (ht : Holds t limit tab)
    (i : Incoming) (q : Ask) (hg : q.Sound) (hc : Decodes limit tab tab' i q.fields) (hdis : i.discard = true) (hsid : i.sid < 2 ^ 31)
    (hth : 0 < a.cfg0.threshold) (hd : a.cfg0.dflt 413 = none) (hdate : a.cfg0.date.length < 127) (hap : ∀ e ∈ tab', ¬ e.1 <+: b!":status") (hw : Takes i.writes 0) :
    ∃ t' bs len, serve a k t i = some (t', bs) ∧ Holds t' limit tab' ∧ Reads len 0 ∧ Shows k.maxFrame i.sid bs
      [(b!":status", b!"413"), (b!"server", b!"fly"), (b!"date", a.cfg0.date), (b!"content-length", len)] [] := by
  refine refused a k hk t ht i q.fields hc hsid (n := 413) (Or.inr (Or.inl ⟨rfl, rfl⟩)) ?_ hth hd hdate hap hw
  rw [hdis]
  exact H2R.C100_discarded_is_413_partial a.env true (cells i.alloc q.fields) q.fields q.method true q.path q.query i.body (cells_hold i.alloc q.fields)
    hg.wellFormed hg.path hg.query

/-! A server, an application and two requests that meet the hypotheses. -/

def sampleCfg : Cfg := { Trip.sampleCfg with compress := fun _ b => 0 :: b.take 10 }

def sampleApp : App := { Trip.sampleApp with cfg := fun _ => sampleCfg, cfg0 := sampleCfg }

def sampleConn : Conn := ⟨0, fun p => p.1 = b!"content-type", 16384⟩

def sampleWrites : Writes := ⟨[[.block, .block] ++ List.replicate 1009 (.sent 50)], List.replicate 9 (.sent 4), [.sent 2, .block, .sent 1, .sent 1, .sent 1, .sent 1, .sent 1]⟩

/-- A request with content for the route with a parameter. -/
def askFirst : Ask :=
  ⟨.get, b!"/a", some b!"k=1", [(b!":method", b!"GET"), (b!":scheme", b!"https"), (b!":path", b!"/a?k=1"), (b!"x-y", b!"z"), (b!"content-length", b!"5")], some b!"hello"⟩

def repsFirst : List Rep :=
  [.indexed 2, .indexed 7, .literal .noUpdate (.index 4) ⟨true, b!"/a?k=1"⟩, .literal .update (.new ⟨false, b!"x-y"⟩) ⟨false, b!"z"⟩,
    .literal .noIndex (.index 28) ⟨false, b!"5"⟩]

/-- A request without content for the route without one. -/
def askSecond : Ask := ⟨.get, b!"/f", none, [(b!":method", b!"GET"), (b!":scheme", b!"https"), (b!":path", b!"/f")], none⟩

def repsSecond : List Rep := [.indexed 2, .indexed 7, .literal .update (.index 4) ⟨false, b!"/f"⟩]

def sampleInc (sid : Nat) (rs : List Rep) (body : Option Bytes) (w : Int) : Incoming :=
  ⟨sid, ⟨rs.flatMap Rep.wire ++ [0], []⟩, (rs.flatMap Rep.wire).length, fun _ => false, body, false, ⟨w, 65535⟩, sampleWrites⟩

def sampleFirst : Exchange := ⟨askFirst, sampleInc 1 repsFirst (some b!"hello") 65535, .response 201 b!"Created" [(b!"X-name", b!"a")] b!"text/html" b!"hello"⟩

def sampleSecond : Exchange := ⟨askSecond, sampleInc 3 repsSecond none 65535, .value (.str b!"file") b!"file"⟩

theorem askFirst_good : askFirst.Good where
  wellFormed := ⟨[(b!":method", b!"GET"), (b!":scheme", b!"https"), (b!":path", b!"/a?k=1")], [(b!"x-y", b!"z"), (b!"content-length", b!"5")], rfl,
    Or.inl (List.Perm.refl _), by unfold H2R.Regular; decide⟩
  path := ⟨rfl, by unfold Req.PathByte Req.RfcPchar Req.RfcUnreserved Req.RfcSubDelims; decide⟩
  query := by
    intro x hx
    injection hx with hx
    subst hx
    exact ⟨by simp, by unfold Req.QueryByte Req.RfcPchar Req.RfcUnreserved Req.RfcSubDelims; decide⟩
  names := by unfold LowerName Ascii; decide
  agreeable := Nego.agreeable_nothing (by decide)
  noCoding := by decide
  known := by
    intro p hp h
    have : ∀ p ∈ askFirst.fields, p.1 ≠ b!"content-type" := by decide
    exact absurd h (this p hp)

theorem askSecond_good : askSecond.Good where
  wellFormed := ⟨_, [], rfl, Or.inl (List.Perm.refl _), by simp⟩
  path := ⟨rfl, by unfold Req.PathByte Req.RfcPchar Req.RfcUnreserved Req.RfcSubDelims; decide⟩
  query := by intro x hx; simp [askSecond] at hx
  names := by unfold LowerName Ascii; decide
  agreeable := Nego.agreeable_nothing (by decide)
  noCoding := by decide
  known := by
    intro p hp h
    have : ∀ p ∈ askSecond.fields, p.1 ≠ b!"content-type" := by decide
    exact absurd h (this p hp)

theorem sample_carries (q : Ask) (sid : Nat) (rs : List Rep) (w : Int) {tab tab' : List Entry} (h : rfcBlock 4096 tab rs = some (q.fields, tab'))
    (hr : ∀ r ∈ rs, Hpack.okRep r) : Carries 4096 tab tab' (sampleInc sid rs q.body w) q :=
  ⟨rfl, rfl, ⟨by simp [sampleInc], by simp [sampleInc]⟩, rs, [0], by simp [sampleInc, Buffer.Cursor.flat], by simp, rfl, h, hr, Or.inl rfl⟩

theorem repsFirst_ok : ∀ r ∈ repsFirst, Hpack.okRep r := by
  intro r hr
  simp only [repsFirst, List.mem_cons, List.not_mem_nil, or_false] at hr
  rcases hr with rfl | rfl | rfl | rfl | rfl
  · exact by unfold Hpack.okRep; decide
  · exact by unfold Hpack.okRep; decide
  · exact ⟨by decide, by decide, by decide, fun _ => ⟨by decide, by decide, by decide +kernel⟩⟩
  · exact ⟨by decide, ⟨by decide, by simp⟩, by decide, by simp⟩
  · exact ⟨by decide, by decide, by decide, by simp⟩

theorem repsSecond_ok : ∀ r ∈ repsSecond, Hpack.okRep r := by
  intro r hr
  simp only [repsSecond, List.mem_cons, List.not_mem_nil, or_false] at hr
  rcases hr with rfl | rfl | rfl
  · exact by unfold Hpack.okRep; decide
  · exact by unfold Hpack.okRep; decide
  · exact ⟨by decide, by decide, by decide, by simp⟩

theorem sample_takes (n : Nat) (h : n ≤ 6) : Takes sampleWrites n where
  frame := ⟨2, List.replicate 1009 (.sent 50), rfl, fun s hs => ⟨49, List.eq_of_mem_replicate hs⟩, Nat.le_of_eq (List.length_replicate ..).symm⟩
  dataHeader := ⟨fun s hs => ⟨3, List.eq_of_mem_replicate hs⟩, by decide⟩
  data := ⟨by unfold H2B.Calm sampleWrites; decide, Nat.le_trans h (by decide)⟩

theorem first_shown : Shown sampleCfg sampleFirst.out = some ([(b!":status", b!"201"), (b!"x-name", b!"a"), (b!"content-type", b!"text/html"),
    (b!"date", b!"Mon, 16 Nov 2026 10:00:00 GMT"), (b!"server", b!"fly")], b!"hello") := by decide +kernel

theorem second_shown : Shown sampleCfg sampleSecond.out = some ([(b!":status", b!"200"), (b!"date", b!"Mon, 16 Nov 2026 10:00:00 GMT"), (b!"server", b!"fly"),
    (b!"content-type", b!"text/plain")], b!"file") := by decide +kernel

theorem second_apart (tab : List Entry) (h : ∀ e ∈ tab, ¬ e.1 <+: b!":status") : Apart tab [(b!":status", b!"200"), (b!"date", b!"Mon, 16 Nov 2026 10:00:00 GMT"),
    (b!"server", b!"fly"), (b!"content-type", b!"text/plain")] := by
  intro p hp hn e he _ hx
  simp only [List.mem_cons, List.not_mem_nil, or_false] at hp
  rcases hp with rfl | rfl | rfl | rfl
  · exact absurd hx (h e he)
  · exact absurd (by simp) hn
  · exact absurd (by simp) hn
  · exact absurd (by simp) hn

theorem first_returns : Returns sampleApp askFirst (.response (build 201 [(b!"X-name", b!"a")] b!"hello" b!"text/html").obj) := by
  refine ⟨2, [(b!"name", b!"a")], ⟨[(b!"/f", .get, 1)], b!"/{name:str}", .get, [], rfl, ⟨?_, ?_⟩, ?_, ?_⟩, by decide +kernel⟩
  · exact (Route.fits_last [] b!"name:str" b!"/a" (by decide) (by decide)).2 ⟨b!"a", rfl, by decide, by decide⟩
  · intro h; exact absurd h (by unfold Route.Plain; decide)
  · intro x hx
    rcases List.mem_singleton.1 hx with rfl
    rintro ⟨h, _⟩
    rw [Route.fits_plain _ _ (by unfold Route.Plain; decide)] at h
    revert h; decide
  · exact Or.inr ⟨[], b!"name", some .str, b!"a", by decide, by unfold Route.Plain; decide, by unfold Route.NameOk; decide, rfl, rfl⟩

theorem second_returns : Returns sampleApp askSecond (.value (.str b!"file")) := by
  refine ⟨1, [], ⟨[], b!"/f", .get, _, rfl, ⟨?_, fun _ => rfl⟩, by simp, Or.inl ⟨by unfold Route.Plain; decide, rfl⟩⟩, rfl⟩
  rw [Route.fits_plain _ _ (by unfold Route.Plain; decide)]
  rfl

theorem sampleFirst_proper : Proper sampleApp 4096 [] [(b!"x-y", b!"z")] sampleFirst where
  good := askFirst_good
  method := by decide
  carries := sample_carries askFirst 1 repsFirst _ (by decide +kernel) repsFirst_ok
  sid := by decide
  threshold := by decide
  codings := by intro c b; show 0 :: b.take 10 ≠ []; simp
  makes := ⟨first_returns, by decide, by decide, by decide, by decide, by intro k; show decide (100000 < (0 :: b!"hello".take 10).length) = false; decide, by decide, by decide⟩
  fields := by
    intro fs body h
    rw [show Shown (Exchange.cfg sampleApp sampleFirst) sampleFirst.out = Shown sampleCfg sampleFirst.out from rfl, first_shown] at h
    injection h with h; injection h with h1 h2
    subst h1
    exact ⟨by decide +kernel, by decide⟩
  takes := by
    intro fs body h
    rw [show Shown (Exchange.cfg sampleApp sampleFirst) sampleFirst.out = Shown sampleCfg sampleFirst.out from rfl, first_shown] at h
    injection h with h; injection h with h1 h2
    subst h2
    exact sample_takes _ (by decide)

theorem sampleSecond_proper (w : Int) {tab tab' : List Entry} (hb : rfcBlock 4096 tab repsSecond = some (askSecond.fields, tab')) :
    Proper sampleApp 4096 tab tab' { sampleSecond with inc := sampleInc 3 repsSecond none w } where
  good := askSecond_good
  method := by show Method.get ≠ .head; decide
  carries := sample_carries askSecond 3 repsSecond _ hb repsSecond_ok
  sid := by show 3 < 2 ^ 31; decide
  threshold := by show 0 < 1024; decide
  codings := by intro c b; show 0 :: b.take 10 ≠ []; simp
  makes := ⟨second_returns, rfl, by show (4 : Int) ≤ 1048576; decide, by intro k; show decide (100000 < (0 :: b!"file".take 10).length) = false; decide, by intro h; simp at h⟩
  fields := by
    intro fs body h
    rw [show Shown (Exchange.cfg sampleApp { sampleSecond with inc := sampleInc 3 repsSecond none w }) sampleSecond.out = Shown sampleCfg sampleSecond.out from rfl, second_shown] at h
    injection h with h; injection h with h1 h2
    subst h1
    exact ⟨by decide +kernel, by decide⟩
  takes := by
    intro fs body h
    rw [show Shown (Exchange.cfg sampleApp { sampleSecond with inc := sampleInc 3 repsSecond none w }) sampleSecond.out = Shown sampleCfg sampleSecond.out from rfl, second_shown] at h
    injection h with h; injection h with h1 h2
    subst h2
    exact sample_takes _ (by decide)

/-- A request that uses the entries of the two before. -/
def askThird : Ask := ⟨.get, b!"/f", none, [(b!":method", b!"GET"), (b!":scheme", b!"https"), (b!":path", b!"/f"), (b!"x-y", b!"z")], none⟩

def repsThird : List Rep := [.indexed 2, .indexed 7, .indexed 62, .indexed 63]

def sampleThird : Exchange := ⟨askThird, sampleInc 5 repsThird none 65535, .value (.str b!"file") b!"file"⟩

theorem askThird_good : askThird.Good where
  wellFormed := ⟨[(b!":method", b!"GET"), (b!":scheme", b!"https"), (b!":path", b!"/f")], [(b!"x-y", b!"z")], rfl, Or.inl (List.Perm.refl _), by unfold H2R.Regular; decide⟩
  path := ⟨rfl, by unfold Req.PathByte Req.RfcPchar Req.RfcUnreserved Req.RfcSubDelims; decide⟩
  query := by intro x hx; simp [askThird] at hx
  names := by unfold LowerName Ascii; decide
  agreeable := Nego.agreeable_nothing (by decide)
  noCoding := by decide
  known := by
    intro p hp h
    have : ∀ p ∈ askThird.fields, p.1 ≠ b!"content-type" := by decide
    exact absurd h (this p hp)

theorem clear_second (x : Exchange) (tab : List Entry) (hx : Shown (x.cfg sampleApp) x.out = Shown sampleCfg sampleSecond.out)
    (h : ∀ e ∈ tab, ¬ e.1 <+: b!":status") : Clear sampleApp tab x := by
  intro fs body hs
  rw [hx, second_shown] at hs
  injection hs with hs; injection hs with h1 h2
  subst h1
  exact second_apart _ h

theorem repsThird_ok : ∀ r ∈ repsThird, Hpack.okRep r := by
  intro r hr
  simp only [repsThird, List.mem_cons, List.not_mem_nil, or_false] at hr
  rcases hr with rfl | rfl | rfl | rfl <;> exact by unfold Hpack.okRep; decide

theorem sampleThird_proper : Proper sampleApp 4096 [(b!":path", b!"/f"), (b!"x-y", b!"z")] [(b!":path", b!"/f"), (b!"x-y", b!"z")] sampleThird where
  good := askThird_good
  method := by decide
  carries := sample_carries askThird 5 repsThird _ (by decide +kernel) repsThird_ok
  sid := by decide
  threshold := by decide
  codings := by intro c b; show 0 :: b.take 10 ≠ []; simp
  makes := by
    obtain ⟨f, ps, h, e⟩ := second_returns
    refine ⟨⟨f, ps, h, ?_⟩, rfl, by show (4 : Int) ≤ 1048576; decide, by intro k; show decide (100000 < (0 :: b!"file".take 10).length) = false; decide, by intro h; simp at h⟩
    revert e
    show sampleApp.fns f _ = _ → sampleApp.fns f _ = _
    unfold sampleApp Trip.sampleApp
    simp only
    split <;> simp [dictionary]
  fields := by
    intro fs body h
    rw [show Shown (Exchange.cfg sampleApp sampleThird) sampleThird.out = Shown sampleCfg sampleSecond.out from rfl, second_shown] at h
    injection h with h; injection h with h1 h2
    subst h1
    exact ⟨by decide +kernel, by decide⟩
  takes := by
    intro fs body h
    rw [show Shown (Exchange.cfg sampleApp sampleThird) sampleThird.out = Shown sampleCfg sampleSecond.out from rfl, second_shown] at h
    injection h with h; injection h with h1 h2
    subst h2
    exact sample_takes _ (by decide)

/-- The hypotheses are met, and this is what the client reads. -/
example : Course sampleApp sampleConn 4096 [] [sampleFirst, sampleSecond, sampleThird] ∧
    (session sampleApp sampleConn (Hpack.DTab.init ⟨[], [], 0, 0, 0⟩ 4096) [sampleFirst.inc, sampleSecond.inc, sampleThird.inc]).map (fun l => l.map fun bs => (message 16384 1 bs).map (·.2)) =
      some [some b!"hello", none, none] ∧
    (session sampleApp sampleConn (Hpack.DTab.init ⟨[], [], 0, 0, 0⟩ 4096) [sampleFirst.inc, sampleSecond.inc, sampleThird.inc]).map (fun l => l.map fun bs => (message 16384 5 bs).map (·.2)) =
      some [none, none, some b!"file"] := by
  refine ⟨⟨_, sampleFirst_proper, ?_, ?_, _, sampleSecond_proper 65535 (tab' := [(b!":path", b!"/f"), (b!"x-y", b!"z")]) (by decide +kernel),
    clear_second _ _ rfl (by decide), ?_, _, sampleThird_proper, clear_second _ _ rfl (by decide), ?_, trivial⟩, by decide +kernel, by decide +kernel⟩
  · intro fs body h
    rw [show Shown (Exchange.cfg sampleApp sampleFirst) sampleFirst.out = Shown sampleCfg sampleFirst.out from rfl, first_shown] at h
    injection h with h; injection h with h1 h2
    subst h1
    unfold Apart; decide
  · intro fs body h _
    rw [show Shown (Exchange.cfg sampleApp sampleFirst) sampleFirst.out = Shown sampleCfg sampleFirst.out from rfl, first_shown] at h
    injection h with h; injection h with h1 h2
    subst h2
    decide
  · intro fs body h _
    rw [show Shown (Exchange.cfg sampleApp sampleSecond) sampleSecond.out = Shown sampleCfg sampleSecond.out from rfl, second_shown] at h
    injection h with h; injection h with h1 h2
    subst h2
    decide
  · intro fs body h _
    rw [show Shown (Exchange.cfg sampleApp sampleThird) sampleThird.out = Shown sampleCfg sampleSecond.out from rfl, second_shown] at h
    injection h with h; injection h with h1 h2
    subst h2
    decide

/-- A request with an unknown pseudo-header field that is entered in the table. -/
example : ∃ t' bs len, serve sampleApp sampleConn (Hpack.DTab.init ⟨[], [], 0, 0, 0⟩ 4096)
      (sampleInc 7 [.indexed 2, .indexed 4, .indexed 7, .literal .update (.new ⟨false, b!":protocol"⟩) ⟨false, b!"websocket"⟩] none 65535) = some (t', bs) ∧
    Holds t' 4096 [(b!":protocol", b!"websocket")] ∧ Reads len 0 ∧ Shows 16384 7 bs
      [(b!":status", b!"400"), (b!"server", b!"fly"), (b!"date", b!"Mon, 16 Nov 2026 10:00:00 GMT"), (b!"content-length", len)] [] := by
  refine C177_malformed_partial sampleApp sampleConn (by decide) _ (holds_init _ _) _
    [(b!":method", b!"GET"), (b!":path", b!"/"), (b!":scheme", b!"https"), (b!":protocol", b!"websocket")]
    (sample_carries ⟨.get, [], none, [(b!":method", b!"GET"), (b!":path", b!"/"), (b!":scheme", b!"https"), (b!":protocol", b!"websocket")], none⟩ 7 _ 65535
      (by decide +kernel) ?_).2.2 (by decide)
    (Or.inl ⟨(b!":protocol", b!"websocket"), by simp, rfl, by decide⟩) (by decide) (by decide) rfl (by decide) (by decide) (sample_takes 0 (by decide))
  intro r hr
  simp only [List.mem_cons, List.not_mem_nil, or_false] at hr
  rcases hr with rfl | rfl | rfl | rfl
  · exact by unfold Hpack.okRep; decide
  · exact by unfold Hpack.okRep; decide
  · exact by unfold Hpack.okRep; decide
  · exact ⟨by decide, ⟨by decide, by simp⟩, by decide, by simp⟩

/-- A request with too much content. -/
example : ∃ t' bs len, serve sampleApp sampleConn (Hpack.DTab.init ⟨[], [], 0, 0, 0⟩ 4096) { sampleInc 1 repsFirst none 65535 with discard := true } = some (t', bs) ∧
    Holds t' 4096 [(b!"x-y", b!"z")] ∧ Reads len 0 ∧ Shows 16384 1 bs
      [(b!":status", b!"413"), (b!"server", b!"fly"), (b!"date", b!"Mon, 16 Nov 2026 10:00:00 GMT"), (b!"content-length", len)] [] :=
  C177_discarded_partial sampleApp sampleConn (by decide) _ (holds_init _ _) { sampleInc 1 repsFirst none 65535 with discard := true } askFirst askFirst_good.toSound
    (sample_carries askFirst 1 repsFirst 65535 (by decide +kernel) repsFirst_ok).2.2 rfl (by show 1 < 2 ^ 31; decide) (by decide) rfl (by decide) (by decide)
    (sample_takes 0 (by decide))

/-! ## What does not hold -/

/-- The bytes sent for a proper request. -/
theorem served_bytes (a : App) (hr : ∀ x ∈ a.routes, WrittenPath x.1) (k : Conn) (hk : 16384 ≤ k.maxFrame ∧ k.maxFrame < 2 ^ 24) (t : Hpack.DTab)
    {limit : Nat} {tab tab' : List Entry} (ht : Holds t limit tab) (x : Exchange) (h : Proper a limit tab tab' x) (hcl : Clear a tab' x) (fs : Pairs) (body : Bytes)
    (hs : Shown (x.cfg a) x.out = some (fs, body)) (hb : body ≠ [])
    (hl : body.length < 2 ^ 24) (ho : 0 < x.inc.win.stream ∧ 0 < x.inc.win.conn) :
    ∃ t' block, serve a k t x.inc = some (t', H2.wireHeader block.length 1 4 false x.inc.sid ++ block ++
      (H2.wireHeader body.length 0 (if (body.length : Int) < x.inc.win.stream ∧ (body.length : Int) < x.inc.win.conn then 1 else 0) false x.inc.sid ++ body)) := by
  obtain ⟨t', e1, ht', hdyn⟩ := decoded t ht x.inc _ h.carries.2.2
  obtain ⟨r, e2, m1, m2, m3⟩ := response_made a hr x h fs body hs
  obtain ⟨block, e3, _, _⟩ := sent_block k hk x.inc.sid h.sid x.inc.win r x.inc.writes fs body m1 (h.fields fs body hs).1 (h.fields fs body hs).2 _ (hcl fs body hs) hl
    (h.takes fs body hs)
  refine ⟨t', block, ?_⟩
  unfold serve
  simp only [e1, e2, hdyn, e3, Option.map_some]
  rw [decide_eq_false (fun hx => hb (m3.1 hx)), data_written _ h.sid _ ho _ _ _ m2 hb hl _ (h.takes fs body hs)]
  simp only [Bool.false_eq_true, if_false]

/-- **C177 refuted (windows).** Whatever the application and the request: a response with content at least as long as one of the (open) windows of the client is sent
without an end: the client never has a whole response, whatever frames it allows. -/
theorem C177_window_refuted (a : App) (hr : ∀ x ∈ a.routes, WrittenPath x.1) (k : Conn) (hk : 16384 ≤ k.maxFrame ∧ k.maxFrame < 2 ^ 24) (t : Hpack.DTab)
    {limit : Nat} {tab tab' : List Entry} (ht : Holds t limit tab) (x : Exchange) (h : Proper a limit tab tab' x) (hcl : Clear a tab' x) (fs : Pairs) (body : Bytes)
    (hs : Shown (x.cfg a) x.out = some (fs, body)) (hb : body ≠ [])
    (hl : body.length < 2 ^ 24) (ho : 0 < x.inc.win.stream ∧ 0 < x.inc.win.conn)
    (hw : x.inc.win.stream ≤ body.length ∨ x.inc.win.conn ≤ body.length) :
    ∃ t' bs, serve a k t x.inc = some (t', bs) ∧ ∀ m, message m x.inc.sid bs = none := by
  obtain ⟨t', block, e⟩ := served_bytes a hr k hk t ht x h hcl fs body hs hb hl ho
  refine ⟨t', _, e, ?_⟩
  rw [if_neg (by omega)]
  exact fun m => message_bad m x.inc.sid h.sid block body 0 (Or.inl rfl)

/-- **C177 refuted (frame size).** Whatever the application and the request: a response with content longer than the client allows for a frame is sent
in one frame, which the client refuses. -/
theorem C177_frame_size_refuted (a : App) (hr : ∀ x ∈ a.routes, WrittenPath x.1) (k : Conn) (hk : 16384 ≤ k.maxFrame ∧ k.maxFrame < 2 ^ 24) (t : Hpack.DTab)
    {limit : Nat} {tab tab' : List Entry} (ht : Holds t limit tab) (x : Exchange) (h : Proper a limit tab tab' x) (hcl : Clear a tab' x) (fs : Pairs) (body : Bytes)
    (hs : Shown (x.cfg a) x.out = some (fs, body)) (hl : body.length < 2 ^ 24) (ho : 0 < x.inc.win.stream ∧ 0 < x.inc.win.conn) (hw : k.maxFrame < body.length) :
    ∃ t' bs, serve a k t x.inc = some (t', bs) ∧ message k.maxFrame x.inc.sid bs = none := by
  obtain ⟨t', block, e⟩ := served_bytes a hr k hk t ht x h hcl fs body hs (by intro e; rw [e] at hw; simp at hw) hl ho
  exact ⟨t', _, e, message_bad _ x.inc.sid h.sid block body _ (Or.inr hw)⟩

/-- **C177 refuted (codings).** A function returns content that is to be encoded and whose encoded form is too long: the response is released twice. -/
theorem C177_coded_too_long_refuted (a : App) (hr : ∀ x ∈ a.routes, WrittenPath x.1) (k : Conn) (t : Hpack.DTab) {limit : Nat} {tab tab' : List Entry} (ht : Holds t limit tab)
    (i : Incoming) (q : Ask) (hg : q.Good) (hm : q.method ≠ .head) (hc : Carries limit tab tab' i q) (c : Cfg) (hcfg : c = a.cfg ⟨cells i.alloc q.fields, (cells i.alloc q.fields).length⟩)
    (body : Bytes) (hb : body ≠ []) (hret : Returns a q (.value (.str body)) ∨ Returns a q (.value (.bytes body)))
    (hmax : (body.length : Int) ≤ c.maxLen) (hth : c.threshold ≤ body.length)
    (j : Response.Coding) (hj : c.acc.decided = some j ∧ j ≠ 0) (ho : c.overflow (c.compress j body) = true) : serve a k t i = none := by
  obtain ⟨ret, hret', hv⟩ : ∃ ret, Returns a q ret ∧ (ret = .value (.str body) ∨ ret = .value (.bytes body)) := by
    rcases hret with h | h
    · exact ⟨_, h, Or.inl rfl⟩
    · exact ⟨_, h, Or.inr rfl⟩
  obtain ⟨t', e1, _, _⟩ := decoded t ht i _ hc.2.2
  obtain ⟨n, e2, e3⟩ := choose_returns a hr q hg i.alloc ret hret'
  have hconv : PyBridge.convert true false c.maxLen ret = .reply (some 200) HList.init (some body) := by
    rcases hv with rfl | rfl
    · simp only [PyBridge.convert, Bool.false_eq_true, if_false, PyBridge.takeBody_ok hmax, if_neg hb]
    · simp only [PyBridge.convert, PyBridge.takeBody_ok hmax, if_neg hb]
  have hfin : ∀ st h, finish c st h (some body) = none := by
    intro st h
    have hp : H2B.prepare c.compress c.overflow c.threshold c.acc false (some body) none none = some .tooLarge := by
      simp [H2B.prepare, H2B.source, if_pos hth, hj.1, ho, Response.identity, hj.2]
    unfold finish
    cases PyBridge.statusPseudo st h with
    | none => rfl
    | some h => simp [hp]
  unfold serve
  simp only [e1]
  rw [hc.1, hc.2.1, answered a q hg i.alloc, e2]
  simp only [response, e3]
  rw [decide_eq_false hm, ← hcfg, respond, hconv]
  simp only [hfin]

/-- **C177 refuted (HEAD).** Whatever the `Response` or text that the function returns for a HEAD request: the client reads a 500, as if the function had raised an exception. -/
theorem C177_head_refuted (a : App) (hr : ∀ x ∈ a.routes, WrittenPath x.1) (k : Conn) (hk : 16384 ≤ k.maxFrame ∧ k.maxFrame < 2 ^ 24) (t : Hpack.DTab)
    {limit : Nat} {tab tab' : List Entry} (ht : Holds t limit tab) (i : Incoming) (q : Ask) (hg : q.Good) (hm : q.method = .head) (hc : Carries limit tab tab' i q) (hsid : i.sid < 2 ^ 31) (c : Cfg)
    (hcfg : c = a.cfg ⟨cells i.alloc q.fields, (cells i.alloc q.fields).length⟩) (ret : PyBridge.Ret) (hret : Returns a q ret)
    (hv : (∃ o, ret = .response o) ∨ ∃ s, ret = .value (.str s)) (hth : 0 < c.threshold) (hd : c.dflt 500 = none) (hdate : c.date.length < 127)
    (hap : ∀ e ∈ tab', ¬ e.1 <+: b!":status") (hw : Takes i.writes 0) :
    ∃ t' bs len, serve a k t i = some (t', bs) ∧ Reads len 0 ∧ Shows k.maxFrame i.sid bs
      [(b!":status", b!"500"), (b!"server", b!"fly"), (b!"date", c.date), (b!"content-type", b!"text/plain"), (b!"content-length", len)] [] := by
  obtain ⟨t', e1, _, hdyn⟩ := decoded t ht i _ hc.2.2
  obtain ⟨n, e2, e3⟩ := choose_returns a hr q hg i.alloc ret hret
  have hconv : PyBridge.convert true true c.maxLen ret = .error := by
    rcases hv with ⟨o, rfl⟩ | ⟨s, rfl⟩ <;> rfl
  obtain ⟨i4, v4⟩ := complete_server c.date
  obtain ⟨r, r1, r2⟩ := finish_empty c (code := 500) (reason := b!"Internal Server Error") (by decide +kernel) _ i4 (by rw [v4]; simp) hth hd
  rw [v4, show Response.threeDigits 500 = b!"500" from by decide] at r2
  obtain ⟨m1, m2, m3⟩ := r2
  have hok : ∀ p ∈ ([(b!":status", b!"500"), (b!"server", b!"fly"), (b!"date", c.date), (b!"content-type", b!"text/plain")] : Pairs), Hpack.okHeader p := by
    have h1 : Hpack.okHeader (b!":status", b!"500") ∧ Hpack.okHeader (b!"server", b!"fly") ∧ Hpack.okHeader (b!"content-type", b!"text/plain") := by decide +kernel
    intro p hp
    simp only [List.mem_cons, List.not_mem_nil, or_false] at hp
    rcases hp with rfl | rfl | rfl | rfl
    · exact h1.1
    · exact h1.2.1
    · exact date_ok _ hdate
    · exact h1.2.2
  have hap' : Apart tab' [(b!":status", b!"500"), (b!"server", b!"fly"), (b!"date", c.date), (b!"content-type", b!"text/plain")] := by
    intro p hp hn e he _ hx
    simp only [List.mem_cons, List.not_mem_nil, or_false] at hp
    rcases hp with rfl | rfl | rfl | rfl
    · exact absurd hx (hap e he)
    · exact absurd (by simp) hn
    · exact absurd (by simp) hn
    · exact absurd (by simp) hn
  obtain ⟨bs, e4, hsh⟩ := sent_ok k hk i.sid hsid i.win r i.writes _ [] m1 hok (by simp [size]; omega) tab' hap' m2 m3 (fun h => absurd rfl h) hw
  refine ⟨t', bs, _, ?_, PyBridge.reads 0, hsh⟩
  unfold serve
  simp only [e1]
  rw [hc.1, hc.2.1, answered a q hg i.alloc, e2]
  simp only [response, e3]
  rw [decide_eq_true hm, ← hcfg, respond, hconv]
  simp only [r1, hdyn, e4, Option.map_some]

/-- **C177 refuted (the client's table).** Whatever the application and the request: if a field of the response is one that the client has entered in its table (with this request
or before), no field before it in the table has a name that begins its name, and it is not found in the static table, then the response refers to it by its number there; a client
that has not been sent the field before does not read the fields of the response. -/
theorem C177_client_table_refuted (a : App) (hr : ∀ x ∈ a.routes, WrittenPath x.1) (k : Conn) (hk : 16384 ≤ k.maxFrame ∧ k.maxFrame < 2 ^ 24) (t : Hpack.DTab)
    {limit : Nat} {tab tab' : List Entry} (ht : Holds t limit tab) (x : Exchange) (h : Proper a limit tab tab' x) (hroom : Roomy a k x)
    (pre : Pairs) (p : Entry) (post : Pairs) (body : Bytes) (hs : Shown (x.cfg a) x.out = some (pre ++ p :: post, body))
    (hap : Apart tab' (pre ++ post)) (hp : p.1 ≠ [] ∧ p.2 ≠ []) (hout : k.out p = false) (hst : ∀ e ∈ Hpack.staticTable, ¬ e.1 <+: p.1)
    (j : Nat) (hj : tab'[j]? = some p) (h65 : j < 65) (hfirst : ∀ e ∈ tab'.take j, ¬ e.1 <+: p.1) :
    ∃ t' bs block rs, serve a k t x.inc = some (t', bs) ∧ message k.maxFrame x.inc.sid bs = some (block, body) ∧ block = rs.flatMap Rep.wire ∧
      ∀ lim ct, p ∉ ct → p ∉ pre → ∀ len tab, rfcBlock lim ct rs ≠ some (pre ++ p :: post ++ [(b!"content-length", len)], tab) := by
  obtain ⟨t', e1, _, hdyn⟩ := decoded t ht x.inc _ h.carries.2.2
  obtain ⟨r, e2, m1, m2, m3⟩ := response_made a hr x h _ body hs
  have hlen : body.length < 2 ^ 24 := by
    by_cases hb : body = []
    · simp [hb]
    · have := (hroom _ _ hs hb).2.2; omega
  have hok := (h.fields _ _ hs).1
  have hcl := contentLength_ok body.length hlen
  have henc : encodeField k tab' p = (Rep.indexed (62 + j)).wire := by
    unfold encodeField
    rw [hout]
    simp only [Bool.false_eq_true, if_false]
    exact encodeHeader_client k.g tab' p hp.1 hp.2 j hj h65 hfirst hst
  have hpre : pre.map (encodeField k tab') = pre.map (encodeField k []) :=
    List.map_congr_left fun e he => encodeField_apart k tab' e (hap e (by simp [he]))
  have hpost : (post ++ [(b!"content-length", Response.contLenStr body.length)]).map (encodeField k tab') =
      (post ++ [(b!"content-length", Response.contLenStr body.length)]).map (encodeField k []) :=
    encodeFields_apart k tab' _ (apart_length (fun e he => hap e (by simp [he])) _)
  have hall2 : ∀ e ∈ post ++ [(b!"content-length", Response.contLenStr body.length)], Hpack.okHeader e := by
    intro e he
    rcases List.mem_append.1 he with he | he
    · exact hok e (by simp [he])
    · rw [List.mem_singleton.1 he]; exact hcl
  obtain ⟨rs1, a1, a2⟩ := encodeFields_uniform k pre (fun e he => hok e (by simp [he]))
  obtain ⟨rs2, b1, b2⟩ := encodeFields_uniform k _ hall2
  have hF : ((pre ++ p :: post ++ [(b!"content-length", Response.contLenStr body.length)]).map (encodeField k tab')).flatten =
      (rs1 ++ .indexed (62 + j) :: rs2).flatMap Rep.wire := by
    rw [List.append_assoc, List.cons_append, List.map_append, List.map_cons, hpre, hpost, List.flatten_append, List.flatten_cons, a1, b1, henc]
    simp
  have hFl : ((pre ++ p :: post ++ [(b!"content-length", Response.contLenStr body.length)]).map (encodeField k tab')).flatten.length ≤ 1000 := by
    have l1 := encodeFields_length k pre (fun e he => hok e (by simp [he]))
    have l2 := encodeFields_length k _ hall2
    have l3 := digits_short _ hlen
    have l4 := (h.fields _ _ hs).2
    have l5 : (encodeField k tab' p).length = 1 := by
      rw [henc]
      simp only [Rep.wire]
      exact rfcInt_short 7 128 _ (by simp; omega)
    rw [List.append_assoc, List.cons_append, List.map_append, List.map_cons, hpre, hpost, List.flatten_append, List.flatten_cons]
    simp only [size, List.map_append, List.map_cons, List.map_nil, List.sum_append, List.sum_cons, List.sum_nil, List.length_append, List.length_cons, List.length_nil] at l1 l2 l4 l5 ⊢
    omega
  have hsent := sent_frame k hk x.inc.sid h.sid x.inc.win r x.inc.writes _ body.length m1 tab' hFl (h.takes _ _ hs)
  refine ⟨t', _, _, rs1 ++ .indexed (62 + j) :: rs2, ?_, message_sent k hk x.inc.sid h.sid x.inc.win r x.inc.writes body m2 m3 (hroom _ _ hs) (h.takes _ _ hs) _ hFl, hF, ?_⟩
  · unfold serve
    simp only [e1, e2, hdyn, hsent, Option.map_some]
  · intro lim ct hct hpp len tab hc
    obtain ⟨tab1, hb1, hb2⟩ := a2 lim ct
    rw [rfcBlock_append, hb1] at hc
    simp only [rfcBlock] at hc
    cases hl : rfcRep lim tab1 (.indexed (62 + j)) with
    | none => rw [hl] at hc; simp at hc
    | some z =>
      rw [hl] at hc
      simp only at hc
      cases hq : rfcBlock lim z.2 rs2 with
      | none => rw [hq] at hc; simp at hc
      | some y =>
        rw [hq] at hc
        simp only [Option.map_some, Option.some.injEq, Prod.mk.injEq, List.append_assoc, List.cons_append, List.append_cancel_left_eq, List.cons.injEq] at hc
        have hz := hc.1.1
        simp only [rfcRep, Option.map_eq_some_iff] at hl
        obtain ⟨e, he, rfl⟩ := hl
        simp only at hz
        subst hz
        have hm : e ∈ tab1 := by
          unfold Hpack.rfcLookup at he
          rw [if_neg (by omega), List.getElem?_append_right (by rw [show Hpack.rfcStatic.length = 61 from by decide +kernel]; omega)] at he
          exact List.mem_of_getElem? he
        rcases hb2 e hm with h1 | h1
        · exact hct h1
        · exact hpp h1

/-! Cases that meet these hypotheses. -/

/-- A window of four bytes for a content of four bytes. -/
example : ∃ t' bs, serve sampleApp sampleConn (Hpack.DTab.init ⟨[], [], 0, 0, 0⟩ 4096) (sampleInc 3 repsSecond none 4) = some (t', bs) ∧ ∀ m, message m 3 bs = none :=
  C177_window_refuted sampleApp Trip.sampleApp_written sampleConn (by decide) _ (holds_init _ _) _ (sampleSecond_proper 4 (tab' := [(b!":path", b!"/f")]) (by decide +kernel))
    (clear_second _ _ rfl (by decide)) _ _ second_shown (by simp) (by decide) (by decide) (by decide)

/-- A request that enters the field that the response will have in the table. -/
def askFourth : Ask :=
  ⟨.get, b!"/a", some b!"k=1", [(b!":method", b!"GET"), (b!":scheme", b!"https"), (b!":path", b!"/a?k=1"), (b!"x-name", b!"a"), (b!"content-length", b!"5")], some b!"hello"⟩

def repsFourth : List Rep :=
  [.indexed 2, .indexed 7, .literal .noUpdate (.index 4) ⟨true, b!"/a?k=1"⟩, .literal .update (.new ⟨false, b!"x-name"⟩) ⟨false, b!"a"⟩,
    .literal .noIndex (.index 28) ⟨false, b!"5"⟩]

def sampleFourth : Exchange := ⟨askFourth, sampleInc 1 repsFourth (some b!"hello") 65535, sampleFirst.out⟩

theorem askFourth_good : askFourth.Good where
  wellFormed := ⟨[(b!":method", b!"GET"), (b!":scheme", b!"https"), (b!":path", b!"/a?k=1")], [(b!"x-name", b!"a"), (b!"content-length", b!"5")], rfl,
    Or.inl (List.Perm.refl _), by unfold H2R.Regular; decide⟩
  path := askFirst_good.path
  query := askFirst_good.query
  names := by unfold LowerName Ascii; decide
  agreeable := Nego.agreeable_nothing (by decide)
  noCoding := by decide
  known := by
    intro p hp h
    have : ∀ p ∈ askFourth.fields, p.1 ≠ b!"content-type" := by decide
    exact absurd h (this p hp)

theorem repsFourth_ok : ∀ r ∈ repsFourth, Hpack.okRep r := by
  intro r hr
  simp only [repsFourth, List.mem_cons, List.not_mem_nil, or_false] at hr
  rcases hr with rfl | rfl | rfl | rfl | rfl
  · exact by unfold Hpack.okRep; decide
  · exact by unfold Hpack.okRep; decide
  · exact ⟨by decide, by decide, by decide, fun _ => ⟨by decide, by decide, by decide +kernel⟩⟩
  · exact ⟨by decide, ⟨by decide, by simp⟩, by decide, by simp⟩
  · exact ⟨by decide, by decide, by decide, by simp⟩

theorem fourth_returns : Returns sampleApp askFourth (.response (build 201 [(b!"X-name", b!"a")] b!"hello" b!"text/html").obj) := by
  obtain ⟨f, ps, h, _⟩ := first_returns
  refine ⟨2, [(b!"name", b!"a")], ?_, by decide +kernel⟩
  refine ⟨[(b!"/f", .get, 1)], b!"/{name:str}", .get, [], rfl, ⟨?_, ?_⟩, ?_, ?_⟩
  · exact (Route.fits_last [] b!"name:str" b!"/a" (by decide) (by decide)).2 ⟨b!"a", rfl, by decide, by decide⟩
  · intro h; exact absurd h (by unfold Route.Plain; decide)
  · intro x hx
    rcases List.mem_singleton.1 hx with rfl
    rintro ⟨h, _⟩
    rw [Route.fits_plain _ _ (by unfold Route.Plain; decide)] at h
    revert h; decide
  · exact Or.inr ⟨[], b!"name", some .str, b!"a", by decide, by unfold Route.Plain; decide, by unfold Route.NameOk; decide, rfl, rfl⟩

theorem sampleFourth_proper : Proper sampleApp 4096 [] [(b!"x-name", b!"a")] sampleFourth where
  good := askFourth_good
  method := by decide
  carries := sample_carries askFourth 1 repsFourth _ (by decide +kernel) repsFourth_ok
  sid := by decide
  threshold := by decide
  codings := by intro c b; show 0 :: b.take 10 ≠ []; simp
  makes := ⟨fourth_returns, by decide, by decide, by decide, by decide, by intro k; show decide (100000 < (0 :: b!"hello".take 10).length) = false; decide, by decide, by decide⟩
  fields := sampleFirst_proper.fields
  takes := sampleFirst_proper.takes

/-- The client has sent `x-name: a`, the response has it as well, and the client with a new table cannot read it. -/
example : ∃ t' bs block rs, serve sampleApp sampleConn (Hpack.DTab.init ⟨[], [], 0, 0, 0⟩ 4096) sampleFourth.inc = some (t', bs) ∧
    message 16384 1 bs = some (block, b!"hello") ∧ block = rs.flatMap Rep.wire ∧
    ∀ len tab, rfcBlock 4096 [] rs ≠ some ([(b!":status", b!"201")] ++ (b!"x-name", b!"a") :: [(b!"content-type", b!"text/html"),
      (b!"date", b!"Mon, 16 Nov 2026 10:00:00 GMT"), (b!"server", b!"fly")] ++ [(b!"content-length", len)], tab) := by
  obtain ⟨t', bs, block, rs, h1, h2, h3, h4⟩ := C177_client_table_refuted sampleApp Trip.sampleApp_written sampleConn (by decide) _ (holds_init ⟨[], [], 0, 0, 0⟩ 4096)
    sampleFourth sampleFourth_proper (by
      intro fs body h _
      rw [show Shown (Exchange.cfg sampleApp sampleFourth) sampleFourth.out = Shown sampleCfg sampleFirst.out from rfl, first_shown] at h
      injection h with h; injection h with h1 h2
      subst h2
      decide) [(b!":status", b!"201")] (b!"x-name", b!"a") _ _ first_shown (by unfold Apart; decide) (by decide) (by decide) (by decide +kernel) 0 rfl (by decide) (by decide)
  exact ⟨t', bs, block, rs, h1, h2, h3, h4 4096 [] (by simp) (by decide)⟩

/-- The same application, with a text of `n` bytes and a threshold above. -/
def bigCfg (n : Nat) : Cfg := { sampleCfg with threshold := n + 1, maxLen := n }
def bigApp (n : Nat) : App := { sampleApp with fns := fun _ _ => .value (.str (List.replicate n 97)), cfg := fun _ => bigCfg n, cfg0 := bigCfg n }
def bigExchange (n : Nat) : Exchange :=
  ⟨askSecond, { sampleInc 3 repsSecond none 65535 with writes := { sampleWrites with data := List.replicate n (.sent 1) } }, .value (.str (List.replicate n 97)) (List.replicate n 97)⟩

theorem big_shown (n : Nat) : Shown (bigCfg n) (bigExchange n).out = some ([(b!":status", b!"200"), (b!"date", b!"Mon, 16 Nov 2026 10:00:00 GMT"), (b!"server", b!"fly"),
    (b!"content-type", b!"text/plain")], List.replicate n 97) := by
  have h1 : coding (bigCfg n) (List.replicate n 97) = none := by
    unfold coding; rw [if_neg]; rw [List.length_replicate]; exact Nat.not_succ_le_self n
  have h2 : coded (bigCfg n) (List.replicate n 97) = List.replicate n 97 := by
    unfold coded; rw [h1]
  simp only [Shown, bigExchange, codingField, h1, h2, List.append_nil]
  rfl

theorem takes_replicate (n : Nat) : H2B.takes (List.replicate n (.sent 1)) = n := by
  induction n with
  | zero => rfl
  | succ n ih => rw [List.replicate_succ, H2B.takes, ih]

theorem big_returns (n : Nat) : Returns (bigApp n) askSecond (.value (.str (List.replicate n 97))) := by
  obtain ⟨f, ps, h, _⟩ := second_returns
  exact ⟨f, ps, h, rfl⟩

theorem big_proper (n : Nat) (hn : n < 100000) (h0 : 0 < n) : Proper (bigApp n) 4096 [] [(b!":path", b!"/f")] (bigExchange n) where
  good := askSecond_good
  method := by show Method.get ≠ .head; decide
  carries := sample_carries askSecond 3 repsSecond 65535 (by decide +kernel) repsSecond_ok
  sid := by show 3 < 2 ^ 31; decide
  threshold := Nat.succ_pos n
  codings := by intro c b; show 0 :: b.take 10 ≠ []; simp
  makes := by
    refine ⟨big_returns n, rfl, ?_, ?_, ?_⟩
    · rw [List.length_replicate]; exact Int.le_refl _
    · intro k
      show decide (100000 < (0 :: (List.replicate n 97).take 10).length) = false
      rw [decide_eq_false_iff_not, List.length_cons, List.length_take]; omega
    · intro h; rw [List.replicate_eq_nil_iff] at h; omega
  fields := by
    intro fs body h
    rw [show Shown (Exchange.cfg (bigApp n) (bigExchange n)) (bigExchange n).out = Shown (bigCfg n) (bigExchange n).out from rfl, big_shown] at h
    injection h with h; injection h with h1 h2
    subst h1
    exact ⟨by decide +kernel, by decide⟩
  takes := by
    intro fs body h
    rw [show Shown (Exchange.cfg (bigApp n) (bigExchange n)) (bigExchange n).out = Shown (bigCfg n) (bigExchange n).out from rfl, big_shown] at h
    injection h with h; injection h with h1 h2
    subst h2
    refine ⟨(sample_takes 0 (by decide)).frame, (sample_takes 0 (by decide)).dataHeader, ?_, ?_⟩
    · intro s hs; rw [List.eq_of_mem_replicate hs]; exact ⟨by simp, by simp⟩
    · rw [List.length_replicate]; exact Nat.le_of_eq (takes_replicate n).symm

theorem big_clear : Clear (bigApp 16385) [(b!":path", b!"/f")] (bigExchange 16385) := by
  intro fs body h
  rw [show Shown (Exchange.cfg (bigApp 16385) (bigExchange 16385)) (bigExchange 16385).out = Shown (bigCfg 16385) (bigExchange 16385).out from rfl, big_shown] at h
  injection h with h; injection h with h1 h2
  subst h1
  exact second_apart _ (by decide)

/-- A content of 16385 bytes for a client with frames of 16384. -/
example : ∃ t' bs, serve (bigApp 16385) sampleConn (Hpack.DTab.init ⟨[], [], 0, 0, 0⟩ 4096) (bigExchange 16385).inc = some (t', bs) ∧ message 16384 3 bs = none :=
  C177_frame_size_refuted (bigApp 16385) Trip.sampleApp_written sampleConn (by decide) _ (holds_init _ _) _ (big_proper 16385 (by decide) (by decide))
    big_clear _ _ (big_shown _)
    (by rw [List.length_replicate]; decide) ⟨by decide, by decide⟩ (by rw [List.length_replicate]; decide)

/-- The same application with an encoded form that does not fit. -/
def tightApp : App := { sampleApp with cfg := fun _ => { sampleCfg with threshold := 2, overflow := fun _ => true } }

example : serve tightApp sampleConn (Hpack.DTab.init ⟨[], [], 0, 0, 0⟩ 4096) (sampleInc 3 repsSecond none 65535) = none := by
  refine C177_coded_too_long_refuted tightApp Trip.sampleApp_written sampleConn _ (holds_init _ _) _ askSecond askSecond_good (by decide)
    (sample_carries askSecond 3 repsSecond _ (tab' := [(b!":path", b!"/f")]) (by decide +kernel) repsSecond_ok) _ rfl b!"file" (by simp) (Or.inl ?_) (by decide) (by decide) 1 ⟨rfl, by decide⟩ rfl
  obtain ⟨f, ps, h, e⟩ := second_returns
  exact ⟨f, ps, h, e⟩

/-- A HEAD request. -/
def askHead : Ask := ⟨.head, b!"/f", none, [(b!":method", b!"HEAD"), (b!":scheme", b!"https"), (b!":path", b!"/f")], none⟩
def repsHead : List Rep := [.literal .noUpdate (.index 2) ⟨false, b!"HEAD"⟩, .indexed 7, .literal .noUpdate (.index 4) ⟨false, b!"/f"⟩]
def headApp : App := { sampleApp with routes := [(b!"/f", .head, 1)] }

theorem askHead_good : askHead.Good where
  wellFormed := ⟨_, [], rfl, Or.inl (List.Perm.refl _), by simp⟩
  path := ⟨rfl, by unfold Req.PathByte Req.RfcPchar Req.RfcUnreserved Req.RfcSubDelims; decide⟩
  query := by intro x hx; simp [askHead] at hx
  names := by unfold LowerName Ascii; decide
  agreeable := Nego.agreeable_nothing (by decide)
  noCoding := by decide
  known := by
    intro p hp h
    have : ∀ p ∈ askHead.fields, p.1 ≠ b!"content-type" := by decide
    exact absurd h (this p hp)

theorem head_returns : Returns headApp askHead (.value (.str b!"file")) := by
  refine ⟨1, [], ⟨[], b!"/f", .head, _, rfl, ⟨?_, fun _ => rfl⟩, by simp, Or.inl ⟨by unfold Route.Plain; decide, rfl⟩⟩, rfl⟩
  rw [Route.fits_plain _ _ (by unfold Route.Plain; decide)]
  rfl

example : ∃ t' bs len, serve headApp sampleConn (Hpack.DTab.init ⟨[], [], 0, 0, 0⟩ 4096) (sampleInc 5 repsHead none 65535) = some (t', bs) ∧ Reads len 0 ∧ Shows 16384 5 bs
    [(b!":status", b!"500"), (b!"server", b!"fly"), (b!"date", b!"Mon, 16 Nov 2026 10:00:00 GMT"), (b!"content-type", b!"text/plain"), (b!"content-length", len)] [] := by
  refine C177_head_refuted headApp ?_ sampleConn (by decide) _ (holds_init _ _) (sampleInc 5 repsHead none 65535) askHead askHead_good rfl
    (sample_carries askHead 5 repsHead _ (tab' := []) (by decide +kernel) ?_) (by decide) sampleCfg rfl _ head_returns (Or.inr ⟨_, rfl⟩) (by decide) rfl (by decide) (by decide) (sample_takes 0 (by decide))
  · intro x hx
    rcases List.mem_singleton.1 hx with rfl
    exact Or.inl (by unfold Route.Plain; decide)
  · intro r hr
    simp only [repsHead, List.mem_cons, List.not_mem_nil, or_false] at hr
    rcases hr with rfl | rfl | rfl
    · exact ⟨by decide, by decide, by decide, by simp⟩
    · exact by unfold Hpack.okRep; decide
    · exact ⟨by decide, by decide, by decide, by simp⟩

/-- **C205 (partial): what is received of a response is a beginning of it.** Over HTTP/2, let the connection take the bytes of a response in any pieces, be interrupted or fail
anywhere in the frames of the header or in the header of the DATA frame, and stop taking or block anywhere in the content.  Then what the client has received on the stream is
a beginning of what it receives from the same response over a connection that takes everything: nothing is left out, repeated or put before its turn.  In particular no
content follows a header that is not complete.  Missing: blocking within a frame of the header or the header of the DATA frame (then bytes are repeated: C16), failures
while the content is written, header blocks of more than 1000 bytes (C66). -/
theorem C205_broken_off_partial (k : Conn) (hk : 16384 ≤ k.maxFrame ∧ k.maxFrame < 2 ^ 24) (sid : Nat) (hsid : sid < 2 ^ 31) (w : Send.Win) (r : Resp) (tab : List Entry)
    (hl : ((view r.header).map (encodeField k tab)).flatten.length ≤ 1000) (body : Bytes) (hr : H2B.Right true r.disk r.plan body)
    (s s' : Writes) (hs1 : ∀ l ∈ s.frames, ∀ c ∈ l, c ≠ .block) (hs2 : ∀ c ∈ s.dataHeader, c ≠ .block) (hs3 : H2B.Calm s.data)
    (ht : Takes s' body.length) :
    ∃ b all, send k tab sid w r s = some b ∧ send k tab sid w r s' = some all ∧ b <+: all := by
  obtain ⟨fr, e1, e2⟩ := frames_written k hk sid hsid r s' _ _ rfl tab hl ht
  have e1' : headerFrames k tab r = some fr := e1
  have hall := writeFrames_begins sid fr s.frames hs1
  simp only at hall
  -- the frames written completely are all of them
  have htake : (writeFrames sid fr s'.frames).1 = (fr.map fun f => H2.frameHeader f.payload.length f.type f.flags false sid ++ f.payload).flatten := by
    obtain ⟨n, ss, hfr, hss, hsl⟩ := ht.frame
    have hframes : fr = [⟨1, if decide (r.plan.kind = .noContent) then 5 else 4, ((view r.header).map (encodeField k tab)).flatten⟩] := by
      unfold headerFrames at e1
      have hv' : (r.header.items.map fun f => (f.name.getD [], f.value.getD [])) = view r.header := rfl
      simp only [hv'] at e1
      rw [if_neg (by omega)] at e1
      unfold Send.headerFrames at e1
      rw [splitHeaders_small _ _ _ _ _ (by simp only [List.length_nil]; omega)] at e1
      simpa using (Option.some.inj e1).symm
    rw [e2, hframes]
    simp only [List.map_cons, List.map_nil, List.flatten_cons, List.flatten_nil, List.append_nil]
    rw [H2.C07_written_header_layout _ _ _ _ _ (by omega) hsid]
  have hdata : writeData sid w r.disk r.plan s <+: writeData sid w r.disk r.plan s' := by
    unfold writeData
    cases hsd : Send.startData w r.plan.len with
    | wait => exact List.nil_prefix
    | nothing => exact List.nil_prefix
    | frame n fin =>
      simp only
      have hwl : (H2.frameHeader n 0 (if fin then 1 else 0) false sid).length = 9 := rfl
      obtain ⟨d1, d2⟩ := dataHeaderRun_begins (H2.frameHeader n 0 (if fin then 1 else 0) false sid) s.dataHeader hs2 0
      rw [List.drop_zero] at d1 d2
      rw [dataHeader_written _ _ ht.dataHeader.1 (by rw [hwl]; exact ht.dataHeader.2)]
      simp only [if_true]
      rw [payload_written _ _ _ hr _ ht.data.1 ht.data.2]
      generalize H2.frameHeader n 0 (if fin then 1 else 0) false sid = hdr at d1 d2 ⊢
      split
      · rename_i he
        rw [d2 he]
        refine (List.prefix_append_right_inj _).2 ?_
        rcases hr.2.2 s.data hs3 with ⟨_, h⟩ | ⟨_, h, _⟩
        · rw [h]; exact List.prefix_rfl
        · exact h
      · exact d1.trans (List.prefix_append _ _)
  have hx : (writeFrames sid fr s'.frames).2 = true := by rw [e2]
  unfold send
  rw [e1']
  simp only [hx, if_true]
  refine ⟨_, _, rfl, rfl, ?_⟩
  rw [htake]
  split
  · rename_i he
    rw [hall.2 he]
    exact (List.prefix_append_right_inj _).2 hdata
  · exact hall.1.trans (List.prefix_append _ _)

/-- A short text from the application. -/
def shortResp (body : Bytes) : Resp := ⟨serverHeader b!"Mon, 16 Nov 2026 10:00:00 GMT", ⟨.body (some body), body.length, body.length, none⟩, []⟩

example (body : Bytes) (hb : body.length ≤ 6) : ∃ b all, send sampleConn [] 1 ⟨65535, 65535⟩ (shortResp body) ⟨[[.sent 4, .intr, .sent 7, .fail]], [], []⟩ = some b ∧
    send sampleConn [] 1 ⟨65535, 65535⟩ (shortResp body) (sampleInc 1 [] none 65535).writes = some all ∧ b <+: all :=
  C205_broken_off_partial sampleConn (by decide) 1 (by decide) _ _ [] (show (((view (serverHeader b!"Mon, 16 Nov 2026 10:00:00 GMT")).map (encodeField sampleConn [])).flatten.length ≤ 1000) by decide +kernel) body (H2B.right_body _ _ _ _) _ _ (by decide) (by decide) (by unfold H2B.Calm; decide)
    (sample_takes body.length hb)

example : send sampleConn [] 1 ⟨65535, 65535⟩ (shortResp b!"hello") ⟨[[.sent 4, .intr, .sent 7, .fail]], List.replicate 9 (.sent 1), List.replicate 5 (.sent 1)⟩ =
    some [0, 0, 36, 1, 4, 0, 0, 0, 1] := by decide +kernel

end Fly.H2Trip
