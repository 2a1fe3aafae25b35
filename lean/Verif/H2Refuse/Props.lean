import Verif.Nego.Props
import Verif.Refuse.Props
import Verif.H2Refuse.Spec

/-! # C198: refused requests over HTTP/2 -/

namespace Fly.H2Refuse
open Header (Pairs HField)
open Site (Site)
open Trip (WrittenPath Each)
open H2Trip (Conn Incoming Ask)
open Hpack (Entry)
open Nego (negotiating)

/-- The value of the first `accept-language` field is read. -/
theorem lang_first {cells : List HField} {fs : Pairs} (hh : H2R.Holds cells fs) {v : Bytes} (hv : v ≠ []) (h : Lang.FirstField b!"accept-language" v fs) :
    H2R.negoLang cells = H2R.langRes (Lang.accept Lang.lang fs) := by
  have hp : H2R.pairs cells = fs := hh
  unfold H2R.negoLang
  rw [hp]
  obtain ⟨pre, post, e, hpre⟩ := h
  unfold H2R.Holds at hh
  rw [e] at hh
  obtain ⟨a, b, rfl, ha, hb⟩ := List.map_eq_append_iff.1 hh
  obtain ⟨c, b, rfl, hc, _⟩ := List.map_eq_cons_iff.1 hb
  obtain ⟨n, w⟩ := c
  injection hc with h1 h2
  have hn : n = some b!"accept-language" := by
    cases n with
    | none => simp at h1
    | some n => simp at h1; rw [h1]
  have hf : (a ++ ⟨n, w⟩ :: b).find? (fun f : HField => f.name == some b!"accept-language") = some ⟨n, w⟩ := by
    rw [List.find?_eq_some_iff_append]
    refine ⟨by simp [hn], a, b, rfl, ?_⟩
    intro f hf
    have : (f.name.getD [], f.value.getD []) ∈ pre := by rw [← ha]; exact List.mem_map.2 ⟨f, hf, rfl⟩
    have := hpre _ this
    cases hfn : f.name with
    | none => simp
    | some m =>
      rw [hfn] at this
      simp only [Option.getD_some] at this
      simpa using this
  rw [hf]
  cases w with
  | none => exact absurd h2.symm hv
  | some w => rfl

/-- Fields against the rules are found. -/
theorem garbled_nego {cells : List HField} {fs : Pairs} (hh : H2R.Holds cells fs) (h : Refuse.Garbled fs) : H2R.nego cells = .bad := by
  obtain ⟨w, c1, c2, m1, m2, ht⟩ := h
  have e1 := (Nego.encoding_step hh c1).1 c2
  have e2 := (Nego.media_step hh m1).1 m2
  have hp : H2R.pairs cells = fs := hh
  have e3 : H2R.negoCharset cells = H2R.langRes (Lang.accept Lang.charset fs) := by
    unfold H2R.negoCharset; rw [hp]
  unfold H2R.nego
  rcases ht with ht | ⟨t1, t2, ht⟩
  · have := Refuse.too_fine ht
    simp only [Lang.Field.code] at this
    simp only [e1, e2, e3, this, H2R.langRes]
  · have t3 := (Nego.tags_step .charset _ t1).1 t2
    simp only [Lang.Field.code] at t3
    have hb := Refuse.too_fine ht
    simp only [Lang.Field.code] at hb
    obtain ⟨n, rest, ds, f1, f2, f3, f4, f5⟩ := ht
    have := lang_first hh (v := n ++ b!";q=0." ++ ds.map (48 + ·) ++ rest) (by simp) f5
    rw [← e3] at t3
    simp only [e1, e2, t3, this, hb]
    rfl

theorem garbled_answer (e : ReqEvent.Env) {q : Ask} (hg : q.Sound) (h : Refuse.Garbled q.fields) (alloc : Nat → Bool) (body : Option Bytes) :
    H2R.answer e ⟨true, H2Trip.cells alloc q.fields, body, false⟩ = .status 400 := by
  have hh := H2Trip.cells_hold alloc q.fields
  have hl := (H2R.answer_well_formed e true _ _ q.method true q.path q.query body hh hg.wellFormed hg.path hg.query).1
  have ht := Req.C68_http2_path_split_partial q.method q.path q.query hg.path.1 hg.path.2 hg.query
  simp only [H2R.answer, hl, ht, garbled_nego hh h]
  rfl

theorem step_served (s : Site) (hr : ∀ x ∈ s.app.routes, WrittenPath x.1) (k : Conn) (hk : 16384 ≤ k.maxFrame ∧ k.maxFrame < 2 ^ 24)
    (t : Hpack.DTab) {limit : Nat} {tab tab' : List Entry} (ht : H2Trip.Holds t limit tab) (x : Step) (hx : x.Proper (negotiating s) k limit tab tab') :
    ∃ t' bs, H2Site.serve (negotiating s) k t x.inc x.now = some (t', bs) ∧ H2Trip.Holds t' limit tab' ∧ x.Answered (negotiating s) k bs := by
  cases x with
  | turn x => exact Nego.turn2_served s hr k hk t ht x hx
  | garbled q i =>
    obtain ⟨h1, h2, h3, h4, h5⟩ := hx
    obtain ⟨t', bs, len, e, ht', g1, g2⟩ := H2Trip.refused (negotiating s).full k hk t ht i q.fields h4 h5.sid (n := 400) (Or.inl ⟨rfl, rfl⟩)
      (by rw [h3]; exact garbled_answer _ h1 h2 _ _) h5.threshold h5.page h5.date h5.apart h5.takes
    exact ⟨t', bs, Nego.serve_app _ _ _ _ _ _ e, ht', len, g1, g2⟩
  | malformed fs i =>
    obtain ⟨h1, h2, h4, h5⟩ := hx
    obtain ⟨t', bs, len, e, ht', g1, g2⟩ := H2Trip.C177_malformed_partial (negotiating s).full k hk t ht i fs h4 h5.sid h1 h2 h5.threshold h5.page h5.date h5.apart h5.takes
    exact ⟨t', bs, Nego.serve_app _ _ _ _ _ _ e, ht', len, g1, g2⟩
  | long q i =>
    obtain ⟨h1, h2, h4, h5⟩ := hx
    obtain ⟨t', bs, len, e, ht', g1, g2⟩ := H2Trip.C177_discarded_partial (negotiating s).full k hk t ht i q h1 h4 h2 h5.sid h5.threshold h5.page h5.date h5.apart h5.takes
    exact ⟨t', bs, Nego.serve_app _ _ _ _ _ _ e, ht', len, g1, g2⟩

/-- **C198** *(partial)*.  On a new HTTP/2 connection, among any number of requests that are answered: header fields that are no request, and requests with fields against the
rules, are answered 400, and requests with more content than allowed 413, each with one whole response on the stream of the request and without calling a function; all other
requests, before and after, get what they ask for (C195), and the tables of the header compression stay in step.
Missing: what is malformed for the RFC and not for the server (C100), a `:scheme` without value (C101), wrong fields that are taken as right (C27, C29, C74). -/
theorem C198_refused_alone_partial (s : Site) (hr : ∀ x ∈ s.app.routes, WrittenPath x.1) (k : Conn) (hk : 16384 ≤ k.maxFrame ∧ k.maxFrame < 2 ^ 24)
    (g : Hpack.DNode) (limit : Nat) (ts : List Step) (h : Course (negotiating s) k limit [] ts) :
    ∃ bss, H2Site.session (negotiating s) k (Hpack.DTab.init g limit) (ts.map fun t => (t.inc, t.now)) = some bss ∧ Each (Step.Answered (negotiating s) k) ts bss := by
  have key : ∀ (ts : List Step) (t : Hpack.DTab) (tab : List Entry), H2Trip.Holds t limit tab → Course (negotiating s) k limit tab ts →
      ∃ bss, H2Site.session (negotiating s) k t (ts.map fun t => (t.inc, t.now)) = some bss ∧ Each (Step.Answered (negotiating s) k) ts bss := by
    intro ts
    induction ts with
    | nil => intro t _ _ _; exact ⟨[], rfl, .nil⟩
    | cons x ts ih =>
      intro t tab ht hx
      obtain ⟨tab', hp, hx⟩ := hx
      obtain ⟨t', bs, e, ht', ha⟩ := step_served s hr k hk t ht x hp
      obtain ⟨bss, e', he⟩ := ih t' tab' ht' hx
      refine ⟨bs :: bss, ?_, .cons ha he⟩
      rw [List.map_cons, H2Site.session]
      simp only [e, e', Option.map_some]
  exact key ts _ [] (H2Trip.holds_init g limit) h

/-! ## A connection -/

/-- A request with a language weighed with four decimals. -/
def askFine : Ask := ⟨.get, b!"/f", none, [(b!":method", b!"GET"), (b!":scheme", b!"https"), (b!":path", b!"/f"), (b!"accept-language", b!"en;q=0.1234")], none⟩
def repsFine : List Hpack.Rep := [.indexed 2, .indexed 7, .indexed 62, .literal .noUpdate (.index 17) ⟨false, b!"en;q=0.1234"⟩]

/-- A method that does not exist. -/
def brewFields : Pairs := [(b!":method", b!"BREW"), (b!":scheme", b!"https"), (b!":path", b!"/f")]
def repsBrew : List Hpack.Rep := [.literal .noUpdate (.index 2) ⟨false, b!"BREW"⟩, .indexed 7, .indexed 62]

/-- Too much content. -/
def askLong : Ask := ⟨.post, b!"/f", none, [(b!":method", b!"POST"), (b!":scheme", b!"https"), (b!":path", b!"/f")], none⟩
def repsLong : List Hpack.Rep := [.indexed 3, .indexed 7, .indexed 62]

theorem reps_ok : (∀ r ∈ repsFine, Hpack.okRep r) ∧ (∀ r ∈ repsBrew, Hpack.okRep r) ∧ ∀ r ∈ repsLong, Hpack.okRep r := by
  refine ⟨?_, ?_, ?_⟩ <;> intro r hr
  · simp only [repsFine, List.mem_cons, List.not_mem_nil, or_false] at hr
    rcases hr with rfl | rfl | rfl | rfl
    · exact by unfold Hpack.okRep; decide
    · exact by unfold Hpack.okRep; decide
    · exact by unfold Hpack.okRep; decide
    · exact ⟨by decide, by decide, by decide, by simp⟩
  · simp only [repsBrew, List.mem_cons, List.not_mem_nil, or_false] at hr
    rcases hr with rfl | rfl | rfl
    · exact ⟨by decide, by decide, by decide, by simp⟩
    · exact by unfold Hpack.okRep; decide
    · exact by unfold Hpack.okRep; decide
  · simp only [repsLong, List.mem_cons, List.not_mem_nil, or_false] at hr
    rcases hr with rfl | rfl | rfl <;> exact by unfold Hpack.okRep; decide

theorem fine_sound : askFine.Sound where
  wellFormed := ⟨[(b!":method", b!"GET"), (b!":scheme", b!"https"), (b!":path", b!"/f")], [(b!"accept-language", b!"en;q=0.1234")], rfl, Or.inl (List.Perm.refl _), by
    unfold H2R.Regular; simp⟩
  path := ⟨rfl, by unfold Req.PathByte Req.RfcPchar Req.RfcUnreserved Req.RfcSubDelims; simp [askFine]⟩
  query := by intro x hx; simp [askFine] at hx
  names := by unfold H2Trip.LowerName H2Trip.Ascii; simp [askFine]
  noCoding := by simp [askFine]
  known := by
    intro p hp h
    simp only [askFine, List.mem_cons, List.not_mem_nil, or_false] at hp
    rcases hp with rfl | rfl | rfl | rfl <;> simp at h

theorem long_sound : askLong.Sound where
  wellFormed := ⟨[(b!":method", b!"POST"), (b!":scheme", b!"https"), (b!":path", b!"/f")], [], rfl, Or.inl (List.Perm.refl _), by simp⟩
  path := ⟨rfl, by unfold Req.PathByte Req.RfcPchar Req.RfcUnreserved Req.RfcSubDelims; simp [askLong]⟩
  query := by intro x hx; simp [askLong] at hx
  names := by unfold H2Trip.LowerName H2Trip.Ascii; simp [askLong]
  noCoding := by simp [askLong]
  known := by
    intro p hp h
    simp only [askLong, List.mem_cons, List.not_mem_nil, or_false] at hp
    rcases hp with rfl | rfl | rfl <;> simp at h

theorem fine_garbled : Refuse.Garbled askFine.fields := by
  refine ⟨.nothing, ?_, by rintro _ ⟨⟩, ?_, by rintro _ ⟨⟩, Or.inr ⟨?_, by rintro _ ⟨⟩, ?_⟩⟩
  · show ∀ x ∈ askFine.fields, _
    simp [askFine]
  · show ∀ x ∈ askFine.fields, _
    simp [askFine]
  · show ∀ x ∈ askFine.fields, _
    simp [askFine, Lang.Field.name]
  · exact ⟨b!"en", [], [1, 2, 3, 4], by unfold Lang.NameChar; decide, by simp, by decide, by decide,
      [(b!":method", b!"GET"), (b!":scheme", b!"https"), (b!":path", b!"/f")], [], rfl, by decide⟩

theorem sample_decodes (sid : Nat) (rs : List Hpack.Rep) (fs : Pairs) {tab tab' : List Entry} (h : Hpack.rfcBlock 4096 tab rs = some (fs, tab'))
    (hr : ∀ r ∈ rs, Hpack.okRep r) : H2Trip.Decodes 4096 tab tab' (H2Trip.sampleInc sid rs none 65535) fs :=
  ⟨⟨by simp [H2Trip.sampleInc], by simp [H2Trip.sampleInc]⟩, rs, [0], by simp [H2Trip.sampleInc, Buffer.Cursor.flat], by simp, rfl, h, hr, Or.inl rfl⟩

theorem sample_short (n : Nat) (h : n = 400 ∨ n = 413) (sid : Nat) (hs : sid < 2 ^ 31) (rs : List Hpack.Rep) :
    Short (negotiating Nego.sampleSite2) n [(b!":path", b!"/f")] (H2Trip.sampleInc sid rs none 65535) where
  sid := hs
  threshold := by show 0 < 1024; decide
  page := by rcases h with rfl | rfl <;> rfl
  date := by decide
  apart := by decide
  takes := H2Trip.sample_takes _ (by decide)

/-- Requests on a connection: one that is served, then refused ones, then one that is served again with the entry that the first has made. -/
def sampleSteps : List Step :=
  [.turn Nego.takeTurn, .garbled askFine (H2Trip.sampleInc 3 repsFine none 65535), .malformed brewFields (H2Trip.sampleInc 5 repsBrew none 65535),
    .long askLong { H2Trip.sampleInc 7 repsLong none 65535 with discard := true }, .turn Nego.refuseTurn]

example : Course (negotiating Nego.sampleSite2) H2Trip.sampleConn 4096 [] sampleSteps := by
  refine ⟨[(b!":path", b!"/f")], ⟨Nego.take_says, fun _ => ⟨Nego.take_asked, trivial⟩, fun h => absurd Nego.take_met h⟩, [(b!":path", b!"/f")],
    ⟨fine_sound, fine_garbled, rfl, sample_decodes 3 repsFine askFine.fields (by decide +kernel) reps_ok.1, sample_short 400 (Or.inl rfl) 3 (by decide) _⟩, [(b!":path", b!"/f")],
    ⟨Or.inr (Or.inl ⟨(b!":method", b!"BREW"), by simp [brewFields], rfl, by intro m; cases m <;> decide⟩), by decide,
      sample_decodes 5 repsBrew brewFields (by decide +kernel) reps_ok.2.1, sample_short 400 (Or.inl rfl) 5 (by decide) _⟩, [(b!":path", b!"/f")],
    ⟨long_sound, rfl, sample_decodes 7 repsLong askLong.fields (by decide +kernel) reps_ok.2.2, ?_⟩, [(b!":path", b!"/f")],
    ⟨Nego.refuse_says, fun h => absurd h Nego.brNo_refused, fun _ => ⟨Nego.ask2_sound _ (by decide),
      (H2Trip.sample_carries (Nego.ask2 b!"br;q=0") 3 Nego.repsRefuse 65535 (by decide +kernel) Nego.repsRefuse_ok).2.2,
      rfl, by show 3 < 2 ^ 31; decide, by show 0 < 1024; decide, rfl, by decide, by decide, H2Trip.sample_takes _ (by decide)⟩⟩, trivial⟩
  have := sample_short 413 (Or.inr rfl) 7 (by decide) repsLong
  exact ⟨this.1, this.2, this.3, this.4, this.5, this.6⟩

end Fly.H2Refuse
