import Verif.H2Site.Lemmas
import Verif.Site.Props

/-! # C194: mounted files over HTTP/2 -/

namespace Fly.H2Site
open Site (Site Served Unchanged listed)
open Header (Pairs HList view Inv)
open Hpack (Rep rfcBlock Entry)
open PyBridge (Cfg Reads)
open Trip (Unserved WrittenPath Each)
open H2Trip (Ask Conn Incoming Resp cells Carries Takes Apart Shows size Made Holds)

/-- The request is not one that a validator answers: field names are in lower case. -/
theorem not304 (s : Site) (q : Ask) (hg : q.Good) (alloc : Nat → Bool) (tag modified : Bytes) :
    Cache.answers304 s.read ⟨cells alloc q.fields, (cells alloc q.fields).length⟩ tag modified = some false := by
  apply Cache.C34_lower_case_refuted
  intro g hg'
  obtain ⟨j, hj, e⟩ := List.mem_mapIdx.1 (show g ∈ (q.fields.mapIdx fun i e => H2Trip.cell (alloc i) e) from hg')
  have hn : g.name.getD [] = (q.fields[j]).1 := by
    rw [← e]; unfold H2Trip.cell; split <;> simp_all
  rw [hn]
  exact (hg.names _ (List.getElem_mem _)).1.2.2

theorem chosen_file (s : Site) (hr : ∀ x ∈ s.app.routes, WrittenPath x.1) (q : Ask) (hg : q.Good) (alloc : Nat → Bool) (h : Unserved s.full q.path q.method) {f : Served}
    (hf : s.files q.path = some f) :
    H2R.answer s.full.env ⟨true, cells alloc q.fields, q.body, false⟩ = if q.method ≠ .get then .status 405 else .file := by
  rw [H2Trip.answered s.full q hg alloc]
  have hfind := Trip.find_unserved s.full hr h
  unfold H2R.choose
  simp only [Trip.App.env, hfind, Option.map_none]
  simp only [Site.full, hf, Option.map_some, not304 s q hg alloc, Option.getD_some, Bool.false_eq_true, if_false]

theorem asked_request (s : Site) (q : Ask) (hg : q.Good) (alloc : Nat → Bool) :
    H2R.answer (Site.asked s.full.env) ⟨true, cells alloc q.fields, q.body, false⟩ =
      .handler 0 ⟨q.method, b!"http", q.path, q.query, cells alloc q.fields, q.body.map .bytes⟩ := by
  rw [H2Trip.answered_in (Site.asked s.full.env) q hg alloc]
  rfl

/-- What the application makes of a request is not changed by the files. -/
theorem response_app (s : Site) (now : Bytes → Bytes) (r : H2R.Request) (x : Resp) (h : H2Trip.response s.full (H2R.answer s.full.env r) = some x) :
    response s now r = some x := by
  unfold response
  split
  · next h1 _ => rw [h1] at h; simp [H2Trip.response] at h
  · next h1 _ => rw [h1] at h; simp [H2Trip.response] at h
  · next h1 _ => rw [h1] at h; simp [H2Trip.response] at h
  · exact h

/-- What is made of the request. -/
theorem response_made (s : Site) (hr : ∀ x ∈ s.app.routes, WrittenPath x.1) (k : Conn) {limit : Nat} {tab tab' : List Entry} (x : Exchange) (h : Proper s k limit tab tab' x) :
    ∃ pre post body r, Shown s x = some (pre, post, body) ∧ response s x.now ⟨true, cells x.inc.alloc x.ask.fields, x.inc.body, x.inc.discard⟩ = some r ∧
      view r.header = pre ++ [(b!"content-length", Response.contLenStr body.length)] ++ post ∧
      H2B.Right true r.disk r.plan body ∧ (r.plan.kind = .noContent ↔ body = []) := by
  have hm := h.makes
  obtain ⟨ask, inc, now, out⟩ := x
  cases out with
  | app o =>
    obtain ⟨hm1, hm2⟩ := hm
    have hp : H2Trip.Proper s.full limit tab tab' ⟨ask, inc, o⟩ :=
      { good := h.good
        method := hm1
        carries := h.carries
        sid := h.sid
        threshold := h.threshold
        codings := h.codings
        makes := hm2
        fields := fun fs body hs => by
          have := h.fields fs [] body (by
            have hs : H2Trip.Shown (Exchange.cfg s ⟨ask, inc, now, .app o⟩) o = some (fs, body) := hs
            simp only [Shown, hs, Option.map_some])
          rw [List.append_nil] at this
          exact ⟨this.1, this.2.1⟩
        takes := fun fs body hs => h.takes fs [] body (by
            have hs : H2Trip.Shown (Exchange.cfg s ⟨ask, inc, now, .app o⟩) o = some (fs, body) := hs
            simp only [Shown, hs, Option.map_some]) }
    obtain ⟨fs, body, hs⟩ := H2Trip.shown_some s.full _ hp
    obtain ⟨r, e, m1, m2, m3⟩ := H2Trip.response_made s.full hr _ hp fs body hs
    have hs : H2Trip.Shown (Exchange.cfg s ⟨ask, inc, now, .app o⟩) o = some (fs, body) := hs
    refine ⟨fs, [], body, r, by simp only [Shown, hs, Option.map_some], response_app s now _ r e, ?_, m2, m3⟩
    rw [List.append_nil]; exact m1
  | file f =>
    obtain ⟨hu, hget, hf, hdir, hun, hdel⟩ := hm
    simp only at hu hget hf hun hdel
    obtain ⟨r, e, v, h1, h2⟩ := finishFile_ok _ f (now ask.path) hun hdel
    refine ⟨_, _, _, r, rfl, ?_, v, h1, h2⟩
    show response s now ⟨true, cells inc.alloc ask.fields, inc.body, inc.discard⟩ = some r
    rw [show inc.body = ask.body from h.carries.1, show inc.discard = false from h.carries.2.1]
    have e1 := chosen_file s hr ask h.good inc.alloc hu hf
    rw [if_neg (by simp [hget])] at e1
    unfold response
    rw [e1, asked_request s ask h.good inc.alloc]
    simp only [hf, hdir, Bool.false_eq_true, if_false]
    exact e
  | notAllowed =>
    obtain ⟨hu, hget, ⟨f, hf⟩, hd⟩ := hm
    simp only at hu hget hf hd
    obtain ⟨i, v⟩ := notAllowedHeader_ok s.app.cfg0.date s.app.table ask.path
    obtain ⟨r, e, m1, m2, m3⟩ := H2Trip.finish_empty s.app.cfg0 (code := 405) (reason := b!"Method Not Allowed") (by decide +kernel) _ i (by rw [v]; simp) h.threshold hd
    refine ⟨_, _, _, r, rfl, ?_, ?_, m2, m3⟩
    · show response s now ⟨true, cells inc.alloc ask.fields, inc.body, inc.discard⟩ = some r
      rw [show inc.body = ask.body from h.carries.1, show inc.discard = false from h.carries.2.1]
      have e1 := chosen_file s hr ask h.good inc.alloc hu hf
      rw [if_pos hget] at e1
      unfold response
      rw [e1, asked_request s ask h.good inc.alloc]
      exact e
    · rw [m1, v, show Response.threeDigits 405 = b!"405" from by decide]
      simp [allow]

/-- The response to a proper request, made when the client's table has the entries `tab2`. -/
theorem made (s : Site) (hr : ∀ x ∈ s.app.routes, WrittenPath x.1) (k : Conn) (hk : 16384 ≤ k.maxFrame ∧ k.maxFrame < 2 ^ 24)
    {limit : Nat} {tab tab' tab2 : List Entry} (x : Exchange) (h : Proper s k limit tab tab' x)
    (hap : ∀ pre post body, Shown s x = some (pre, post, body) → Apart tab2 (pre ++ post)) :
    ∃ r bs, response s x.now ⟨true, cells x.inc.alloc x.ask.fields, x.inc.body, x.inc.discard⟩ = some r ∧ H2Trip.send k tab2 x.inc.sid x.inc.win r x.inc.writes = some bs ∧
      Answered s k x bs ∧ ∃ pre post body, Shown s x = some (pre, post, body) ∧ H2Trip.Sendable k tab2 r x.inc.writes body := by
  obtain ⟨pre, post, body, r, hs, e2, m1, m2, m3⟩ := response_made s hr k x h
  obtain ⟨hok, hsz, _⟩ := h.fields pre post body hs
  have hap := hap pre post body hs
  have hroom := h.roomy pre post body hs
  have hlen : body.length < 2 ^ 24 := by
    by_cases hb : body = []
    · simp [hb]
    · have := (hroom hb).2.2; omega
  have hperm : ∀ p, p ∈ pre ++ [(b!"content-length", Response.contLenStr body.length)] ++ post ↔
      p ∈ (pre ++ post) ++ [(b!"content-length", Response.contLenStr body.length)] := by
    intro p; simp only [List.mem_append, or_assoc, or_comm, or_left_comm]
  have hsize : size (pre ++ [(b!"content-length", Response.contLenStr body.length)] ++ post) =
      size ((pre ++ post) ++ [(b!"content-length", Response.contLenStr body.length)]) := by
    simp [size]; omega
  obtain ⟨l1, l2⟩ := H2Trip.fields_length hok hsz hlen
  have l3 := H2Trip.apart_length hap (Response.contLenStr body.length)
  obtain ⟨bs, e3, hsh⟩ := H2Trip.sent_ok' k hk x.inc.sid h.sid x.inc.win r x.inc.writes _ body m1 (fun p hp => l1 p ((hperm p).1 hp)) (by rw [hsize]; exact l2) tab2
    (fun p hp => l3 p ((hperm p).1 hp)) m2 m3 hroom (h.takes pre post body hs)
  exact ⟨r, bs, e2, e3, ⟨pre, post, body, _, hs, PyBridge.reads _, allow_get s x, hsh⟩, pre, post, body, hs, H2Trip.sendable k r x.inc.writes _ body m1 (fun p hp => l1 p ((hperm p).1 hp))
    (by rw [hsize]; exact l2) tab2 (fun p hp => l3 p ((hperm p).1 hp)) m2 hlen (h.takes pre post body hs)⟩

theorem served (s : Site) (hr : ∀ x ∈ s.app.routes, WrittenPath x.1) (k : Conn) (hk : 16384 ≤ k.maxFrame ∧ k.maxFrame < 2 ^ 24) (t : Hpack.DTab)
    {limit : Nat} {tab tab' : List Entry} (ht : Holds t limit tab) (x : Exchange) (h : Proper s k limit tab tab' x) :
    ∃ t' bs, serve s k t x.inc x.now = some (t', bs) ∧ Holds t' limit tab' ∧ Answered s k x bs := by
  obtain ⟨t', e1, ht', hdyn⟩ := H2Trip.decoded t ht x.inc _ h.carries.2.2
  obtain ⟨r, bs, e2, e3, ha, _⟩ := made s hr k hk x h fun pre post body hs => (h.fields pre post body hs).2.2
  refine ⟨t', bs, ?_, ht', ha⟩
  unfold serve
  simp only [e1, e2, hdyn, e3, Option.map_some]

/-- **C194 (partial).** For every site, an application with routes without parameters or with one as last segment and any files below its mount points: on a new HTTP/2 connection
with any number of proper requests, for functions and files in any order, the client reads on the stream of every request exactly one whole response: what the function made of it;
or the file, with its length, tag, date and type, whole and in the form the negotiation asks for; or 405 with the methods that are allowed, GET among them.
Missing: what is missing in C177; files that changed after they were mounted; forms of files the server cannot send (`Deliverable`). -/
theorem C194_h2_files_partial (s : Site) (hr : ∀ x ∈ s.app.routes, WrittenPath x.1) (k : Conn) (hk : 16384 ≤ k.maxFrame ∧ k.maxFrame < 2 ^ 24)
    (g : Hpack.DNode) (limit : Nat) (xs : List Exchange) (h : Course s k limit [] xs) :
    ∃ bss, session s k (Hpack.DTab.init g limit) (xs.map fun x => (x.inc, x.now)) = some bss ∧ Each (Answered s k) xs bss := by
  have key : ∀ (xs : List Exchange) (t : Hpack.DTab) (tab : List Entry), Holds t limit tab → Course s k limit tab xs →
      ∃ bss, session s k t (xs.map fun x => (x.inc, x.now)) = some bss ∧ Each (Answered s k) xs bss := by
    intro xs
    induction xs with
    | nil => intro t _ _ _; exact ⟨[], rfl, .nil⟩
    | cons x xs ih =>
      intro t tab ht hx
      obtain ⟨tab', hp, hx⟩ := hx
      obtain ⟨t', bs, e, ht', ha⟩ := served s hr k hk t ht x hp
      obtain ⟨bss, e', he⟩ := ih t' tab' ht' hx
      refine ⟨bs :: bss, ?_, .cons ha he⟩
      rw [List.map_cons, session, e]
      simp only [e', Option.map_some]
  exact key xs _ [] (H2Trip.holds_init g limit) h

/-! A site and three requests that meet the hypotheses: a file (with the tag the client knows, which does not help it), the same with HEAD, a function. -/

def sampleSite : Site :=
  { Site.sampleSite with app := { Site.sampleSite.app with cfg := fun _ => H2Trip.sampleCfg, cfg0 := H2Trip.sampleCfg } }

def askX : Ask :=
  ⟨.get, b!"/x", none, [(b!":method", b!"GET"), (b!":scheme", b!"https"), (b!":path", b!"/x"), (b!"if-none-match", b!"0123456789abcdef")], none⟩
def repsX : List Rep := [.indexed 2, .indexed 7, .literal .update (.index 4) ⟨false, b!"/x"⟩, .literal .update (.new ⟨false, b!"if-none-match"⟩) ⟨false, b!"0123456789abcdef"⟩]

def askHeadX : Ask := ⟨.head, b!"/x", none, [(b!":method", b!"HEAD"), (b!":scheme", b!"https"), (b!":path", b!"/x")], none⟩
def repsHeadX : List Rep := [.literal .noUpdate (.index 2) ⟨false, b!"HEAD"⟩, .indexed 7, .indexed 63]

def fileX : Served := ⟨false, 5, b!"0123456789abcdef", b!"Mon, 16 Nov 2026 10:00:00 GMT", b!"text/html", none⟩

def sampleGet : Exchange := ⟨askX, H2Trip.sampleInc 1 repsX none 65535, fun _ => b!"hello", .file fileX⟩
def sampleHead : Exchange := ⟨askHeadX, H2Trip.sampleInc 3 repsHeadX none 65535, fun _ => b!"hello", .notAllowed⟩
def sampleFn : Exchange := ⟨H2Trip.askSecond, H2Trip.sampleInc 5 H2Trip.repsSecond none 65535, fun _ => b!"hello", .app (.value (.str b!"file") b!"file")⟩

theorem askX_good : askX.Good where
  wellFormed := ⟨[(b!":method", b!"GET"), (b!":scheme", b!"https"), (b!":path", b!"/x")], [(b!"if-none-match", b!"0123456789abcdef")], rfl,
    Or.inl (List.Perm.refl _), by unfold H2R.Regular; decide⟩
  path := ⟨rfl, by unfold Req.PathByte Req.RfcPchar Req.RfcUnreserved Req.RfcSubDelims; decide⟩
  query := by intro x hx; simp [askX] at hx
  names := by unfold H2Trip.LowerName H2Trip.Ascii; decide
  agreeable := Nego.agreeable_nothing (by decide)
  noCoding := by decide
  known := by
    intro p hp h
    have : ∀ p ∈ askX.fields, p.1 ≠ b!"content-type" := by decide
    exact absurd h (this p hp)

theorem askHeadX_good : askHeadX.Good where
  wellFormed := ⟨_, [], rfl, Or.inl (List.Perm.refl _), by simp⟩
  path := ⟨rfl, by unfold Req.PathByte Req.RfcPchar Req.RfcUnreserved Req.RfcSubDelims; decide⟩
  query := by intro x hx; simp [askHeadX] at hx
  names := by unfold H2Trip.LowerName H2Trip.Ascii; decide
  agreeable := Nego.agreeable_nothing (by decide)
  noCoding := by decide
  known := by
    intro p hp h
    have : ∀ p ∈ askHeadX.fields, p.1 ≠ b!"content-type" := by decide
    exact absurd h (this p hp)

theorem repsX_ok : ∀ r ∈ repsX, Hpack.okRep r := by
  intro r hr
  simp only [repsX, List.mem_cons, List.not_mem_nil, or_false] at hr
  rcases hr with rfl | rfl | rfl | rfl
  · exact by unfold Hpack.okRep; decide
  · exact by unfold Hpack.okRep; decide
  · exact ⟨by decide, by decide, by decide, by simp⟩
  · exact ⟨by decide, ⟨by decide, by simp⟩, by decide, by simp⟩

theorem repsHeadX_ok : ∀ r ∈ repsHeadX, Hpack.okRep r := by
  intro r hr
  simp only [repsHeadX, List.mem_cons, List.not_mem_nil, or_false] at hr
  rcases hr with rfl | rfl | rfl
  · exact ⟨by decide, by decide, by decide, by simp⟩
  · exact by unfold Hpack.okRep; decide
  · exact by unfold Hpack.okRep; decide

def tabX : List Entry := [(b!"if-none-match", b!"0123456789abcdef"), (b!":path", b!"/x")]

theorem get_shown : Shown sampleSite sampleGet = some ([(b!":status", b!"200")], [(b!"etag", b!"0123456789abcdef"), (b!"date", b!"Mon, 16 Nov 2026 10:00:00 GMT"),
    (b!"last-modified", b!"Mon, 16 Nov 2026 10:00:00 GMT"), (b!"content-type", b!"text/html")], b!"hello") := by decide +kernel

theorem head_shown : Shown sampleSite sampleHead = some ([(b!":status", b!"405"), (b!"allow", b!"GET, POST"), (b!"server", b!"fly"),
    (b!"date", b!"Mon, 16 Nov 2026 10:00:00 GMT")], [], []) := by decide +kernel

theorem sampleGet_proper : Proper sampleSite H2Trip.sampleConn 4096 [] tabX sampleGet where
  good := askX_good
  carries := H2Trip.sample_carries askX 1 repsX _ (by decide +kernel) repsX_ok
  sid := by show 1 < 2 ^ 31; decide
  threshold := by show 0 < 1024; decide
  codings := by intro c b; show 0 :: b.take 10 ≠ []; simp
  makes := ⟨Site.sample_unserved _ _ (by decide) (by decide), rfl, rfl, rfl, ⟨rfl, by intro k e h; simp [fileX] at h⟩, by
    show Deliverable H2Trip.sampleCfg fileX b!"hello"
    unfold Deliverable
    rw [show fileCoding H2Trip.sampleCfg fileX b!"hello" = none from by decide +kernel]
    exact ⟨rfl, by simp, by decide⟩⟩
  fields := by
    intro pre post body h
    rw [get_shown] at h
    injection h with h; injection h with h1 h; injection h with h2 h3
    subst h1; subst h2
    refine ⟨by decide +kernel, by decide, ?_⟩
    unfold Apart
    decide
  takes := by
    intro pre post body h
    rw [get_shown] at h
    injection h with h; injection h with h1 h; injection h with h2 h3
    subst h3
    exact H2Trip.sample_takes _ (by decide)
  roomy := by
    intro pre post body h _
    rw [get_shown] at h
    injection h with h; injection h with h1 h; injection h with h2 h3
    subst h3
    decide

theorem sampleHead_proper : Proper sampleSite H2Trip.sampleConn 4096 tabX tabX sampleHead where
  good := askHeadX_good
  carries := H2Trip.sample_carries askHeadX 3 repsHeadX _ (by decide +kernel) repsHeadX_ok
  sid := by show 3 < 2 ^ 31; decide
  threshold := by show 0 < 1024; decide
  codings := by intro c b; show 0 :: b.take 10 ≠ []; simp
  makes := ⟨Site.sample_unserved _ _ (by decide) (by decide), by simp [sampleHead, askHeadX], ⟨fileX, rfl⟩, rfl⟩
  fields := by
    intro pre post body h
    rw [head_shown] at h
    injection h with h; injection h with h1 h; injection h with h2 h3
    subst h1; subst h2
    refine ⟨by decide +kernel, by decide, ?_⟩
    unfold Apart
    decide
  takes := by
    intro pre post body h
    rw [head_shown] at h
    injection h with h; injection h with h1 h; injection h with h2 h3
    subst h3
    exact H2Trip.sample_takes _ (by decide)
  roomy := by
    intro pre post body h hb
    rw [head_shown] at h
    injection h with h; injection h with h1 h; injection h with h2 h3
    exact absurd h3.symm hb

theorem fn_returns : H2Trip.Returns sampleSite.full H2Trip.askSecond (.value (.str b!"file")) := by
  refine ⟨1, [], ⟨[(b!"/", .post, 1)], b!"/f", .get, [], rfl, ⟨?_, fun _ => rfl⟩, ?_, Or.inl ⟨by unfold Route.Plain; decide, rfl⟩⟩, rfl⟩
  · rw [Route.fits_plain _ _ (by unfold Route.Plain; decide)]
    rfl
  · intro x hx
    rcases List.mem_singleton.1 hx with rfl
    rintro ⟨h, _⟩
    exact absurd ((Route.fits_plain _ _ (by unfold Route.Plain; decide)).1 h) (by decide)

theorem sampleFn_proper : Proper sampleSite H2Trip.sampleConn 4096 tabX ((b!":path", b!"/f") :: tabX) sampleFn where
  good := H2Trip.askSecond_good
  carries := H2Trip.sample_carries H2Trip.askSecond 5 H2Trip.repsSecond _ (by decide +kernel) H2Trip.repsSecond_ok
  sid := by show 5 < 2 ^ 31; decide
  threshold := by show 0 < 1024; decide
  codings := by intro c b; show 0 :: b.take 10 ≠ []; simp
  makes := ⟨by simp [sampleFn, H2Trip.askSecond], fn_returns, rfl, by show (4 : Int) ≤ 1048576; decide,
    by intro k; show decide (100000 < (0 :: b!"file".take 10).length) = false; decide, by intro h; simp at h⟩
  fields := by
    intro pre post body h
    rw [show Shown sampleSite sampleFn =
      (H2Trip.Shown H2Trip.sampleCfg H2Trip.sampleSecond.out).map fun p => (p.1, [], p.2) from rfl, H2Trip.second_shown] at h
    injection h with h; injection h with h1 h; injection h with h2 h3
    subst h1; subst h2
    refine ⟨by decide +kernel, by decide, ?_⟩
    unfold Apart
    decide
  takes := by
    intro pre post body h
    rw [show Shown sampleSite sampleFn =
      (H2Trip.Shown H2Trip.sampleCfg H2Trip.sampleSecond.out).map fun p => (p.1, [], p.2) from rfl, H2Trip.second_shown] at h
    injection h with h; injection h with h1 h; injection h with h2 h3
    subst h3
    exact H2Trip.sample_takes _ (by decide)
  roomy := by
    intro pre post body h _
    rw [show Shown sampleSite sampleFn =
      (H2Trip.Shown H2Trip.sampleCfg H2Trip.sampleSecond.out).map fun p => (p.1, [], p.2) from rfl, H2Trip.second_shown] at h
    injection h with h; injection h with h1 h; injection h with h2 h3
    subst h3
    decide

example : (∀ x ∈ sampleSite.app.routes, WrittenPath x.1) ∧
    Course sampleSite H2Trip.sampleConn 4096 [] [sampleGet, sampleHead, sampleFn] :=
  ⟨Site.sample_written, _, sampleGet_proper, _, sampleHead_proper, _, sampleFn_proper, trivial⟩

/-! ## What does not hold -/

/-- A proper request for a file that the server sends as it is, if it can. -/
structure AsksFile (s : Site) (limit : Nat) (tab tab' : List Entry) (x : Exchange) (f : Served) : Prop where
  good : x.ask.Good
  carries : Carries limit tab tab' x.inc x.ask
  sid : x.inc.sid < 2 ^ 31
  unserved : Unserved s.full x.ask.path x.ask.method
  get : x.ask.method = .get
  file : s.files x.ask.path = some f
  plain : f.dir = false
  size : f.size = (x.now x.ask.path).length
  short : f.size < 2 ^ 24
  uncoded : f.size < (s.app.cfg x.header).threshold ∨ (s.app.cfg x.header).acc.decided = none
  fields : ∀ fs, fs = [(b!":status", b!"200"), (b!"etag", f.tag), (b!"date", (s.app.cfg x.header).date), (b!"last-modified", f.modified), (b!"content-type", f.mime)] →
    (∀ p ∈ fs, Hpack.okHeader p) ∧ H2Trip.size fs ≤ 960 ∧ Apart tab' fs

theorem sent_plain (s : Site) (hr : ∀ x ∈ s.app.routes, WrittenPath x.1) (k : Conn) (hk : 16384 ≤ k.maxFrame ∧ k.maxFrame < 2 ^ 24) (t : Hpack.DTab)
    {limit : Nat} {tab tab' : List Entry} (ht : Holds t limit tab) (x : Exchange) (f : Served) (h : AsksFile s limit tab tab' x f) (p : H2B.Plan)
    (hp : H2B.prepare (s.app.cfg x.header).compress (s.app.cfg x.header).overflow (s.app.cfg x.header).threshold (s.app.cfg x.header).acc false none
      (some ⟨x.now x.ask.path, f.pre⟩) none = some (.ready p)) (hc : p.coding = none) (hl : p.contentLength < 2 ^ 24) (n : Nat) (hw : Takes x.inc.writes n) :
    ∃ t' block, serve s k t x.inc x.now = some (t', H2.wireHeader block.length 1 (if decide (p.kind = .noContent) then 5 else 4) false x.inc.sid ++ block ++
        H2Trip.writeData x.inc.sid x.inc.win (x.now x.ask.path) p x.inc.writes) ∧ Holds t' limit tab' ∧ block.length ≤ 1000 := by
  obtain ⟨t', e1, ht', hdyn⟩ := H2Trip.decoded t ht x.inc _ h.carries.2.2
  obtain ⟨i0, v0⟩ := fileHeader_ok (s.app.cfg x.header).date f
  obtain ⟨hh, e, i, v⟩ := H2Trip.statusPseudo_ok _ i0 (code := 200) (reason := b!"OK") (by decide +kernel)
  rw [v0, show Response.threeDigits 200 = b!"200" from by decide] at v
  obtain ⟨h'', e'', _, v''⟩ := PyBridge.addModify_ok i (n := b!"content-length") ⟨by simp, by decide⟩ (Response.contLenStr p.contentLength)
  have v'' : view h'' = (b!":status", b!"200") :: (b!"content-length", Response.contLenStr p.contentLength) ::
      [(b!"etag", f.tag), (b!"date", (s.app.cfg x.header).date), (b!"last-modified", f.modified), (b!"content-type", f.mime)] := by
    rw [v'', v]
    exact Header.setFirst_split (n := b!"content-length") (v := Response.contLenStr p.contentLength) [(b!":status", b!"200")] (Response.contLenStr f.size) _ (by simp)
  have hfin : finishFile (s.app.cfg x.header) f (x.now x.ask.path) = some ⟨h'', p, x.now x.ask.path⟩ := by
    unfold finishFile
    rw [if_neg (by simp [h.size]), e]
    simp only [hp, hc, H2Trip.addCoding, e'']
  have hresp : response s x.now ⟨true, cells x.inc.alloc x.ask.fields, x.inc.body, x.inc.discard⟩ = some ⟨h'', p, x.now x.ask.path⟩ := by
    rw [show x.inc.body = x.ask.body from h.carries.1, show x.inc.discard = false from h.carries.2.1]
    have e1 := chosen_file s hr x.ask h.good x.inc.alloc h.unserved h.file
    rw [if_neg (by simp [h.get])] at e1
    unfold response
    rw [e1, asked_request s x.ask h.good x.inc.alloc]
    simp only [h.file, h.plain, Bool.false_eq_true, if_false]
    exact hfin
  obtain ⟨hok, hsz, hap⟩ := h.fields _ rfl
  obtain ⟨l1, l2⟩ := H2Trip.fields_length hok hsz hl
  have l3 := H2Trip.apart_length hap (Response.contLenStr p.contentLength)
  obtain ⟨block, e3, hbl, _⟩ := H2Trip.sent_fields k hk x.inc.sid h.sid x.inc.win ⟨h'', p, x.now x.ask.path⟩ x.inc.writes _ n v''
    (fun q hq => l1 q (by simp only [List.mem_append, List.mem_cons, List.not_mem_nil, or_false] at hq ⊢; rcases hq with h | h | h | h | h | h <;> simp [h]))
    (by simp [H2Trip.size] at l2 ⊢; omega) tab'
    (fun q hq => l3 q (by simp only [List.mem_append, List.mem_cons, List.not_mem_nil, or_false] at hq ⊢; rcases hq with h | h | h | h | h | h <;> simp [h])) hw
  refine ⟨t', block, ?_, ht', hbl⟩
  unfold serve
  simp only [e1, hresp, hdyn, e3, Option.map_some]

theorem plain_plan {s : Site} {limit : Nat} {tab tab' : List Entry} {x : Exchange} {f : Served} (h : AsksFile s limit tab tab' x f) (hpre : f.pre = none) :
    H2B.prepare (s.app.cfg x.header).compress (s.app.cfg x.header).overflow (s.app.cfg x.header).threshold (s.app.cfg x.header).acc false none
      (some ⟨x.now x.ask.path, f.pre⟩) none = some (.ready ⟨.file (x.now x.ask.path), (x.now x.ask.path).length, (x.now x.ask.path).length, none⟩) := by
  have hx : (if (s.app.cfg x.header).threshold ≤ (x.now x.ask.path).length then (s.app.cfg x.header).acc.decided else none) = none := by
    rw [← h.size]
    rcases h.uncoded with h | h
    · rw [if_neg (by omega)]
    · rw [h, ite_self]
  simp only [hpre, H2B.prepare, H2B.source, Option.isSome_none, Bool.false_and, Bool.false_eq_true, if_false, hx]

theorem headers_only (m sid : Nat) (hs : sid < 2 ^ 31) (block : Bytes) : H2Trip.message m sid (H2.wireHeader block.length 1 4 false sid ++ block) = none := by
  by_cases hm : block.length ≤ m
  · have := H2Trip.message_wires m sid hs [(1, 4, block)] (by simpa using hm)
    simp only [H2Trip.wires, List.flatMap_cons, List.flatMap_nil, List.append_nil, List.map_cons, List.map_nil] at this
    unfold H2Trip.message
    simp only [this]
    simp [H2Trip.Frame.bare, H2Trip.Frame.endStream, H2Trip.Frame.endHeaders, H2Trip.continued, H2Trip.content]
  · have := H2Trip.wireHeader_refused m block.length 1 4 sid block (by omega)
    unfold H2Trip.message
    have hne : H2.wireHeader block.length 1 4 false sid ++ block ≠ [] := by simp [H2.wireHeader]
    cases hb : H2.wireHeader block.length 1 4 false sid ++ block with
    | nil => exact absurd hb hne
    | cons b bs =>
      rw [hb] at this
      simp only [List.length_cons, H2Trip.readFrames, this]

/-- **C194 refuted (empty files).** Whatever the site, and whatever windows and frames the client allows: an empty file is sent as header fields without an end of the stream, and
nothing follows: the client never has a whole response. -/
theorem C194_empty_file_refuted (s : Site) (hr : ∀ x ∈ s.app.routes, WrittenPath x.1) (k : Conn) (hk : 16384 ≤ k.maxFrame ∧ k.maxFrame < 2 ^ 24) (t : Hpack.DTab)
    {limit : Nat} {tab tab' : List Entry} (ht : Holds t limit tab) (x : Exchange) (f : Served) (h : AsksFile s limit tab tab' x f) (hpre : f.pre = none)
    (hempty : x.now x.ask.path = []) (hw : Takes x.inc.writes 0) :
    ∃ t' bs, serve s k t x.inc x.now = some (t', bs) ∧ bs ≠ [] ∧ ∀ m, H2Trip.message m x.inc.sid bs = none := by
  have hp := plain_plan h hpre
  rw [hempty] at hp
  obtain ⟨t', block, e, _, _⟩ := sent_plain s hr k hk t ht x f h _ (by rw [hempty]; exact hp) rfl (by simp) 0 hw
  refine ⟨t', _, e, by simp [H2.wireHeader], fun m => ?_⟩
  have hd : ∀ w : Send.Win, H2Trip.writeData x.inc.sid w (x.now x.ask.path) ⟨.file [], ([] : Bytes).length, ([] : Bytes).length, none⟩ x.inc.writes = [] := by
    intro w
    unfold H2Trip.writeData Send.startData
    by_cases h : w.stream ≤ 0 ∨ w.conn ≤ 0
    · rw [if_pos h]
    · rw [if_neg h]; rfl
  rw [hd, List.append_nil]
  exact headers_only m _ h.sid block

/-- **C194 refuted (long files).** Whatever the site: to send a file of more than 4096 bytes as it is, the worker writes beyond a buffer of 4096 bytes on its stack as soon as the
header of the DATA frame is out. -/
theorem C194_long_file_refuted (s : Site) (hr : ∀ x ∈ s.app.routes, WrittenPath x.1) (k : Conn) (hk : 16384 ≤ k.maxFrame ∧ k.maxFrame < 2 ^ 24) (t : Hpack.DTab)
    {limit : Nat} {tab tab' : List Entry} (ht : Holds t limit tab) (x : Exchange) (f : Served) (h : AsksFile s limit tab tab' x f) (hpre : f.pre = none)
    (hlong : 4096 < (x.now x.ask.path).length) (n : Nat) (hw : Takes x.inc.writes n) :
    ∃ p t' block, serve s k t x.inc x.now = some (t', H2.wireHeader block.length 1 4 false x.inc.sid ++ block ++
        H2Trip.writeData x.inc.sid x.inc.win (x.now x.ask.path) p x.inc.writes) ∧
      ∀ y ys, H2B.payload true (x.now x.ask.path) p (y :: ys) = ⟨[], .overrun⟩ := by
  have hl := h.short
  rw [h.size] at hl
  obtain ⟨t', block, e, _, _⟩ := sent_plain s hr k hk t ht x f h _ (plain_plan h hpre) rfl hl n hw
  exact ⟨_, t', block, e, fun y ys => H2B.C104_file_over_tls_overruns_refuted _ hlong (by omega) _ _ y ys⟩

theorem short_data (m sid : Nat) (hs : sid < 2 ^ 31) (block body : Bytes) (len fl : Nat) (hlen : len < 2 ^ 24) (hshort : body.length < len) :
    H2Trip.message m sid (H2.wireHeader block.length 1 4 false sid ++ block ++ (H2.wireHeader len 0 fl false sid ++ body)) = none := by
  have hno : H2Trip.readFrame m (H2.wireHeader len 0 fl false sid ++ body) = none := by
    unfold H2.wireHeader H2Trip.readFrame
    simp only [List.cons_append, List.nil_append]
    have e1 : len / 65536 * 65536 + len / 256 % 256 * 256 + len % 256 = len := by omega
    rw [e1, if_pos (Or.inr hshort)]
  have hno' : ∀ j, H2Trip.readFrames m j (H2.wireHeader len 0 fl false sid ++ body) = none := by
    intro j
    cases hb : H2.wireHeader len 0 fl false sid ++ body with
    | nil => simp [H2.wireHeader] at hb
    | cons b bs =>
      cases j with
      | zero => rfl
      | succ j =>
        rw [hb] at hno
        simp only [H2Trip.readFrames, hno]
  unfold H2Trip.message
  have hz : ∀ j, H2Trip.readFrames m j (H2.wireHeader block.length 1 4 false sid ++ block ++ (H2.wireHeader len 0 fl false sid ++ body)) = none := by
    intro j
    rw [List.append_assoc]
    cases hb : H2.wireHeader block.length 1 4 false sid ++ (block ++ (H2.wireHeader len 0 fl false sid ++ body)) with
    | nil => simp [H2.wireHeader] at hb
    | cons b bs =>
      cases j with
      | zero => rfl
      | succ j =>
        by_cases hm : block.length ≤ m
        · have := H2Trip.wireHeader_read m block.length 1 4 sid block (H2.wireHeader len 0 fl false sid ++ body) rfl hm hs
          rw [hb] at this
          simp only [H2Trip.readFrames, this, hno', Option.map_none]
        · have := H2Trip.wireHeader_refused m block.length 1 4 sid (block ++ (H2.wireHeader len 0 fl false sid ++ body)) (by omega)
          rw [hb] at this
          simp only [H2Trip.readFrames, this]
  rw [hz]

/-- **C194 refuted (stored forms).** Whatever the site: a file that is kept in a shorter, encoded form, asked for by a client that does not accept its coding, is announced with the
length of the file in a DATA frame in which only the encoded form comes: the client does not have a whole response. -/
theorem C194_stored_form_refuted (s : Site) (hr : ∀ x ∈ s.app.routes, WrittenPath x.1) (k : Conn) (hk : 16384 ≤ k.maxFrame ∧ k.maxFrame < 2 ^ 24) (t : Hpack.DTab)
    {limit : Nat} {tab tab' : List Entry} (ht : Holds t limit tab) (x : Exchange) (f : Served) (h : AsksFile s limit tab tab' x f) {c : Response.Coding} {e : Bytes}
    (hpre : f.pre = some (c, e)) (hno : (s.app.cfg x.header).acc.matching c = false) (hshort : e.length < f.size) (ho : 0 < x.inc.win.stream ∧ 0 < x.inc.win.conn)
    (hw : Takes x.inc.writes e.length) :
    ∃ t' bs, serve s k t x.inc x.now = some (t', bs) ∧ ∀ m, H2Trip.message m x.inc.sid bs = none := by
  have hne : x.now x.ask.path ≠ [] := by
    intro hx
    rw [h.size, hx] at hshort
    simp at hshort
  have hun := h.uncoded
  have hsz := h.size
  have hl := h.short
  rw [hsz] at hun hshort hl
  obtain ⟨p, e1, e2, e3, e4, e5⟩ := H2B.C104_frame_length_refuted (s.app.cfg x.header).compress (s.app.cfg x.header).overflow true (x.now x.ask.path)
    (s.app.cfg x.header).threshold (s.app.cfg x.header).acc (x.now x.ask.path) e c hno hun hne none
  have hk2 : p.kind = .encoded e := by
    have hx : (if (s.app.cfg x.header).threshold ≤ (x.now x.ask.path).length then (s.app.cfg x.header).acc.decided else none) = none := by
      rcases hun with h | h
      · rw [if_neg (by omega)]
      · rw [h, ite_self]
    simp only [H2B.prepare, H2B.source, hno, Option.isSome_some, Bool.not_false, Bool.true_and, if_true, Bool.false_eq_true, if_false, hx, Option.some.injEq,
      H2B.Prepared.ready.injEq] at e1
    rw [← e1]
  obtain ⟨t', block, er, _, _⟩ := sent_plain s hr k hk t ht x f h p (by rw [hpre]; exact e1) e4 (by rw [e3]; omega) _ hw
  refine ⟨t', _, er, fun m => ?_⟩
  rw [decide_eq_false (by rw [hk2]; simp)]
  simp only [Bool.false_eq_true, if_false]
  have hpay : (H2B.payload true (x.now x.ask.path) p x.inc.writes.data).out = e := by
    rcases e5 _ hw.data.1 with ⟨_, h⟩ | ⟨_, _, h⟩
    · exact h
    · have := hw.data.2; omega
  have hwd : ∃ fl, H2Trip.writeData x.inc.sid x.inc.win (x.now x.ask.path) p x.inc.writes = H2.wireHeader (x.now x.ask.path).length 0 fl false x.inc.sid ++ e := by
    have hpos := List.length_pos_iff.2 hne
    unfold H2Trip.writeData Send.startData
    rw [e2, if_neg (by omega), if_neg (by omega)]
    simp only
    rw [H2.C07_written_header_layout _ _ _ _ _ hl h.sid, H2Trip.dataHeader_written _ _ hw.dataHeader.1 (by exact hw.dataHeader.2)]
    simp only [if_true, hpay]
    exact ⟨_, rfl⟩
  obtain ⟨fl, hwd⟩ := hwd
  rw [hwd]
  exact short_data m _ h.sid block e _ fl hl hshort

/-! Files that meet the hypotheses: an empty one, a long one, and one that is kept encoded while the client accepts no coding. -/

def otherSite (f : Served) : Site :=
  { sampleSite with
    files := fun _ => some f
    app := { sampleSite.app with cfg := fun _ => { H2Trip.sampleCfg with acc := ⟨fun _ => false, none⟩ } } }

theorem other_asks (f : Served) (content : Bytes) (hd : f.dir = false) (hs : f.size = content.length) (hl : f.size < 2 ^ 24)
    (ht : f.tag = fileX.tag ∧ f.modified = fileX.modified ∧ f.mime = fileX.mime) :
    AsksFile (otherSite f) 4096 [] tabX { sampleGet with now := fun _ => content } f where
  good := askX_good
  carries := H2Trip.sample_carries askX 1 repsX _ (by decide +kernel) repsX_ok
  sid := by show 1 < 2 ^ 31; decide
  unserved := Site.sample_unserved b!"/x" .get (by decide) (by decide)
  get := rfl
  file := rfl
  plain := hd
  size := hs
  short := hl
  uncoded := Or.inr rfl
  fields := by
    rintro fs rfl
    rw [ht.1, ht.2.1, ht.2.2]
    show (∀ p ∈ ([(b!":status", b!"200"), (b!"etag", fileX.tag), (b!"date", H2Trip.sampleCfg.date), (b!"last-modified", fileX.modified), (b!"content-type", fileX.mime)] : Pairs),
      Hpack.okHeader p) ∧ H2Trip.size [(b!":status", b!"200"), (b!"etag", fileX.tag), (b!"date", H2Trip.sampleCfg.date), (b!"last-modified", fileX.modified),
      (b!"content-type", fileX.mime)] ≤ 960 ∧ Apart tabX [(b!":status", b!"200"), (b!"etag", fileX.tag), (b!"date", H2Trip.sampleCfg.date), (b!"last-modified", fileX.modified),
      (b!"content-type", fileX.mime)]
    refine ⟨by decide +kernel, by decide, ?_⟩
    unfold Apart
    decide

example : AsksFile (otherSite { fileX with size := 0 }) 4096 [] tabX { sampleGet with now := fun _ => [] } { fileX with size := 0 } ∧
    AsksFile (otherSite { fileX with size := 5000 }) 4096 [] tabX { sampleGet with now := fun _ => List.replicate 5000 65 } { fileX with size := 5000 } ∧
    AsksFile (otherSite { fileX with pre := some (1, b!"GZ") }) 4096 [] tabX { sampleGet with now := fun _ => b!"hello" } { fileX with pre := some (1, b!"GZ") } ∧
    ((otherSite { fileX with pre := some (1, b!"GZ") }).app.cfg sampleGet.header).acc.matching 1 = false ∧ Takes sampleGet.inc.writes 2 :=
  ⟨other_asks _ _ rfl rfl (by decide) ⟨rfl, rfl, rfl⟩, other_asks _ _ rfl (List.length_replicate ..).symm (by decide) ⟨rfl, rfl, rfl⟩, other_asks _ _ rfl rfl (by decide) ⟨rfl, rfl, rfl⟩, rfl,
    H2Trip.sample_takes _ (by decide)⟩

end Fly.H2Site
