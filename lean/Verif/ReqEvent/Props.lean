import Verif.ReqEvent.Lemmas
import Verif.ReqEvent.Safety

/-! # Properties of HTTP/1 request handling -/

namespace Fly.ReqEvent
open Req (ReqLine)

/-! ## A sample request -/

/-- A POST with a body of five bytes. -/
def sample : Msg :=
  ⟨b!"POST /a HTTP/1.1", ⟨.post, b!"/a", none, .v1_1⟩, [b!"Host: h", b!"Content-Length: 5"],
    [(b!"Host", b!"h"), (b!"Content-Length", b!"5")], b!"hello"⟩

theorem sample_good : sample.Good where
  line := by
    refine ⟨0, 0, 1, b!"/a", .origin .post b!"/a" [] none (by decide) ⟨?_, rfl⟩ .absent, rfl⟩
    exact .byte _ _ (by simp [Req.PathByte]) <| .byte _ _ (by simp [Req.PathByte, Req.RfcPchar, Req.RfcUnreserved]) .nil
  version := rfl
  cr := by decide
  short := by decide
  some := by decide
  plain := by decide
  fields := by
    refine .field _ b!"Host" b!"h" _ _ ⟨b!" ", b!"\r", rfl, ?_, by simp, ?_, ?_, ?_, Or.inl rfl⟩ <|
      .field _ b!"Content-Length" b!"5" _ _ ⟨b!" ", b!"\r", rfl, ?_, by simp, ?_, ?_, ?_, Or.inl rfl⟩ .nil <;>
      simp [ReqHeader.NameByte, ReqHeader.ValueByte, ReqHeader.Blank]
  body := by decide +kernel
  fits := by decide

/-- An environment with one route for POST /a. -/
def sampleEnv (max : Nat) : Env :=
  ⟨max, fun _ => .ok, fun u m => if u = b!"/a" ∧ m = .post then some 7 else none, fun _ u => if u = b!"/f" then some ⟨false, false⟩ else none⟩

example : sample.text = b!"POST /a HTTP/1.1\r\nHost: h\r\nContent-Length: 5\r\n\r\nhello" := by decide

/-! ## C71: arrival -/

/-- **C71 (arrival).** A well-formed request (with at least one header field) gets the same answer however its bytes
are cut into pieces and wherever the connection pauses.  Missing: requests without header fields and clients
that half-close, which are refuted below. -/
theorem C71_arrival_independent_partial (e : Env) (m : Msg) (hg : m.Good) (rs : List Rcv) (hp : Plain rs)
    (hd : dataOf rs = m.text) : connection e rs = answer e m :=
  connection_answer e m hg rs hp hd

/-- Two schedules for the sample, one of them byte by byte. -/
example : Plain (sample.text.map fun c => .data [c] false) ∧ dataOf (sample.text.map fun c => .data [c] false) = sample.text := by
  refine ⟨?_, by decide +kernel⟩
  intro r hr
  obtain ⟨c, _, rfl⟩ := List.mem_map.1 hr
  exact Or.inr ⟨[c], by simp, rfl⟩

example : answer (sampleEnv 100) sample =
    .reply (.handler 7 sample.line ⟨[⟨some b!"host", some b!"h"⟩, ⟨some b!"content-length", some b!"5"⟩], 2⟩ (some b!"hello")) := by
  decide +kernel

/-- **C71 (robustness).** Whatever bytes, pauses, end of stream or error arrive, the server misbehaves only if the
first line has 8000 bytes or more, or names version HTTP/2; in both cases it does (below). -/
theorem C71_crash_only_partial (e : Env) (rs : List Rcv) (h : connection e rs = .crash) :
    LongLine (dataOf rs) ∨ ∃ l, LineOf (dataOf rs) l ∧ l.version = .v2 := by
  have := connection_good e rs
  rw [h] at this
  exact this

theorem serve_nil (e : Env) (n : Nat) (s : St) : serve e n s [] = .wait s [] := by
  cases n <;> simp [serve]

theorem serve_wait (e : Env) (n : Nat) (s s' : St) (rs l : List Rcv) (hr : rs ≠ []) (h : handle e s rs = .wait s' l) :
    serve e (n + 1) s rs = serve e n s' l := by
  rw [serve, if_neg hr, h]

theorem serve_end (e : Env) (n : Nat) (s : St) (rs : List Rcv) (o : Out) (hr : rs ≠ []) (h : handle e s rs = o)
    (ho : ∀ s l, o ≠ .wait s l) : serve e (n + 1) s rs = o := by
  rw [serve, if_neg hr, h]
  cases o with
  | wait s l => exact absurd rfl (ho s l)
  | _ => rfl

/-- A request without header fields is never answered if the empty line arrives after the request line, whatever the
request line. -/
theorem C71_headerless_in_two_pieces_refuted (e : Env) (lt : Bytes) (l : ReqLine) (hl : Req.Accepted lt l) (hcr : 13 ∉ lt)
    (hs : lt.length + 2 < 8000) :
    connection e [.data (lt ++ b!"\r\n") false, .data b!"\r\n" false] =
      .wait ⟨b!"\r\n", .header, true, false, some l, Header.HList.init, false, 0⟩ [] := by
  have s2 : search b!"\r\n" b!"\r\n" 0 (lt ++ b!"\r\n") = some (lt.length + 2) := by
    rw [search_crlf lt [] hcr]; simp
  have s4 : search b!"\r\n\r\n" b!"\r\n\r\n" 0 (lt ++ b!"\r\n") = none := by
    rw [search4_line lt [] hcr]; rfl
  have s4' : search b!"\r\n\r\n" b!"\r\n\r\n" 0 b!"\r\n" = none := rfl
  have hpar : Req.parseReqline (lt ++ b!"\r\n") = .ok l := (Req.parse_iff _ _).2 ⟨lt, [], rfl, hl⟩
  have hlen : (lt ++ b!"\r\n").length = lt.length + 2 := by simp
  have h1 : handle e St.init [.data (lt ++ b!"\r\n") false, .data b!"\r\n" false] =
      .wait ⟨[], .header, true, false, some l, Header.HList.init, false, 0⟩ [.data b!"\r\n" false] := by
    simp only [handle, receive, St.init, has, List.nil_append, s2, s4, Bool.false_eq_true, if_false, Bool.not_false, Bool.true_and,
      Option.isSome, Bool.or_false, if_true, Bool.false_or, line]
    rw [if_neg (by omega)]
    rw [List.take_of_length_le (by omega), hpar]
    simp only [header]
    rw [List.drop_of_length_le (by omega)]
    simp
  have h2 : handle e ⟨[], .header, true, false, some l, Header.HList.init, false, 0⟩ [.data b!"\r\n" false] =
      .wait ⟨b!"\r\n", .header, true, false, some l, Header.HList.init, false, 0⟩ [] := by
    simp [handle, receive, has, s4', header]
  unfold connection
  rw [show ([.data (lt ++ b!"\r\n") false, .data b!"\r\n" false] : List Rcv).length = 2 from rfl,
    serve_wait _ _ _ _ _ _ (by simp) h1, serve_wait _ _ _ _ _ _ (by simp) h2, serve_nil]

/-- The same bytes in one piece are answered. -/
example : connection (sampleEnv 100) [.data b!"GET /f HTTP/1.1\r\n\r\n" false] = .reply .file ∧
    connection (sampleEnv 100) [.data b!"GET /f HTTP/1.1\r\n" false, .data b!"\r\n" false] ≠ .reply .file := by
  constructor <;> decide +kernel

/-- A client that closes its sending side right after the body gets no answer if the body comes in a piece of its
own, for every well-formed request with a body within the limit. -/
theorem C71_half_close_unanswered_refuted (e : Env) (m : Msg) (hg : m.Good) (hn : e.nego m.header = .ok)
    (hx : Header.expect100 m.header = false) (hm : m.body.length ≤ e.maxLen) (hb : m.body ≠ []) :
    connection e [.data (m.text.take m.nH) false, .data m.body false, .eof] = .close := by
  have hL := text_length m
  have hbl := hg.body
  have hb0 := List.length_pos_iff.2 hb
  have hc : Header.contentLength m.header ≠ 0 := by omega
  have hsh := hg.short
  have h1 : handle e St.init [.data (m.text.take m.nH) false, .data m.body false, .eof] =
      .wait ⟨[], .body, true, true, some m.line, m.header, false, 0⟩ [.data m.body false, .eof] := by
    have e2 := search_take _ _ m.nL m.nH (search_text2 m hg)
    rw [if_pos (by simp only [Msg.nH]; omega)] at e2
    have e4 := search_take _ _ m.nH m.nH (search_text4 m hg)
    rw [if_pos (Nat.le_refl _)] at e4
    simp only [handle, receive, St.init, has, List.nil_append, e2, e4, Bool.false_eq_true, if_false, Bool.not_false, Bool.true_and,
      Option.isSome, if_true, Bool.false_or, line, Bool.or_true]
    rw [if_neg (by simp only [Msg.nL]; omega), List.take_take, Nat.min_eq_left (by simp only [Msg.nH]; omega), parse_text m hg]
    simp only [header, Bool.not_true, Bool.false_eq_true, if_false]
    have e0 : (m.text.take m.nH).drop m.nH = [] := List.drop_of_length_le (by rw [List.length_take]; omega)
    rw [if_neg (by intro h0; have := congrArg List.length h0; rw [List.length_drop, List.length_take] at this; simp only [Msg.nH, List.length_nil] at *; omega),
      header_text m hg _ (Nat.le_refl _)]
    simp only [List.dropLast_concat, e0, hn, if_neg hc, body, hx, Bool.false_eq_true, if_false]
    rw [if_neg (by rw [bodyLength_eq m hg]; omega)]
    simp
  have h2 : handle e ⟨[], .body, true, true, some m.line, m.header, false, 0⟩ [.data m.body false, .eof] = .close := by
    simp [handle, receive]
  unfold connection
  rw [show ([.data (m.text.take m.nH) false, .data m.body false, .eof] : List Rcv).length = 2 + 1 from rfl,
    serve_wait _ _ _ _ _ _ (by simp) h1, serve_end _ _ _ _ _ (by simp) h2 (by simp)]

/-- A request line of 8000 bytes or more ends the worker process instead of being answered 414, whatever it says and
however it arrives (C23). -/
theorem C23_414_answer_crashes_refuted (e : Env) (x : Bytes) (hx : 13 ∉ x) (hl : 8000 ≤ x.length + 2) (rs : List Rcv) (hp : Plain rs)
    (hd : dataOf rs = x ++ b!"\r\n") : connection e rs = .crash := by
  have s2 : search b!"\r\n" b!"\r\n" 0 (x ++ b!"\r\n") = some (x.length + 2) := by rw [search_crlf x [] hx]; simp
  have s4 : ∀ k, has b!"\r\n\r\n" ((x ++ b!"\r\n").take k) = false := by
    intro k
    cases h : has b!"\r\n\r\n" ((x ++ b!"\r\n").take k) with
    | false => rfl
    | true =>
      obtain ⟨n, hn⟩ := Option.isSome_iff_exists.1 h
      have := search_append _ _ _ _ ((x ++ b!"\r\n").drop k) _ hn
      rw [List.take_append_drop, search4_line x [] hx] at this
      simp [search] at this
  have hlen : (x ++ b!"\r\n").length = x.length + 2 := by simp
  have main : ∀ (n k : Nat) (rs : List Rcv), rs.length ≤ n → Plain rs → k < x.length + 2 → dataOf rs = (x ++ b!"\r\n").drop k →
      serve e n ⟨(x ++ b!"\r\n").take k, .line, false, false, none, Header.HList.init, false, 0⟩ rs = .crash := by
    intro n
    induction n with
    | zero =>
      intro k rs hn hp hk hd
      have e1 : rs = [] := List.eq_nil_of_length_eq_zero (by omega)
      subst e1
      have h1 := congrArg List.length hd
      rw [List.length_drop, hlen] at h1
      simp [dataOf] at h1; omega
    | succ n ih =>
      intro k rs hn hp hk hd
      have hr : rs ≠ [] := by
        rintro rfl
        have h1 := congrArg List.length hd
        rw [List.length_drop, hlen] at h1
        simp [dataOf] at h1; omega
      obtain ⟨o, t, rs', er, g1, g2, g3, g4, g5⟩ := receive_plain rs ⟨(x ++ b!"\r\n").take k, .line, false, false, none, Header.HList.init, false, 0⟩ false hp rfl
      have g4 := g4 hr
      have hd' : (x ++ b!"\r\n").drop k = t ++ dataOf rs' := by rw [← hd, g1]
      have hd2 : dataOf rs' = (x ++ b!"\r\n").drop (k + t.length) := by rw [← List.drop_drop, hd', List.drop_left]
      have hkt : k + t.length ≤ x.length + 2 := by
        have := congrArg List.length hd'
        rw [List.length_drop, hlen, List.length_append] at this; omega
      have htake := take_add _ _ _ _ hd'
      have step : handle e ⟨(x ++ b!"\r\n").take k, .line, false, false, none, Header.HList.init, false, 0⟩ rs = .crash ∨
          (k + t.length < x.length + 2 ∧ handle e ⟨(x ++ b!"\r\n").take k, .line, false, false, none, Header.HList.init, false, 0⟩ rs =
            .wait ⟨(x ++ b!"\r\n").take (k + t.length), .line, false, false, none, Header.HList.init, false, 0⟩ rs') := by
        unfold handle
        simp only [Bool.false_eq_true, if_false]
        rw [er]
        rcases g5 with rfl | ⟨rfl, rfl, _⟩
        · simp only [got, ← htake, has_take _ _ _ _ s2, s4, Bool.and_false, Bool.or_false, line]
          rw [search_take _ _ _ _ s2]
          by_cases hk2 : x.length + 2 ≤ k + t.length
          · left
            rw [if_pos hk2]
            simp only
            rw [if_pos (by omega)]
            rfl
          · right
            refine ⟨by omega, ?_⟩
            rw [if_neg hk2]
            simp [hk2]
        · right
          simp only [got_nil]
          exact ⟨by simpa using hk, by simp⟩
      rw [serve, if_neg hr]
      rcases step with h | ⟨h1, h2⟩
      · rw [h]
      · rw [h2]
        exact ih _ _ (by omega) g2 h1 hd2
  have := main rs.length 0 rs (Nat.le_refl _) hp (by omega) (by simpa using hd)
  simpa [connection, St.init] using this

/-- A request line with version HTTP/2 (on an HTTP/1 connection) ends the worker process unless an application
function takes the request. -/
theorem C71_http2_version_crashes_refuted (e : Env) (l : ReqLine) (h : Header.HList) (b : Option Bytes) (hv : l.version = .v2)
    (hr : e.route l.uri l.method = none) : finish e l h b = .crash := by
  unfold finish select
  rw [hr]
  simp only
  cases e.file h l.uri with
  | none => simp [build, hv]
  | some f =>
    have : ∀ r : Reply, build (some l) r = .crash := by intro r; simp [build, hv]
    simp only [this]
    split
    · rename_i hh
      split at hh <;> (try simp at hh)
      split at hh <;> (try simp at hh)
      split at hh <;> simp at hh
    · rfl

example : connection (sampleEnv 100) [.data b!"GET /x HTTP/2\r\n\r\n" false] = .crash := by decide +kernel

/-! ## C50: body limit -/

/-- **C50 (safety).** Whatever arrives in whatever way: an application function only ever runs without a body when
none was announced, or with a body of exactly the announced length, not above the limit, made of consecutive
bytes of the connection. -/
theorem C50_handler_body_exact (e : Env) (rs : List Rcv) (r : Nat) (l : ReqLine) (h : Header.HList) (b : Option Bytes)
    (hr : connection e rs = .reply (.handler r l h b)) :
    (b = none ∧ Header.contentLength h = 0) ∨
      ∃ x, b = some x ∧ x.length = bodyLength h ∧ x.length ≤ e.maxLen ∧ x <:+: dataOf rs := by
  have := connection_good e rs
  rw [hr] at this
  rcases this with h1 | ⟨x, h1, _, h2, h3, h4⟩
  · exact Or.inl h1
  · exact Or.inr ⟨x, h1, h2, by omega, h4⟩

/-- **C50 (delivery and refusal).** Every well-formed request with a body, however it arrives: the application gets exactly
the body if it is within the limit; otherwise the answer is 413.  Requests with `Expect: 100-continue` are
not part of this (see below). -/
theorem C50_limit_decides_partial (e : Env) (m : Msg) (hg : m.Good) (rs : List Rcv) (hp : Plain rs) (hd : dataOf rs = m.text)
    (hn : e.nego m.header = .ok) (hx : Header.expect100 m.header = false) (hb : m.body ≠ []) :
    connection e rs =
      if m.body.length ≤ e.maxLen then .reply (select e m.line m.header (some m.body)) else .reply (.status 413) := by
  have hbl := hg.body
  have hb0 := List.length_pos_iff.2 hb
  rw [connection_answer e m hg rs hp hd]
  unfold answer
  rw [hn]
  simp only
  rw [if_neg (by omega), hx]
  simp only [Bool.false_eq_true, if_false]
  by_cases hm : m.body.length ≤ e.maxLen
  · rw [if_pos hm, if_neg (by omega)]
  · rw [if_neg hm, if_pos (by omega)]

example : answer (sampleEnv 5) sample ≠ answer (sampleEnv 4) sample ∧ answer (sampleEnv 4) sample = .reply (.status 413) := by
  constructor <;> decide +kernel

/-- **C50 (expectations).** A request with `Expect: 100-continue` gets 417 if its length is above the limit and 100
otherwise, however it arrives. -/
theorem C50_expectation (e : Env) (m : Msg) (hg : m.Good) (rs : List Rcv) (hp : Plain rs) (hd : dataOf rs = m.text)
    (hn : e.nego m.header = .ok) (hx : Header.expect100 m.header = true) (hb : m.body ≠ []) :
    connection e rs = .reply (.status (if m.body.length > e.maxLen then 417 else 100)) := by
  have hbl := hg.body
  have hb0 := List.length_pos_iff.2 hb
  rw [connection_answer e m hg rs hp hd]
  unfold answer
  rw [hn]
  simp only
  rw [if_neg (by omega), hx]
  simp

theorem contentLength_init : Header.contentLength Header.HList.init = 0 := by decide

/-- After 100 the server removes the Expect field to go on reading the body, which is undefined behaviour
whenever the field is there (`fly_remove_header_chain` walks on from the element it has just released). -/
theorem C50_after_100_undefined_refuted (h : Header.HList) (hc : h.count ≠ 0) (hx : Header.expect100 h = true) :
    Header.removeChain h b!"expect" = none := by
  unfold Header.removeChain
  rw [if_neg hc, if_pos ?_]
  simp only [Header.expect100, List.any_eq_true] at hx ⊢
  obtain ⟨f, hf, h1⟩ := hx
  refine ⟨f, hf, ?_⟩
  simp only [Bool.and_eq_true] at h1 ⊢
  simp_all

example : Header.expect100 ⟨[⟨some b!"expect", some b!"100-continue"⟩], 1⟩ = true := by decide +kernel

/-- A state that throws away a body goes on doing so until the announced number of bytes has come. -/
theorem discard_waits (e : Env) (n : Nat) : ∀ (s : St) (rs : List Rcv), rs.length ≤ n → Plain rs → s.discard = true → s.gotLine = true →
    s.gotHeader = true → s.line ≠ none → Header.expect100 s.header = false → e.maxLen < bodyLength s.header →
    s.discardLen + (dataOf rs).length < bodyLength s.header → ∃ s', serve e n s rs = .wait s' [] := by
  induction n with
  | zero =>
    intro s rs hl _ _ _ _ _ _ _ _
    have e1 : rs = [] := List.eq_nil_of_length_eq_zero (by omega)
    exact ⟨s, by rw [e1]; rfl⟩
  | succ n ih =>
    intro s rs hl hp hd h1 h2 h3 hx hm hlt
    by_cases hr : rs = []
    · rw [hr]; exact ⟨s, serve_nil _ _ _⟩
    · cases hln : s.line with
      | none => exact absurd hln h3
      | some l =>
        obtain ⟨t, rs', er, g1, g2, g3, g4⟩ := receive_discard rs ({ s with fase := .body, line := some l, discard := true }) false hp rfl h1 h2
        have hdl : (dataOf rs).length = t.length + (dataOf rs').length := by rw [g1]; simp
        have hh : handle e s rs = .wait ({ s with fase := .body, line := some l, discard := true, discardLen := s.discardLen + t.length }) rs' := by
          unfold handle
          rw [if_pos hd]
          unfold body
          rw [hln]
          simp only [hx, Bool.false_eq_true, if_false]
          rw [if_pos hm]
          unfold discard
          simp only
          rw [if_neg (by omega), er]
          simp only
          rw [if_pos (by omega)]
        have g4 := g4 hr
        rw [serve_wait _ _ _ _ _ _ hr hh]
        exact ih _ rs' (by omega) g2 rfl h1 h2 (by simp) hx hm (by simp only; omega)

/-- A request line and header block whose announced body length is too large, arriving in one piece, is not answered before
the whole announced length has come, however the bytes then arrive.  For a negative length (which becomes a number
from 2^63 up) that is never. -/
theorem C50_no_answer_before_whole_body_refuted (e : Env) (m : Msg) (hl : Req.Accepted m.lineText m.line) (hcr : 13 ∉ m.lineText)
    (hs : m.lineText.length + 2 < 8000) (hne : m.headers ≠ []) (hpl : ∀ x ∈ m.headers, x ≠ [] ∧ 13 ∉ x ∧ 10 ∉ x ∧ 0 ∉ x)
    (hf : ReqHeader.Fields (m.headers.map (· ++ b!"\r")) m.fields) (hb : m.body = []) (hn : e.nego m.header = .ok)
    (hx : Header.expect100 m.header = false) (hm : e.maxLen < bodyLength m.header) (hc : Header.contentLength m.header ≠ 0)
    (rs : List Rcv) (hp : Plain rs) (hlt : (dataOf rs).length < bodyLength m.header) :
    ∃ s', connection e (.data m.text false :: .block :: rs) = .wait s' [] := by
  -- the message as it stands is well-formed but for its length, so the lemmas on its head apply to it
  have hL := text_length m
  have s2 : search b!"\r\n" b!"\r\n" 0 m.text = some m.nL := by
    rw [text_eq, search_crlf _ _ hcr]; simp [Msg.nL]
  have s4 : search b!"\r\n\r\n" b!"\r\n\r\n" 0 m.text = some m.nH := by
    rw [text_eq, search4_line _ _ hcr, Msg.hdrs, search4_block _ _ fun y hy => ⟨(hpl y hy).1, (hpl y hy).2.1⟩]
    simp [Msg.nH, Msg.nL, Msg.hdrs]
  have hpar : Req.parseReqline (m.text.take m.nL) = .ok m.line := by
    rw [text_take_nL]; exact (Req.parse_iff _ _).2 ⟨m.lineText, [], by simp, hl⟩
  have hhdr : ReqHeader.headerOperation (m.text.drop m.nL) = .ok m.header [0] := by
    have := ReqHeader.C69_header_fields_exact _ _ [] hf (by
      intro x hx
      obtain ⟨y, hy, rfl⟩ := List.mem_map.1 hx
      obtain ⟨h1, h2, h3, h4⟩ := hpl y hy
      refine ⟨by simp [h3], by simp [h4], ?_⟩
      cases y with
      | nil => simp at h1
      | cons a y =>
        intro he
        rcases he with he | he <;> simp at he
        simp at h2; omega)
    rw [text_drop_nL, hb, Msg.hdrs, hdrs_lines]
    simpa [Msg.header] using this
  have hne' : m.text.drop m.nL ≠ [] := by
    intro h0; have := congrArg List.length h0; rw [List.length_drop] at this; simp only [Msg.nH, List.length_nil] at *; omega
  have h1 : handle e St.init (.data m.text false :: .block :: rs) =
      .wait ⟨[], .body, true, true, some m.line, m.header, true, 0⟩ rs := by
    simp only [handle, receive, St.init, has, List.nil_append, s2, s4, Bool.false_eq_true, if_false, Bool.not_false, Bool.true_and,
      Option.isSome, if_true, Bool.false_or, line, Bool.or_true]
    rw [if_neg (by simp only [Msg.nL]; omega), hpar]
    simp only [header, Bool.not_true, Bool.false_eq_true, if_false]
    rw [if_neg hne', hhdr]
    simp only [List.dropLast_singleton, hn, if_neg hc, body, hx, Bool.false_eq_true, if_false, List.length_nil, Nat.add_zero]
    rw [if_pos hm]
    unfold discard
    simp only
    rw [if_neg (by omega)]
    simp only [receive]
    simp only [Bool.not_true, Bool.false_and, Bool.false_eq_true, if_false]
    rw [if_pos (by omega)]
  unfold connection
  have := discard_waits e (rs.length + 1) ⟨[], .body, true, true, some m.line, m.header, true, 0⟩ rs (by omega) hp rfl rfl rfl (by simp) hx hm
    (by simp only; omega)
  obtain ⟨s', hs'⟩ := this
  refine ⟨s', ?_⟩
  rw [show (Rcv.data m.text false :: Rcv.block :: rs).length = (rs.length + 1) + 1 from rfl, serve_wait _ _ _ _ _ _ (by simp) h1, hs']

/-- The case of a negative length. -/
example : bodyLength ⟨[⟨some b!"content-length", some b!"-1"⟩], 1⟩ = 18446744073709551615 := by decide +kernel

/-! ## C51: static selection -/

/-- **C51.** A well-formed request whose path and method no route has, however it arrives: if its path names a mounted
file, GET gives the file, or 304 if the client's copy is current, and any other method 405; otherwise 404.
A directory counts as no file. -/
theorem C51_static_selection (e : Env) (m : Msg) (hg : m.Good) (rs : List Rcv) (hp : Plain rs) (hd : dataOf rs = m.text)
    (hn : e.nego m.header = .ok) (hx : Header.expect100 m.header = false) (hb : m.body.length ≤ e.maxLen)
    (hr : e.route m.line.uri m.line.method = none) :
    connection e rs = .reply (
      match e.file m.header m.line.uri with
      | none => .status 404
      | some f => if m.line.method = .get then (if f.dir then .status 404 else if f.notModified then .status 304 else .file) else .status 405) := by
  have hsel : ∀ b, select e m.line m.header b = (match e.file m.header m.line.uri with
      | none => .status 404
      | some f => if m.line.method = .get then (if f.dir then .status 404 else if f.notModified then .status 304 else .file) else .status 405) := by
    intro b
    unfold select
    rw [hr]
    simp only
    cases e.file m.header m.line.uri with
    | none => rfl
    | some f => by_cases h : m.line.method = .get <;> simp [h]
  rw [connection_answer e m hg rs hp hd]
  unfold answer
  rw [hn]
  simp only [hsel, hx, Bool.false_eq_true, if_false]
  have : ¬ (m.body.length > e.maxLen) := by omega
  simp [this]

/-- **C51 (dynamic).** If a route has the path and method, its function is called with the request line, the header fields and the
body, once, however the request arrives. -/
theorem C51_route_called (e : Env) (m : Msg) (hg : m.Good) (rs : List Rcv) (hp : Plain rs) (hd : dataOf rs = m.text) (r : Nat)
    (hn : e.nego m.header = .ok) (hx : Header.expect100 m.header = false) (hb : m.body.length ≤ e.maxLen)
    (hr : e.route m.line.uri m.line.method = some r) :
    connection e rs = .reply (.handler r m.line m.header (if m.body = [] then none else some m.body)) := by
  have hbl := hg.body
  rw [connection_answer e m hg rs hp hd]
  unfold answer select
  rw [hn, hr]
  simp only [hx, Bool.false_eq_true, if_false]
  by_cases h0 : m.body = []
  · rw [if_pos (by rw [h0] at hbl; simpa using hbl.symm), if_pos h0]
  · have := List.length_pos_iff.2 h0
    rw [if_neg (by omega), if_neg (by omega), if_neg h0]

/-- A request before its first line break. -/
def young (b : Bytes) : St := ⟨b, .line, false, false, none, Header.HList.init, false, 0⟩

theorem no_line (x : Bytes) (h : 13 ∉ x) (s : Bytes) : search (13 :: s) (13 :: s) 0 x = none := by
  have : ∀ n, search (13 :: s) (13 :: s) n x = none := by
    induction x with
    | nil => intro n; rfl
    | cons c x ih =>
      intro n
      have hc : c ≠ 13 := fun e => h (by simp [e])
      rw [search, if_neg hc]
      exact ih (fun hm => h (by simp [hm])) _
  exact this 0

theorem receive_full (bs : Bytes) (rs : List Rcv) : ∀ (pre : List Rcv), Plain pre → ∀ (b : Bytes) (t : Bool), 13 ∉ b → 13 ∉ dataOf pre →
    (∃ s r, receive (young b) t (pre ++ .data bs true :: rs) = (.overflow, s, r)) ∨
    (∃ o b' pre', receive (young b) t (pre ++ .data bs true :: rs) = (o, young b', pre' ++ .data bs true :: rs) ∧ (o = .success ∨ o = .readBlock) ∧ 13 ∉ b' ∧
      Plain pre' ∧ 13 ∉ dataOf pre' ∧ pre'.length < pre.length)
  | [], _, b, t, _, _ => by left; simp [receive, young]
  | .block :: pre, hp, b, t, hb, hd => by
    right
    refine ⟨_, b, pre, rfl, ?_, hb, fun r hr => hp r (by simp [hr]), hd, by simp⟩
    cases t <;> simp [young]
  | .data x l :: pre, hp, b, t, hb, hd => by
    have hl : l = false := by
      have := hp (.data x l) (by simp)
      rcases this with h | ⟨y, _, h⟩
      · cases h
      · cases h; rfl
    subst hl
    simp only [dataOf, List.mem_append, not_or] at hd
    have hbx : 13 ∉ b ++ x := by simp [hb, hd.1]
    have e : receive (young b) t (.data x false :: pre ++ .data bs true :: rs) = receive (young (b ++ x)) true (pre ++ .data bs true :: rs) := by
      simp [receive, young, has, no_line (b ++ x) hbx]
    rw [e]
    rcases receive_full bs rs pre (fun r hr => hp r (by simp [hr])) (b ++ x) true hbx hd.2 with h | ⟨o, b', pre', h1, h2, h3, h4, h5, h6⟩
    · exact Or.inl h
    · exact Or.inr ⟨o, b', pre', h1, h2, h3, h4, h5, by simp; omega⟩
  | .eof :: pre, hp, _, _, _, _ => by have := hp .eof (by simp); simp at this
  | .err :: pre, hp, _, _, _, _ => by have := hp .err (by simp); simp at this

/-- **C50 (full buffer).** A request of which so much has been received, in any pieces, without end of its first line that the connection's buffer is full is answered 413,
whatever the last piece and all that follows it are. -/
theorem C50_full_buffer (e : Env) (pre : List Rcv) (hp : Plain pre) (hd : 13 ∉ dataOf pre) (bs : Bytes) (rs : List Rcv) :
    connection e (pre ++ .data bs true :: rs) = .reply (.status 413) := by
  have main : ∀ (n : Nat) (pre : List Rcv) (b : Bytes), pre.length < n → Plain pre → 13 ∉ dataOf pre → 13 ∉ b →
      serve e n (young b) (pre ++ .data bs true :: rs) = .reply (.status 413) := by
    intro n
    induction n with
    | zero => intro pre b h; omega
    | succ n ih =>
      intro pre b hn hp hd hb
      rw [serve, if_neg (by simp)]
      rcases receive_full bs rs pre hp b false hb hd with ⟨s, r, h⟩ | ⟨o, b', pre', h1, h2, h3, h4, h5, h6⟩
      · have : handle e (young b) (pre ++ .data bs true :: rs) = .reply (.status 413) := by
          rw [handle, if_neg (by simp [young]), h]
        rw [this]
      · have : handle e (young b) (pre ++ .data bs true :: rs) = .wait (young b') (pre' ++ .data bs true :: rs) := by
          rw [handle, if_neg (by simp [young]), h1]
          rcases h2 with rfl | rfl
          · simp [young, line, no_line b' h3]
          · rfl
        rw [this]
        exact ih pre' b' (by omega) h4 h5 h3
  exact main _ pre [] (by simp) hp hd (by simp)

/-- The hypotheses are met by a long line in two pieces. -/
example : Plain [.data b!"GET /aaaa" false, .block] ∧ 13 ∉ dataOf [.data b!"GET /aaaa" false, .block] := by
  refine ⟨?_, by decide⟩
  intro r hr
  simp only [List.mem_cons, List.not_mem_nil, or_false] at hr
  rcases hr with rfl | rfl
  · exact Or.inr ⟨_, by simp, rfl⟩
  · exact Or.inl rfl

end Fly.ReqEvent
