import Verif.Trip.Lemmas

/-! # C172, C173: the whole way of a request -/

namespace Fly.Trip
open ReqEvent (Msg Rcv Env Reply St)
open Req (Method)
open Header (Pairs setFirst view HList Inv)
open PyReq (PyRequest)
open PyBridge (Field Reads statuses contentTypes missing Cfg build)
open Route (Plain Fits writePath NameOk)

/-! ## Persistence -/

theorem connection_absent {h : HList} (hi : Inv h) (hn : b!"Connection" ∉ (view h).map (·.1)) : Header.connection h = some .keepAlive := by
  unfold Header.connection
  split
  · rfl
  · rcases Header.findStr_spec (n := b!"Connection") ⟨by simp, by decide⟩ h.items hi.names with ⟨h1, _⟩ | ⟨j, pre, f, post, _, h2, _, h4, _⟩
    · rw [h1]
    · exfalso
      apply hn
      unfold Header.view
      rw [h2]
      simp only [List.map_append, List.map_cons, List.mem_append, List.mem_cons]
      exact Or.inr (Or.inl (by rw [h4]; rfl))

theorem connection_close {h : HList} (hi : Inv h) {before later : Pairs} (hv : view h = before ++ (b!"Connection", b!"close") :: later)
    (hb : b!"Connection" ∉ before.map (·.1)) : Header.connection h = some .close := by
  unfold Header.connection
  have hne : h.items ≠ [] := by
    intro e
    unfold Header.view at hv
    rw [e] at hv
    simp at hv
  have hc : h.count ≠ 0 := by rw [hi.count]; exact fun e => hne (List.eq_nil_of_length_eq_zero e)
  rw [if_neg hc]
  rcases Header.findStr_spec (n := b!"Connection") ⟨by simp, by decide⟩ h.items hi.names with ⟨_, h2⟩ | ⟨j, pre, f, post, h1, h2, h3, h4, h5⟩
  · exfalso
    have hm : (b!"Connection", b!"close") ∈ view h := by rw [hv]; simp
    unfold Header.view at hm
    obtain ⟨g, hg, e⟩ := List.mem_map.1 hm
    obtain ⟨n, hn, _⟩ := hi.names g hg
    rw [hn] at e
    simp only [Option.getD_some, Prod.mk.injEq] at e
    exact h2 g hg (by rw [hn, e.1])
  · rw [h1]
    simp only
    have hf : h.items[j]? = some f := by rw [h2, ← h3]; simp
    rw [hf]
    simp only [Option.bind_some]
    -- the first field of that name is the same one in the list and in its view
    have key : f.value.getD [] = b!"close" := by
      unfold Header.view at hv
      rw [h2, List.map_append, List.map_cons] at hv
      clear h1 h2 h3 hf
      induction pre generalizing before with
      | nil =>
        cases before with
        | nil =>
          simp only [List.map_nil, List.nil_append, List.cons.injEq, Prod.mk.injEq] at hv
          exact hv.1.2
        | cons x before =>
          simp only [List.map_nil, List.nil_append, List.cons_append, List.cons.injEq] at hv
          exfalso; apply hb
          rw [← hv.1]; simp [h4]
      | cons g pre ih =>
        cases before with
        | nil =>
          simp only [List.map_cons, List.nil_append, List.cons_append, List.cons.injEq, Prod.mk.injEq] at hv
          exfalso
          have hg := h5 g (by simp)
          have h1 := hv.1.1
          cases hn : g.name with
          | none => rw [hn] at h1; simp at h1
          | some n => rw [hn] at h1; simp only [Option.getD_some] at h1; exact hg (by rw [hn, h1])
        | cons x before =>
          simp only [List.map_cons, List.cons_append, List.cons.injEq] at hv
          exact ih (by simp at hb ⊢; exact fun y => hb.2 y) hv.2 (fun g hg => h5 g (by simp [hg]))
    cases hval : f.value with
    | none => rw [hval] at key; simp at key
    | some v =>
      rw [hval] at key
      simp only [Option.getD_some] at key
      subst key
      rfl

/-! ## One response -/

theorem prepare_fits (c : Cfg) (hc : CfgOk c) (t : Nat) {h : HList} (hi : Inv h) (hct : b!"Content-Type" ∈ (view h).map (·.1)) (body : Option Bytes)
    (hover : ∀ k, PyBridge.codingOf c (body.getD []) = some k → k ≠ Response.identity → c.overflow (c.compress k (body.getD [])) = false) :
    PyBridge.prepareReply c t h body ≠ some .tooLarge := by
  unfold PyBridge.prepareReply
  cases body with
  | none =>
    obtain ⟨h2, e2, i2, _⟩ := PyBridge.default_ok hi hct (c.dflt t)
    simp only [e2]
    obtain ⟨b, h', e, _⟩ := PyBridge.prepare_ok c hc.threshold none hover i2
    rw [e]; simp
  | some body =>
    simp only
    obtain ⟨b, h', e, _⟩ := PyBridge.prepare_ok c hc.threshold (some body) hover hi
    rw [e]; simp

theorem keeps_response (c : Cfg) (hc : CfgOk c) (code : Nat) {hs : Pairs} (hf : ∀ p ∈ hs, Field p) {ct : Bytes} (hct : ct ∈ contentTypes) {body : Bytes}
    (hmax : (body.length : Int) ≤ c.maxLen) (hover : ∀ k, c.overflow (c.compress k body) = false) :
    ∃ h, Inv h ∧ view h = hs ++ missing hs [(b!"Content-Type", ct), (b!"Date", c.date), (b!"Server", b!"fly")] ∧
      keepsRet c false (.response (build code hs body ct).obj) = (Header.connection h == some .keepAlive) := by
  obtain ⟨h, ec, i, v⟩ := PyBridge.convert_build code (fun p hp => ⟨(hf p hp).1, (hf p hp).2.1⟩) hct (hs := hs) (body := body) hmax
  obtain ⟨h1, ecp, i1, v1⟩ := PyBridge.complete_ok i c.date v
  refine ⟨h1, i1, v1, ?_⟩
  unfold keepsRet
  rw [ec]
  simp only [ecp]
  rw [if_neg]
  apply prepare_fits c hc _ i1 (by rw [v1]; exact PyBridge.has_ct _ _ _)
  intro k _ _
  have : (if body = [] then none else some body : Option Bytes).getD [] = body := by split <;> simp [*]
  rw [this]; exact hover k

theorem no_conn {hs : Pairs} {ct date : Bytes} (h : b!"Connection" ∉ hs.map (·.1)) :
    b!"Connection" ∉ (hs ++ missing hs [(b!"Content-Type", ct), (b!"Date", date), (b!"Server", b!"fly")]).map (·.1) := by
  rw [List.map_append, List.mem_append]
  rintro (hm | hm)
  · exact h hm
  · obtain ⟨p, hp, e⟩ := List.mem_map.1 hm
    have hp := (List.mem_filter.1 hp).1
    simp only [List.mem_cons, List.not_mem_nil, or_false] at hp
    rcases hp with rfl | rfl | rfl <;> simp at e

theorem keeps_value (c : Cfg) (hc : CfgOk c) (v : PyBridge.PyObj) (body : Bytes) (hv : PyBridge.plain v = some body) (hmax : (body.length : Int) ≤ c.maxLen)
    (hover : c.threshold ≤ body.length → ∀ k, c.overflow (c.compress k body) = false) : keepsRet c false (.value v) = true := by
  obtain ⟨h1, e1, i1, v1⟩ := PyBridge.complete_init c.date
  have hconn : Header.connection h1 = some .keepAlive := connection_absent i1 (by rw [v1]; simp)
  have hpre : ∀ b : Option Bytes, b.getD [] = body → PyBridge.prepareReply c 200 h1 b ≠ some .tooLarge := by
    intro b hb
    apply prepare_fits c hc _ i1 (by rw [v1]; simp)
    intro k hk _
    rw [hb] at hk ⊢
    unfold PyBridge.codingOf at hk
    split at hk
    · exact hover (by assumption) k
    · simp at hk
  have hgd : (if body = [] then none else some body : Option Bytes).getD [] = body := by split <;> simp [*]
  cases v with
  | str s =>
    simp only [PyBridge.plain, Option.some.injEq] at hv
    subst hv
    simp only [keepsRet, PyBridge.convert, Bool.false_eq_true, if_false, PyBridge.takeBody_ok hmax, e1, Option.getD_some, if_neg (hpre _ hgd), hconn]
    rfl
  | bytes b =>
    simp only [PyBridge.plain, Option.some.injEq] at hv
    subst hv
    simp only [keepsRet, PyBridge.convert, PyBridge.takeBody_ok hmax, e1, Option.getD_some, if_neg (hpre _ hgd), hconn]
    rfl
  | none =>
    simp only [PyBridge.plain, Option.some.injEq] at hv
    simp only [keepsRet, PyBridge.convert, e1, Option.getD_some, if_neg (hpre none (by rw [← hv]; rfl)), hconn]
    rfl
  | badStr => simp [PyBridge.plain] at hv
  | other => simp [PyBridge.plain] at hv

theorem keeps_tooLong (c : Cfg) (body : Bytes) (hpos : body ≠ []) (hmax : c.maxLen < (body.length : Int)) (r : PyBridge.Ret)
    (hr : r = .value (.str body) ∨ r = .value (.bytes body) ∨ ∃ o : PyBridge.RespObj, o.body = some (.bytes body) ∧ r = .response o) : keepsRet c false r = false := by
  have hb : PyBridge.takeBody c.maxLen body = none := by
    unfold PyBridge.takeBody; rw [if_pos (List.length_pos_iff.2 hpos), if_pos hmax]
  rcases hr with rfl | rfl | ⟨o, ho, rfl⟩
  · simp only [keepsRet, PyBridge.convert, Bool.false_eq_true, if_false, hb]
  · simp only [keepsRet, PyBridge.convert, hb]
  · simp only [keepsRet, PyBridge.convert, Bool.false_eq_true, if_false, ho, hb]

theorem keeps_codedTooLong (c : Cfg) (hc : CfgOk c) (body : Bytes) (hmax : (body.length : Int) ≤ c.maxLen) {k : Response.Coding} (hlen : c.threshold ≤ body.length)
    (hk : c.acc.decided = some k) (hid : k ≠ 0) (hover : c.overflow (c.compress k body) = true) {r : PyBridge.Ret}
    (hr : r = .value (.str body) ∨ r = .value (.bytes body) ∨
      ∃ (code : Nat) (hs : Pairs) (ct : Bytes), (∀ p ∈ hs, Field p) ∧ ct ∈ contentTypes ∧ r = .response (build code hs body ct).obj) : keepsRet c false r = false := by
  have hne : body ≠ [] := by have := hc.threshold; rintro rfl; simp at hlen; omega
  have hs : ∀ t h, PyBridge.prepareReply c t h (some body) = some .tooLarge := by
    intro t h
    have hid' : ¬ k = Response.identity := hid
    simp [PyBridge.prepareReply, Response.prepare, hlen, hk, hid', hover]
  have hb : PyBridge.takeBody c.maxLen body = some (some body) := by rw [PyBridge.takeBody_ok hmax, if_neg hne]
  obtain ⟨h', ec, _, _⟩ := PyBridge.complete_init c.date
  rcases hr with rfl | rfl | ⟨code, hs', ct, hf, hct, rfl⟩
  · simp only [keepsRet, PyBridge.convert, Bool.false_eq_true, if_false, hb, ec, hs, if_true]
  · simp only [keepsRet, PyBridge.convert, hb, ec, hs, if_true]
  · obtain ⟨h, e, i, v⟩ := PyBridge.convert_build code (fun p hp => ⟨(hf p hp).1, (hf p hp).2.1⟩) hct (hs := hs') (body := body) hmax
    obtain ⟨h1, ecp, _, _⟩ := PyBridge.complete_ok i c.date v
    rw [if_neg hne] at e
    simp only [keepsRet, e, ecp, hs, if_true]

theorem read_of (bs line : Bytes) (fs : Pairs) (body v : Bytes) (h : Response.readResponse bs = some (line, fs, body))
    (hf : fs.find? (fun p => p.1 == b!"Content-Length") = some (b!"Content-Length", v)) (hv : Reads v body.length) : Readable bs (line, fs, body) :=
  ⟨readResponse_pos bs _ h, fun x => readOne_append bs x line fs body v h hf hv⟩

theorem no_length {hs : Pairs} {ct date : Bytes} {l : Pairs} (h : b!"Content-Length" ∉ hs.map (·.1)) (hl : b!"Content-Length" ∉ l.map (·.1)) :
    b!"Content-Length" ∉ (hs ++ missing hs [(b!"Content-Type", ct), (b!"Date", date), (b!"Server", b!"fly")] ++ l).map (·.1) := by
  rw [List.map_append, List.mem_append]
  rintro (hm | hm)
  · exact h (PyBridge.no_cl hm)
  · exact hl hm

theorem response_read (c : Cfg) (hc : CfgOk c) {code : Nat} {reason : Bytes} (hst : (code, reason) ∈ statuses) {hs : Pairs}
    (hf : ∀ p ∈ hs, Field p) {ct : Bytes} (hct : ct ∈ contentTypes) {body : Bytes} (hmax : (body.length : Int) ≤ c.maxLen)
    (hover : ∀ k, c.overflow (c.compress k body) = false) (hcl : b!"Content-Length" ∉ hs.map (·.1)) :
    ∃ buf len, PyBridge.respond c false (.response (build code hs body ct).obj) = some buf ∧ Reads len (coded c body).length ∧
      Readable buf.bytes (b!"HTTP/1.1 " ++ Response.threeDigits code ++ b!" " ++ reason,
        hs ++ missing hs [(b!"Content-Type", ct), (b!"Date", c.date), (b!"Server", b!"fly")] ++
          (match coding c body with | some k => [(b!"Content-Encoding", c.encName k)] | none => []) ++ [(b!"Content-Length", len)], coded c body) := by
  obtain ⟨buf, len, e, _, hr, hl⟩ := PyBridge.C94_response_received_partial c hst hf hct hmax hc.threshold hc.date hc.encName hover (fun h => absurd h hcl)
  have hl : Reads len (coded c body).length := hl
  have hr : Response.readResponse buf.bytes = some (b!"HTTP/1.1 " ++ Response.threeDigits code ++ b!" " ++ reason,
    setFirst b!"Content-Length" len (hs ++ missing hs [(b!"Content-Type", ct), (b!"Date", c.date), (b!"Server", b!"fly")] ++
          (match coding c body with | some k => [(b!"Content-Encoding", c.encName k)] | none => [] : Pairs)), coded c body) := hr
  have hfind := find_setFirst b!"Content-Length" len (hs ++ missing hs [(b!"Content-Type", ct), (b!"Date", c.date), (b!"Server", b!"fly")] ++
          (match coding c body with | some k => [(b!"Content-Encoding", c.encName k)] | none => [] : Pairs))
  have hset : setFirst b!"Content-Length" len (hs ++ missing hs [(b!"Content-Type", ct), (b!"Date", c.date), (b!"Server", b!"fly")] ++
          (match coding c body with | some k => [(b!"Content-Encoding", c.encName k)] | none => [] : Pairs)) = _ :=
    PyBridge.setFirst_new _ _ _ (no_length hcl (by cases coding c body <;> simp))
  rw [hset] at hfind hr
  exact ⟨buf, len, e, hl, read_of _ _ _ _ _ hr hfind hl⟩

theorem own_read (c : Cfg) (hc : CfgOk c) {n : Nat} {line : Bytes} (hline : Response.statusLine .v1_1 n = some (line ++ [13, 10])) (hcr : 13 ∉ line) (hd : c.dflt n = none) :
    ∃ h buf, PyBridge.serverHeader c.date b!"keep-alive" = some h ∧ PyBridge.send c (some n) h none = some buf ∧
      Readable buf.bytes (line,
        [(b!"Server", b!"fly"), (b!"Date", c.date), (b!"Connection", b!"keep-alive"), (b!"Content-Length", b!"0")], []) := by
  obtain ⟨h1, e1, i1, v1⟩ := PyBridge.addIfNo_ok PyBridge.inv_init (n := b!"Server") ⟨by simp, by decide⟩ b!"fly"
  have v1 : view h1 = [(b!"Server", b!"fly")] := by rw [v1]; simp [view, HList.init]
  obtain ⟨h2, e2, i2, v2⟩ := PyBridge.addIfNo_ok i1 (n := b!"Date") ⟨by simp, by decide⟩ c.date
  have v2 : view h2 = [(b!"Server", b!"fly"), (b!"Date", c.date)] := by rw [v2, v1]; simp
  obtain ⟨i3, v3⟩ := PyBridge.append_ok i2 (n := b!"Connection") ⟨by simp, by decide⟩ b!"keep-alive"
  have hs : PyBridge.serverHeader c.date b!"keep-alive" = some (Header.add h2 b!"Connection" b!"keep-alive" false) := by
    unfold PyBridge.serverHeader; rw [e1]; simp only; rw [e2]
  have hco : PyBridge.codingOf c [] = none := by unfold PyBridge.codingOf; rw [if_neg (by have := hc.threshold; simp; omega)]
  have hout : PyBridge.outBody c [] = [] := by unfold PyBridge.outBody; rw [hco]
  have hfl : PyBridge.outFields c [] = [] := by unfold PyBridge.outFields; rw [hco]
  obtain ⟨b, h4, e4, hb, hnf, i4, v4⟩ := PyBridge.prepare_ok c hc.threshold none (by intro k hk; rw [show (none : Option Bytes).getD [] = [] from rfl, hco] at hk; simp at hk) i3
  simp only [Option.getD_none, hout, hfl, List.append_nil] at e4 hb v4
  have v4 : view h4 = [(b!"Server", b!"fly"), (b!"Date", c.date), (b!"Connection", b!"keep-alive"), (b!"Content-Length", b!"0")] := by
    rw [v4, v3, v2]
    have : Response.contLenStr ([] : Bytes).length = b!"0" := by decide
    rw [this]
    simp [setFirst]
  obtain ⟨buf, e5, _, hr⟩ := PyBridge.serialize_ok (t := n) (line := line) hline hcr i4
    (by
      rw [v4]
      intro p hp
      simp only [List.mem_cons, List.not_mem_nil, or_false] at hp
      rcases hp with rfl | rfl | rfl | rfl
      · exact ⟨by decide, by decide, by decide⟩
      · exact ⟨by simp, by simp, hc.date⟩
      · exact ⟨by decide, by decide, by decide⟩
      · exact ⟨by decide, by decide, by decide⟩) hb hnf
  rw [v4] at hr
  refine ⟨_, buf, hs, ?_, read_of _ _ _ _ b!"0" hr (by simp) ⟨by decide, by decide, by decide⟩⟩
  unfold PyBridge.send PyBridge.prepareReply
  simp only [Option.getD_some, hd, PyBridge.defaultHeaders, e4]
  exact e5

theorem notFound_read (c : Cfg) (hc : CfgOk c) (hd : c.dflt 404 = none) :
    ∃ h buf, PyBridge.serverHeader c.date b!"keep-alive" = some h ∧ PyBridge.send c (some 404) h none = some buf ∧
      Readable buf.bytes (b!"HTTP/1.1 404 Not Found",
        [(b!"Server", b!"fly"), (b!"Date", c.date), (b!"Connection", b!"keep-alive"), (b!"Content-Length", b!"0")], []) :=
  own_read c hc (by decide +kernel) (by decide) hd

/-- What is written for a proper exchange, and whether the connection stays. -/
theorem exchange_read (a : App) (hr : ∀ x ∈ a.routes, WrittenPath x.1) (x : Exchange) (hp : Proper a x) :
    ∃ buf o, a.bytes (Keep.replyTo a.env x.msg) = some buf ∧ Readable buf.bytes o ∧ Shown a x o ∧
      (x.out.Stays → Keep.Kept a.env a.keeps x.msg) ∧ (x.out.Closes → a.keeps (Keep.replyTo a.env x.msg) = false ∧ ∃ i l h b, Keep.replyTo a.env x.msg = .handler i l h b) := by
  obtain ⟨msg, pieces, blocked, room, out⟩ := x
  have hg := hp.within.good
  have hhead : decide (msg.line.method = .head) = false := by simpa using hp.method
  have hkept : ∀ {ret i}, Keep.replyTo a.env msg = .handler i msg.line msg.header (if msg.body = [] then none else some msg.body) →
      a.result msg.line msg.header (if msg.body = [] then none else some msg.body) = some ret → keepsRet (a.cfg msg.header) false ret = true →
      Keep.Kept a.env a.keeps msg := by
    intro ret i h1 h2 h3 j l h b ha
    have := Keep.answer_within a.env msg hp.within
    rw [ha, h1] at this
    injection this with this
    rw [this]
    unfold App.keeps
    simp only [h2, hhead, h3]
  have hm := hp.makes
  cases out with
  | response code reason hs ct body =>
    obtain ⟨h1, h2, h3, h4, h5, h6, h7, h8⟩ := hm
    obtain ⟨i, hi⟩ := replyTo_returns a hr msg hg _ h1
    have hres := result_returns a hr msg hg _ h1
    obtain ⟨buf, len, e, hl, hrd⟩ := response_read (a.cfg msg.header) h2 h3 h4 h5 h6 h7 h8
    obtain ⟨h, ih, vh, hk⟩ := keeps_response (a.cfg msg.header) h2 code h4 h5 h6 h7
    refine ⟨buf, _, ?_, hrd, ⟨len, hl, rfl⟩, ?_, ?_⟩
    · show a.bytes (Keep.replyTo a.env msg) = some buf
      rw [hi]
      unfold App.bytes
      simp only [hres, hhead, e]
    · intro hst
      refine hkept hi hres ?_
      rw [hk, connection_absent ih (by rw [vh]; exact no_conn hst)]
      rfl
    · rintro ⟨before, later, e1, e2⟩
      refine ⟨?_, _, _, _, _, hi⟩
      show a.keeps (Keep.replyTo a.env msg) = false
      rw [hi]
      unfold App.keeps
      simp only [hres, hhead, hk]
      have hv' : view h = before ++ (b!"Connection", b!"close") ::
          (later ++ missing hs [(b!"Content-Type", ct), (b!"Date", (a.cfg msg.header).date), (b!"Server", b!"fly")]) := by
        rw [vh, e1]; simp
      rw [connection_close ih hv' e2]
      rfl
  | value v body =>
    obtain ⟨h1, h2, h3, h4, h5⟩ := hm
    obtain ⟨i, hi⟩ := replyTo_returns a hr msg hg _ h1
    have hres := result_returns a hr msg hg _ h1
    obtain ⟨buf, len, e, _, hrd, hl⟩ := PyBridge.C94_plain_value_received_partial (a.cfg msg.header) v body h3 h4 h2.threshold h2.date h2.encName h5
    refine ⟨buf, _, ?_, read_of _ _ _ _ len hrd (by split <;> simp) hl, ⟨len, hl, rfl⟩, fun _ => hkept hi hres (keeps_value _ h2 v body h3 h4 h5), fun h => h.elim⟩
    show a.bytes (Keep.replyTo a.env msg) = some buf
    rw [hi]
    unfold App.bytes
    simp only [hres, hhead, e]
  | failed =>
    obtain ⟨h1, h2⟩ := hm
    obtain ⟨i, hi⟩ := replyTo_returns a hr msg hg _ h1
    have hres := result_returns a hr msg hg _ h1
    obtain ⟨buf, e, _, hrd⟩ := PyBridge.C95_failure_is_500 (a.cfg msg.header) h2.threshold h2.date false .raised (Or.inl rfl)
    refine ⟨buf, _, ?_, read_of _ _ _ _ b!"0" hrd (by simp) ⟨by decide, by decide, by decide⟩, rfl, fun _ => hkept hi hres rfl, fun h => h.elim⟩
    show a.bytes (Keep.replyTo a.env msg) = some buf
    rw [hi]
    unfold App.bytes
    simp only [hres, hhead, e]
  | tooLong ret body =>
    obtain ⟨h1, h2, h3, h4, h5⟩ := hm
    obtain ⟨i, hi⟩ := replyTo_returns a hr msg hg _ h1
    have hres := result_returns a hr msg hg _ h1
    obtain ⟨buf, e, _, hrd⟩ := PyBridge.C95_too_long_is_413 (a.cfg msg.header) h2.threshold h2.date body h4 h3 ret h5
    refine ⟨buf, _, ?_, read_of _ _ _ _ b!"0" hrd (by simp) ⟨by decide, by decide, by decide⟩, rfl, fun h => h.elim, fun _ => ⟨?_, _, _, _, _, hi⟩⟩
    · show a.bytes (Keep.replyTo a.env msg) = some buf
      rw [hi]
      unfold App.bytes
      simp only [hres, hhead, e]
    · show a.keeps (Keep.replyTo a.env msg) = false
      rw [hi]
      unfold App.keeps
      simp only [hres, hhead, keeps_tooLong _ body h4 h3 ret h5]
  | codedTooLong ret body =>
    obtain ⟨h1, h2, h3, h4, h5, ⟨k, h6, h7, h8⟩, h9⟩ := hm
    obtain ⟨i, hi⟩ := replyTo_returns a hr msg hg _ h1
    have hres := result_returns a hr msg hg _ h1
    obtain ⟨buf, e, _, hrd⟩ := PyBridge.C95_encoded_too_long_is_413 (a.cfg msg.header) h2.threshold h2.date h3 body h4 h5 h6 h7 h8 (r := ret) (by
      rcases h9 with h9 | h9 | ⟨code, hs, ct, x1, x2, x3⟩
      · exact Or.inl h9
      · exact Or.inr (Or.inl h9)
      · exact Or.inr (Or.inr ⟨code, hs, ct, x1, x2, x3, by omega⟩))
    refine ⟨buf, _, ?_, read_of _ _ _ _ b!"0" hrd (by simp) ⟨by decide, by decide, by decide⟩, rfl, fun h => h.elim, fun _ => ⟨?_, _, _, _, _, hi⟩⟩
    · show a.bytes (Keep.replyTo a.env msg) = some buf
      rw [hi]
      unfold App.bytes
      simp only [hres, hhead, e]
    · show a.keeps (Keep.replyTo a.env msg) = false
      rw [hi]
      unfold App.keeps
      simp only [hres, hhead, keeps_codedTooLong _ h2 body h4 h5 h6 h7 h8 h9]
  | notFound =>
    obtain ⟨h1, h2, h3, h4⟩ := hm
    have hrep : Keep.replyTo a.env msg = .status 404 := by
      unfold Keep.replyTo ReqEvent.select
      simp only [App.env, find_unserved a hr h1, Option.map_none, h2]
    obtain ⟨h, buf, e1, e2, hrd⟩ := notFound_read a.cfg0 h3 h4
    refine ⟨buf, _, ?_, hrd, rfl, ?_, fun h => h.elim⟩
    · show a.bytes (Keep.replyTo a.env msg) = some buf
      rw [hrep]
      unfold App.bytes
      simp only [true_or, if_true, e1, e2]
    · intro _ i l h b ha
      have := Keep.answer_within a.env msg hp.within
      rw [ha, hrep] at this
      injection this with this
      simp at this

theorem writeAll_append (a : App) (more : List Reply) (ss : List (List Send.Sys)) :
    ∀ (xs : List Exchange) (bufs : List Bytes), Each (fun x bs => ∃ buf, a.bytes (Keep.replyTo a.env x.msg) = some buf ∧ buf.bytes = bs ∧ bs.length ≤ x.room) xs bufs →
      writeAll a (xs.map (fun x => Keep.replyTo a.env x.msg) ++ more) (xs.map Exchange.writes ++ ss) = bufs.flatten ++ writeAll a more ss := by
  intro xs bufs h
  induction h with
  | nil => rfl
  | @cons x bs l m hx _ ih =>
    obtain ⟨buf, e, rfl, hl⟩ := hx
    have hw := Send.C16_h1_exactly_once_partial buf.bytes x.blocked x.room hl []
    rw [List.map_cons, List.map_cons, List.cons_append, List.cons_append, writeAll, e]
    simp only [List.headD_cons, Exchange.writes, hw, List.tail_cons, ih, List.flatten_cons, List.append_assoc]

theorem each_read (a : App) (hr : ∀ x ∈ a.routes, WrittenPath x.1) : ∀ (xs : List Exchange), (∀ x ∈ xs, Proper a x) →
    ∃ bufs os, Each (fun x bs => ∃ buf, a.bytes (Keep.replyTo a.env x.msg) = some buf ∧ buf.bytes = bs ∧ bs.length ≤ x.room) xs bufs ∧ Each Readable bufs os ∧
      Each (Shown a) xs os
  | [], _ => ⟨[], [], .nil, .nil, .nil⟩
  | x :: xs, h => by
    obtain ⟨buf, o, e, h1, h2, _⟩ := exchange_read a hr x (h x (by simp))
    obtain ⟨bufs, os, i1, i2, i3⟩ := each_read a hr xs fun y hy => h y (by simp [hy])
    exact ⟨buf.bytes :: bufs, o :: os, .cons ⟨buf, e, rfl, (h x (by simp)).fitting _ buf (Keep.answer_within _ _ (h x (by simp)).within) e⟩ i1, .cons h1 i2, .cons h2 i3⟩

theorem each_append {α β : Type} {R : α → β → Prop} {l l' : List α} {m m' : List β} (h : Each R l m) (h' : Each R l' m') : Each R (l ++ l') (m ++ m') := by
  induction h with
  | nil => exact h'
  | cons hx _ ih => exact .cons hx ih

/-! ## C172 -/

/-- **C172** *(partial)*.  A client sends any number of requests over a connection, each when it has the response to the one before, each in any pieces.  Every request
reaches the function of the first route that serves it, with its path parameters, and the function is called with exactly what the client sent.  The client reads,
for all of them and in order, exactly the responses: status, fields and content that the function gave, 500 for a function that raised, 404 for requests without function;
then the connection is open.  Missing: what the theorems it is made of miss, above all clients that do not wait (C115), the method HEAD (C94), routes with parameters before the
last segment (C24), and responses that are not written in one piece (C16). -/
theorem C172_round_trips_partial (a : App) (hr : ∀ x ∈ a.routes, WrittenPath x.1) (xs : List Exchange) (h : ∀ x ∈ xs, Proper a x) (hs : ∀ x ∈ xs, x.out.Stays) :
    ∃ os, client (received a (xs.map (·.pieces)) (xs.map (·.writes))) = some os ∧ Each (Shown a) xs os ∧ after a (xs.map (·.pieces)) = .open St.init := by
  obtain ⟨bufs, os, h1, h2, h3⟩ := each_read a hr xs h
  have hses := session_append a.env a.keeps (xs.map fun x => (x.msg, x.pieces)) (by
    intro p hp
    obtain ⟨x, hx, rfl⟩ := List.mem_map.1 hp
    obtain ⟨_, _, _, _, _, hk, _⟩ := exchange_read a hr x (h x hx)
    exact ⟨(h x hx).within, hk (hs x hx), (h x hx).arrives⟩) []
  have hp : (xs.map fun x => (x.msg, x.pieces)).map (·.2) ++ [] = xs.map (·.pieces) := by simp
  have hm : (xs.map fun x => (x.msg, x.pieces)).map (fun p => Keep.replyTo a.env p.1) = xs.map fun x => Keep.replyTo a.env x.msg := by simp
  rw [hp, hm] at hses
  refine ⟨os, ?_, h3, ?_⟩
  · unfold received
    rw [hses]
    have hw := writeAll_append a [] [] xs bufs h1
    simp only [List.append_nil] at hw
    simp only [Keep.session, List.append_nil, hw, writeAll]
    exact client_all bufs os h2
  · unfold after
    rw [hses]
    rfl

/-- A server that says what day it is. -/
def sampleCfg : Cfg := { PyBridge.sample with dflt := fun _ => none }

theorem sampleCfg_ok : CfgOk sampleCfg :=
  ⟨by decide, by decide, by intro k; show 13 ∉ (if k = 0 then b!"identity" else b!"gzip"); split <;> decide⟩

/-- An application with two routes.  The function of the second sends back what it was called with. -/
def sampleApp : App where
  routes := [(b!"/f", .get, 1), (b!"/{name:str}", .get, 2)]
  fns i p :=
    if i = 1 then .value (.str b!"file")
    else .response (build 201 ((p.params.map fun q => (b!"X-" ++ q.1, q.2)) ++ if p.header.length = 1 then [(b!"Connection", b!"close")] else []) (p.body.getD []) b!"text/html").obj
  cfg _ := sampleCfg
  cfg0 := sampleCfg
  maxLen := 100
  nego _ := .ok
  file _ _ := none
  own _ := none

theorem sampleApp_written : ∀ x ∈ sampleApp.routes, WrittenPath x.1 := by
  intro x hx
  simp only [sampleApp, List.mem_cons, List.not_mem_nil, or_false] at hx
  rcases hx with rfl | rfl
  · exact Or.inl (by unfold Plain; decide)
  · exact Or.inr ⟨[], b!"name", some .str, by decide, by unfold Plain; decide, by unfold NameOk; decide⟩

/-- A request with content, in two pieces, and its response: 201, a field made of the path parameter, and the content sent back. -/
def sampleFirst : Exchange :=
  ⟨ReqEvent.sample, [.data (ReqEvent.sample.text.take 30) false, .block, .data (ReqEvent.sample.text.drop 30) false], 2, 1000,
    .response 201 b!"Created" [(b!"X-name", b!"a")] b!"text/html" b!"hello"⟩

/-- A request answered by a text. -/
def sampleSecond : Exchange := ⟨Keep.sampleGet, [.data Keep.sampleGet.text false], 0, 1000, .value (.str b!"file") b!"file"⟩

theorem sampleFirst_proper : Proper sampleApp sampleFirst where
  within := ⟨ReqEvent.sample_good, rfl, by decide +kernel, by decide⟩
  arrives := ⟨by
    intro r hr
    simp only [sampleFirst, List.mem_cons, List.not_mem_nil, or_false] at hr
    rcases hr with rfl | rfl | rfl
    · exact Or.inr ⟨_, by decide, rfl⟩
    · exact Or.inl rfl
    · exact Or.inr ⟨_, by decide, rfl⟩, by decide +kernel⟩
  method := by decide
  makes := by
    refine ⟨⟨2, [(b!"name", b!"a")], ⟨[(b!"/f", .get, 1)], b!"/{name:str}", .get, [], rfl, ⟨?_, ?_⟩, ?_, ?_⟩, ?_, ?_⟩, sampleCfg_ok, by decide, ?_, by decide, by decide, ?_, by decide⟩
    · exact (Route.fits_last [] b!"name:str" b!"/a" (by decide) (by decide)).2 ⟨b!"a", rfl, by decide, by decide⟩
    · intro h; exact absurd h (by unfold Plain; decide)
    · intro x hx
      rcases List.mem_singleton.1 hx with rfl
      rintro ⟨h, _⟩
      rw [Route.fits_plain _ _ (by unfold Plain; decide)] at h
      revert h; decide
    · exact Or.inr ⟨[], b!"name", some .str, b!"a", by decide, by unfold Plain; decide, by unfold NameOk; decide, rfl, rfl⟩
    · right; intro p hp
      have hp : p ∈ [(b!"Host", b!"h"), (b!"Content-Length", b!"5")] := hp
      simp only [List.mem_cons, List.not_mem_nil, or_false] at hp
      rcases hp with rfl | rfl <;> exact fun h => absurd h (by decide)
    · decide +kernel
    · intro p hp
      rcases List.mem_singleton.1 hp with rfl
      unfold Field; decide
    · intro k; show decide (100000 < (b!"hello".take 10).length) = false; decide
  fitting := by
    intro r buf ha hb
    have hx : ReqEvent.answer sampleApp.env sampleFirst.msg = .reply (.handler 2 ReqEvent.sample.line ReqEvent.sample.header (some b!"hello")) := by decide +kernel
    rw [hx] at ha
    injection ha with ha
    subst ha
    have hlen : (sampleApp.bytes (.handler 2 ReqEvent.sample.line ReqEvent.sample.header (some b!"hello"))).all (fun b => decide (b.bytes.length ≤ 1000)) = true := by
      decide +kernel
    rw [hb] at hlen
    exact of_decide_eq_true hlen

/-- Two requests, the first in pieces with a pause; both responses, read by the client. -/
example : received sampleApp [sampleFirst.pieces, sampleSecond.pieces] [sampleFirst.writes, sampleSecond.writes] =
    b!"HTTP/1.1 201 Created\r\nX-name: a\r\nContent-Type: text/html\r\nDate: Mon, 16 Nov 2026 10:00:00 GMT\r\nServer: fly\r\nContent-Length: 5\r\n\r\nhello" ++
    b!"HTTP/1.1 200 OK\r\nDate: Mon, 16 Nov 2026 10:00:00 GMT\r\nServer: fly\r\nContent-Type: text/plain\r\nContent-Length: 4\r\n\r\nfile" ∧
    (client (received sampleApp [sampleFirst.pieces, sampleSecond.pieces] [sampleFirst.writes, sampleSecond.writes])).map (·.map fun o => (o.1, o.2.2)) =
      some [(b!"HTTP/1.1 201 Created", b!"hello"), (b!"HTTP/1.1 200 OK", b!"file")] := by
  decide +kernel

theorem one_round (a : App) (m : Msg) (pieces : List Rcv) (hw : Keep.Within a.env m) (ha : Keep.Arrives m pieces) (hk : Keep.Kept a.env a.keeps m) (ss : List (List Send.Sys)) :
    received a [pieces] ss = writeAll a [Keep.replyTo a.env m] ss := by
  have hses := session_append a.env a.keeps [(m, pieces)] (by
    intro p hp
    rcases List.mem_singleton.1 hp with rfl
    exact ⟨hw, hk, ha⟩) []
  have hses : Keep.session a.env a.keeps St.init [pieces] = ([Keep.replyTo a.env m] ++ [], _) := hses
  unfold received
  rw [hses, List.append_nil]

/-- **C172 refuted (write calls).**  Whatever the application and the request: there is a text, the whole response, that the client gets if the kernel takes it at once.  If the
first write call takes only `n` bytes of it and the second what is left, the client gets these bytes twice and never the end. -/
theorem C172_two_writes_refuted (a : App) (hr : ∀ x ∈ a.routes, WrittenPath x.1) (x : Exchange) (h : Proper a x) (hs : x.out.Stays) :
    ∃ full o, Shown a x o ∧ (∀ k m, full.length ≤ m → received a [x.pieces] [List.replicate k .block ++ [.sent m]] = full) ∧ client full = some [o] ∧
      ∀ n, 0 < n → n < full.length → received a [x.pieces] [[.sent n, .sent full.length]] = full.take n ++ full.take (full.length - n) := by
  obtain ⟨buf, o, e, h1, h2, hk, _⟩ := exchange_read a hr x h
  refine ⟨buf.bytes, o, h2, ?_, ?_, ?_⟩
  · intro k m hm
    rw [one_round a x.msg x.pieces h.within h.arrives (hk hs)]
    simp only [writeAll, e, List.headD_cons, Send.C16_h1_exactly_once_partial buf.bytes k m hm [], List.append_nil]
  · have := client_all [buf.bytes] [o] (.cons h1 .nil)
    simpa using this
  · intro n h0 hn
    rw [one_round a x.msg x.pieces h.within h.arrives (hk hs)]
    simp only [writeAll, e, List.headD_cons, (Send.C16_h1_partial_write_refuted buf.bytes n h0 hn).1, List.append_nil]

/-- **C172 refuted (HEAD).**  Whatever the function of a route returns for a HEAD request, be it a `Response` or a text: the client gets 500. -/
theorem C172_head_refuted (a : App) (hr : ∀ x ∈ a.routes, WrittenPath x.1) (m : Msg) (pieces : List Rcv) (hw : Keep.Within a.env m) (ha : Keep.Arrives m pieces)
    (hm : m.line.method = .head) (hc : CfgOk (a.cfg m.header)) (ret : PyBridge.Ret) (hret : Returns a m ret) (hv : (∃ o, ret = .response o) ∨ ∃ s, ret = .value (.str s)) :
    ∃ room, ∀ k n, room ≤ n → client (received a [pieces] [List.replicate k .block ++ [.sent n]]) =
      some [(b!"HTTP/1.1 500 Internal Server Error",
        [(b!"Server", b!"fly"), (b!"Date", (a.cfg m.header).date), (b!"Connection", b!"keep-alive"), (b!"Content-Type", b!"text/plain"), (b!"Content-Length", b!"0")], [])] := by
  have hg := hw.good
  obtain ⟨i, hi⟩ := replyTo_returns a hr m hg _ hret
  have hres := result_returns a hr m hg _ hret
  obtain ⟨buf, e, _, hrd⟩ := PyBridge.C94_head_always_500_refuted (a.cfg m.header) hc.threshold hc.date ret hv
  have hb : a.bytes (Keep.replyTo a.env m) = some buf := by
    rw [hi]
    unfold App.bytes
    simp only [hres, hm, decide_true, e]
  have hk : Keep.Kept a.env a.keeps m := by
    intro i' l' h' b' he
    rw [Keep.answer_within _ _ hw, hi] at he
    simp only [ReqEvent.Out.reply.injEq, Reply.handler.injEq] at he
    obtain ⟨-, rfl, rfl, rfl⟩ := he
    simp only [App.keeps, hres, hm, decide_true]
    rcases hv with ⟨o, rfl⟩ | ⟨s, rfl⟩ <;> rfl
  refine ⟨buf.bytes.length, fun k n hn => ?_⟩
  rw [one_round a m pieces hw ha hk]
  simp only [writeAll, hb, List.headD_cons, Send.C16_h1_exactly_once_partial buf.bytes k n hn [], List.append_nil]
  have := client_all [buf.bytes] [_] (.cons (read_of _ _ _ _ b!"0" hrd (by simp) ⟨by decide, by decide, by decide⟩) .nil)
  simpa using this

theorem found_mem {u after : Bytes} {m : Method} {r : Route.Route} : ∀ (rs : List Route.Route), Route.found u after m rs = some (some r) → r ∈ rs
  | [], h => by simp [Route.found] at h
  | x :: rs, h => by
    rw [Route.found] at h
    by_cases hp : x.params = []
    · rw [if_pos hp] at h
      split at h
      · simp only [Option.some.injEq] at h; rw [h]; simp
      · exact List.mem_cons_of_mem _ (found_mem rs h)
    · rw [if_neg hp] at h
      cases hm : Route.matchParam u after x.uri with
      | yes => rw [hm] at h; simp only [Option.some.injEq] at h; rw [h]; simp
      | no => rw [hm] at h; exact List.mem_cons_of_mem _ (found_mem rs h)
      | _ => rw [hm] at h; simp at h

/-- **C172 refuted (parameters before the last segment).**  If all routes of an application have a parameter before their last segment, like `/user/{id}/posts`, every request
(without a closing brace in its path) for which there is no file gets 404. -/
theorem C172_inner_parameter_refuted (a : App) (hr : ∀ x ∈ a.routes, Route.ParamBeforeLast x.1) (m : Msg) (pieces : List Rcv) (hw : Keep.Within a.env m) (ha : Keep.Arrives m pieces)
    (hu : (125 : Nat) ∉ m.line.uri) (hf : a.file m.header m.line.uri = none) (hc : CfgOk a.cfg0) (hd : a.cfg0.dflt 404 = none) :
    ∃ room, ∀ k n, room ≤ n → client (received a [pieces] [List.replicate k .block ++ [.sent n]]) =
      some [(b!"HTTP/1.1 404 Not Found",
        [(b!"Server", b!"fly"), (b!"Date", a.cfg0.date), (b!"Connection", b!"keep-alive"), (b!"Content-Length", b!"0")], [])] := by
  have hfind : a.find m.line.uri m.line.method = none := by
    unfold App.find
    cases hfd : Route.found m.line.uri [] m.line.method a.table with
    | none => rfl
    | some o =>
      cases o with
      | none => rfl
      | some r =>
        refine absurd hfd (Route.C24_inner_parameter_never_found_refuted a.table (Route.registerAll_made _ [] (by simp)) _ _ _ (by simpa using hu) r ?_)
        exact Route.registerAll_uri Route.ParamBeforeLast a.routes [] (by simp) hr r (found_mem _ hfd)
  have hi : Keep.replyTo a.env m = .status 404 := by
    unfold Keep.replyTo ReqEvent.select
    simp only [App.env, hfind, Option.map_none, hf]
  obtain ⟨h, buf, e1, e2, hrd⟩ := notFound_read a.cfg0 hc hd
  have hb : a.bytes (Keep.replyTo a.env m) = some buf := by
    rw [hi]
    simp only [App.bytes, true_or, if_true, e1, e2]
  have hk : Keep.Kept a.env a.keeps m := by
    intro i' l' h' b' he
    rw [Keep.answer_within _ _ hw, hi] at he
    simp at he
  refine ⟨buf.bytes.length, fun k n hn => ?_⟩
  rw [one_round a m pieces hw ha hk]
  simp only [writeAll, hb, List.headD_cons, Send.C16_h1_exactly_once_partial buf.bytes k n hn [], List.append_nil]
  have := client_all [buf.bytes] [_] (.cons hrd .nil)
  simpa using this

/-- A HEAD request. -/
def headMsg : Msg := ⟨b!"HEAD /x?q HTTP/1.1", ⟨.head, b!"/x", some b!"q", .v1_1⟩, [b!"Host: h"], [(b!"Host", b!"h")], []⟩

theorem headMsg_good : headMsg.Good where
  line := by
    refine ⟨0, 0, 1, b!"/x?q", .origin .head b!"/x" b!"?q" (some b!"q") (by decide) ⟨?_, rfl⟩ (.plain _ _ (by decide) ?_), rfl⟩
    · exact .byte _ _ (by simp [Req.PathByte]) <| .byte _ _ (by simp [Req.PathByte, Req.RfcPchar, Req.RfcUnreserved]) .nil
    · exact .byte _ _ (by simp [Req.QueryByte, Req.RfcPchar, Req.RfcUnreserved]) .nil
  version := rfl
  cr := by decide
  short := by decide
  some := by decide
  plain := by decide
  fields := by
    refine .field _ b!"Host" b!"h" _ _ ⟨b!" ", b!"\r", rfl, ?_, by simp, ?_, ?_, ?_, Or.inl rfl⟩ .nil <;>
      simp [ReqHeader.NameByte, ReqHeader.ValueByte, ReqHeader.Blank]
  body := by decide +kernel
  fits := by decide

/-- The hypotheses of the three refutations are met: a HEAD request to a function that returns a text, an application with an inner parameter only, a response in two writes. -/
example : Keep.Within ({ sampleApp with routes := [(b!"/x", .head, 1)] } : App).env headMsg ∧ Keep.Arrives headMsg [.data headMsg.text false] ∧
    Returns { sampleApp with routes := [(b!"/x", .head, 1)] } headMsg (.value (.str b!"file")) ∧
    (client (received { sampleApp with routes := [(b!"/x", .head, 1)] } [[.data headMsg.text false]] [[.sent 1000]])).map (·.map (·.1)) =
      some [b!"HTTP/1.1 500 Internal Server Error"] ∧
    (∀ x ∈ [(b!"/user/{id}/posts", Method.get, 1)], Route.ParamBeforeLast x.1) ∧
    received sampleApp [sampleSecond.pieces] [[.sent 9, .sent 1000]] =
      b!"HTTP/1.1 HTTP/1.1 200 OK\r\nDate: Mon, 16 Nov 2026 10:00:00 GMT\r\nServer: fly\r\nContent-Type: text/plain\r\nContent-Length: " := by
  refine ⟨⟨headMsg_good, rfl, by decide +kernel, by decide⟩, Keep.arrives_whole _ (by decide), ?_, by decide +kernel, ?_, by decide +kernel⟩
  · refine ⟨1, [], ⟨[], b!"/x", .head, [], rfl, ⟨?_, fun _ => rfl⟩, by simp, Or.inl ⟨by unfold Plain; decide, rfl⟩⟩, Or.inl rfl, rfl⟩
    rw [Route.fits_plain _ _ (by unfold Plain; decide)]
    rfl
  · intro x hx
    rcases List.mem_singleton.1 hx with rfl
    exact ⟨b!"/user/", b!"id}/posts", by decide, by decide, by decide⟩

/-! ## C173 -/

/-- **C173** *(partial)*.  When the function's response to a request says `Connection: close`, or is too long and replaced by a 413, the client has read that response and all before it, and nothing comes after it: the
connection is closed, and whatever the client sends after that is not looked at.  Missing: as C172. -/
theorem C173_last_response_partial (a : App) (hr : ∀ x ∈ a.routes, WrittenPath x.1) (xs : List Exchange) (y : Exchange) (h : ∀ x ∈ xs, Proper a x) (hs : ∀ x ∈ xs, x.out.Stays)
    (hy : Proper a y) (hc : y.out.Closes) (later : List (List Rcv)) (ss : List (List Send.Sys)) :
    ∃ os, client (received a (xs.map (·.pieces) ++ y.pieces :: later) (xs.map (·.writes) ++ y.writes :: ss)) = some os ∧ Each (Shown a) (xs ++ [y]) os ∧
      after a (xs.map (·.pieces) ++ y.pieces :: later) = .closed := by
  obtain ⟨bufs, os, h1, h2, h3⟩ := each_read a hr xs h
  obtain ⟨buf, o, e, i1, i2, _, hcl⟩ := exchange_read a hr y hy
  obtain ⟨hk, i, l, hh, b, hrep⟩ := hcl hc
  have hans := Keep.answer_within a.env y.msg hy.within
  have hlast : Keep.session a.env a.keeps St.init (y.pieces :: later) = ([Keep.replyTo a.env y.msg], .closed) := by
    rw [hrep] at hk hans ⊢
    exact Keep.C116_application_closes a.env a.keeps y.msg hy.within y.pieces hy.arrives later i l hh b hans hk
  have hses := session_append a.env a.keeps (xs.map fun x => (x.msg, x.pieces)) (by
    intro p hp
    obtain ⟨x, hx, rfl⟩ := List.mem_map.1 hp
    obtain ⟨_, _, _, _, _, hk, _⟩ := exchange_read a hr x (h x hx)
    exact ⟨(h x hx).within, hk (hs x hx), (h x hx).arrives⟩) (y.pieces :: later)
  have hp : (xs.map fun x => (x.msg, x.pieces)).map (·.2) = xs.map (·.pieces) := by simp
  have hm : (xs.map fun x => (x.msg, x.pieces)).map (fun p => Keep.replyTo a.env p.1) = xs.map fun x => Keep.replyTo a.env x.msg := by simp
  rw [hp, hm, hlast] at hses
  refine ⟨os ++ [o], ?_, each_append h3 (.cons i2 .nil), ?_⟩
  · unfold received
    rw [hses]
    have hw := writeAll_append a [Keep.replyTo a.env y.msg] (y.writes :: ss) xs bufs h1
    have hone : writeAll a [Keep.replyTo a.env y.msg] (y.writes :: ss) = buf.bytes := by
      have hx := Send.C16_h1_exactly_once_partial buf.bytes y.blocked y.room (hy.fitting _ buf hans e) []
      rw [writeAll, e]
      simp only [List.headD_cons, Exchange.writes, hx, writeAll, List.append_nil]
    rw [hone] at hw
    have : bufs.flatten ++ buf.bytes = (bufs ++ [buf.bytes]).flatten := by simp
    rw [hw, this]
    exact client_all _ _ (each_append h2 (.cons i1 .nil))
  · unfold after
    rw [hses]

/-- **C173 refuted.**  A closing response of which the first write call takes only `n` bytes is cut: the client gets these bytes twice, never the end, and the connection is closed. -/
theorem C173_two_writes_refuted (a : App) (hr : ∀ x ∈ a.routes, WrittenPath x.1) (y : Exchange) (hy : Proper a y) (hc : y.out.Closes) :
    ∃ full o, Shown a y o ∧ client full = some [o] ∧ after a [y.pieces] = .closed ∧
      ∀ n, 0 < n → n < full.length → received a [y.pieces] [[.sent n, .sent full.length]] = full.take n ++ full.take (full.length - n) := by
  obtain ⟨buf, o, e, i1, i2, _, hcl⟩ := exchange_read a hr y hy
  obtain ⟨hk, i, l, hh, b, hrep⟩ := hcl hc
  have hans := Keep.answer_within a.env y.msg hy.within
  have hlast : Keep.session a.env a.keeps St.init [y.pieces] = ([Keep.replyTo a.env y.msg], .closed) := by
    rw [hrep] at hk hans ⊢
    exact Keep.C116_application_closes a.env a.keeps y.msg hy.within y.pieces hy.arrives [] i l hh b hans hk
  refine ⟨buf.bytes, o, i2, ?_, ?_, ?_⟩
  · have := client_all [buf.bytes] [o] (.cons i1 .nil)
    simpa using this
  · unfold after
    rw [hlast]
  · intro n h0 hn
    unfold received
    rw [hlast]
    simp only [writeAll, e, List.headD_cons, (Send.C16_h1_partial_write_refuted buf.bytes n h0 hn).1, List.append_nil]

/-- A request to which the application answers `Connection: close`. -/
def lastMsg : Msg := ⟨b!"GET /x?q HTTP/1.1", ⟨.get, b!"/x", some b!"q", .v1_1⟩, [b!"Host: h"], [(b!"Host", b!"h")], []⟩

theorem lastMsg_good : lastMsg.Good where
  line := by
    refine ⟨0, 0, 1, b!"/x?q", .origin .get b!"/x" b!"?q" (some b!"q") (by decide) ⟨?_, rfl⟩ (.plain _ _ (by decide) ?_), rfl⟩
    · exact .byte _ _ (by simp [Req.PathByte]) <| .byte _ _ (by simp [Req.PathByte, Req.RfcPchar, Req.RfcUnreserved]) .nil
    · exact .byte _ _ (by simp [Req.QueryByte, Req.RfcPchar, Req.RfcUnreserved]) .nil
  version := rfl
  cr := by decide
  short := by decide
  some := by decide
  plain := by decide
  fields := by
    refine .field _ b!"Host" b!"h" _ _ ⟨b!" ", b!"\r", rfl, ?_, by simp, ?_, ?_, ?_, Or.inl rfl⟩ .nil <;>
      simp [ReqHeader.NameByte, ReqHeader.ValueByte, ReqHeader.Blank]
  body := by decide +kernel
  fits := by decide

def sampleLast : Exchange := ⟨lastMsg, [.data lastMsg.text false], 0, 1000, .response 201 b!"Created" [(b!"X-name", b!"x"), (b!"Connection", b!"close")] b!"text/html" []⟩

example : sampleLast.out.Closes := ⟨[(b!"X-name", b!"x")], [], rfl, by decide⟩

theorem sampleLast_proper : Proper sampleApp sampleLast where
  within := ⟨lastMsg_good, rfl, by decide +kernel, by decide⟩
  arrives := Keep.arrives_whole _ (by decide)
  method := by decide
  makes := by
    refine ⟨⟨2, [(b!"name", b!"x")], ⟨[(b!"/f", .get, 1)], b!"/{name:str}", .get, [], rfl, ⟨?_, ?_⟩, ?_, ?_⟩, Or.inl rfl, ?_⟩, sampleCfg_ok, by decide, ?_, by decide, by decide, ?_, by decide⟩
    · exact (Route.fits_last [] b!"name:str" b!"/x" (by decide) (by decide)).2 ⟨b!"x", rfl, by decide, by decide⟩
    · intro h; exact absurd h (by unfold Plain; decide)
    · intro x hx
      rcases List.mem_singleton.1 hx with rfl
      rintro ⟨h, _⟩
      rw [Route.fits_plain _ _ (by unfold Plain; decide)] at h
      revert h; decide
    · exact Or.inr ⟨[], b!"name", some .str, b!"x", by decide, by unfold Plain; decide, by unfold NameOk; decide, rfl, rfl⟩
    · decide +kernel
    · intro p hp
      simp only [List.mem_cons, List.not_mem_nil, or_false] at hp
      rcases hp with rfl | rfl <;> (unfold Field; decide)
    · intro k; show decide (100000 < (([] : Bytes).take 10).length) = false; decide
  fitting := by
    intro r buf ha hb
    have hx : ReqEvent.answer sampleApp.env sampleLast.msg = .reply (.handler 2 lastMsg.line lastMsg.header none) := by decide +kernel
    rw [hx] at ha
    injection ha with ha
    subst ha
    have hlen : (sampleApp.bytes (.handler 2 lastMsg.line lastMsg.header none)).all (fun b => decide (b.bytes.length ≤ 1000)) = true := by
      decide +kernel
    rw [hb] at hlen
    exact of_decide_eq_true hlen

/-- Three requests, the second of which is the last that is looked at. -/
example : (client (received sampleApp [sampleFirst.pieces, sampleLast.pieces, sampleSecond.pieces] [sampleFirst.writes, sampleLast.writes, sampleSecond.writes])).map (·.length) = some 2 ∧
    after sampleApp [sampleFirst.pieces, sampleLast.pieces, sampleSecond.pieces] = .closed := by
  decide +kernel

/-- The same application with little room: at most three bytes of content, or an encoded form that does not fit. -/
def tightApp (maxLen : Int) (threshold : Nat) : App :=
  { sampleApp with routes := [(b!"/x", .get, 1)], cfg := fun _ => { sampleCfg with maxLen := maxLen, threshold := threshold, overflow := fun _ => true } }

theorem tight_returns (n : Int) (t : Nat) : Returns (tightApp n t) lastMsg (.value (.str b!"file")) := by
  refine ⟨1, [], ⟨[], b!"/x", .get, [], rfl, ⟨?_, fun _ => rfl⟩, by simp, Or.inl ⟨by unfold Plain; decide, rfl⟩⟩, Or.inl rfl, rfl⟩
  rw [Route.fits_plain _ _ (by unfold Plain; decide)]
  rfl

theorem tight_ok (n : Int) : CfgOk { sampleCfg with maxLen := n, threshold := 2, overflow := fun _ => true } :=
  ⟨(by decide : 0 < 2), sampleCfg_ok.date, sampleCfg_ok.encName⟩

/-- Both kinds of content that is too long are met, and the client sees the 413 and nothing after it. -/
example : Makes (tightApp 3 2) lastMsg (.tooLong (.value (.str b!"file")) b!"file") ∧ Makes (tightApp 10 2) lastMsg (.codedTooLong (.value (.str b!"file")) b!"file") ∧
    (∀ n ∈ [(3 : Int), 10], (client (received (tightApp n 2) [sampleLast.pieces, sampleLast.pieces] [sampleLast.writes, sampleLast.writes])).map (·.map (·.1)) =
      some [b!"HTTP/1.1 413 Payload Too Large"] ∧ after (tightApp n 2) [sampleLast.pieces, sampleLast.pieces] = .closed) :=
  ⟨⟨tight_returns 3 2, tight_ok 3, by decide, by decide, Or.inl rfl⟩, ⟨tight_returns 10 2, tight_ok 10, rfl, by decide, by decide, ⟨1, rfl, by decide, rfl⟩, Or.inl rfl⟩, by decide +kernel⟩

end Fly.Trip
