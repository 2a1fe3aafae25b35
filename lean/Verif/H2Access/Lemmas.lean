import Verif.H2Access.Spec
import Verif.H2Wire.Props
import Verif.Access.Props

namespace Fly.H2Access
open Hpack (DTab Entry)
open Header (HList Pairs view)
open H2S (Out)
open H2Trip (Writes Resp Conn cells Sendable)
open H2Wire (Link Arrival contentOf step answers answer fieldsOf)
open H2Refuse (Step)
open Site (Site)
open Send (Win)
open PyBridge (Cfg statuses)
open Access (Ends Fits Tidy)
open Nego (negotiating)
open Trip (WrittenPath)

/-! ## The status field and the status that is logged -/

/-- The first field of a response tells its status. -/
def First (h : HList) (t : Nat) : Prop := ∃ code, Response.codeOfType t = some code ∧ (view h).head? = some (b!":status", Response.decimal code)

theorem decimal_ne (n : Nat) : Response.decimal n ≠ [] := by
  have := (PyBridge.reads n).2.1
  rwa [(Response.C53_digits_reserved_exact n).2] at this

theorem pseudo_first {status : Option Nat} {h h' : HList} (e : PyBridge.statusPseudo status h = some h') : ∃ t, status = some t ∧ First h' t := by
  unfold PyBridge.statusPseudo at e
  cases status with
  | none => simp at e
  | some t =>
    simp only at e
    cases hc : Response.codeOfType t with
    | none => rw [hc] at e; simp at e
    | some code =>
      rw [hc] at e
      simp only [Option.some.injEq] at e
      refine ⟨t, rfl, code, hc, ?_⟩
      rw [← e]
      have := decimal_ne code
      simp [view, Header.add, Header.mkField, this]

theorem coding_first {c : Cfg} {h : HList} {t : Nat} (hf : First h t) (k : Option Response.Coding) : First (H2Trip.addCoding c h k) t := by
  obtain ⟨code, h1, h2⟩ := hf
  refine ⟨code, h1, ?_⟩
  cases k with
  | none => exact h2
  | some k =>
    simp only [H2Trip.addCoding, Header.add, view, Bool.false_eq_true, if_false, List.map_append]
    rw [List.head?_append]
    unfold view at h2
    rw [h2]; rfl

theorem length_first {h h' : HList} {t : Nat} (hf : First h t) {v : Bytes} (e : Header.addModify h b!"content-length" v = some h') : First h' t := by
  obtain ⟨code, h1, h2⟩ := hf
  refine ⟨code, h1, ?_⟩
  obtain ⟨items, n⟩ := h
  cases items with
  | nil => simp [view] at h2
  | cons f fs =>
    simp only [view, List.map_cons, List.head?_cons, Option.some.injEq, Prod.mk.injEq] at h2
    have hn : f.name = some b!":status" := by
      cases hfn : f.name with
      | none => rw [hfn] at h2; simp at h2
      | some x => rw [hfn] at h2; simp at h2; rw [← h2.1]
    have hfind : Header.findStr b!"content-length" (f :: fs) = (Header.findStr b!"content-length" fs).map fun r => r.map (· + 1) := by
      have : Header.strEq f.name b!"content-length" = some false := by rw [hn]; decide
      simp only [Header.findStr, this]
      cases Header.findStr b!"content-length" fs <;> rfl
    unfold Header.addModify at e
    simp only [hfind] at e
    cases hq : Header.findStr b!"content-length" fs with
    | none => rw [hq] at e; simp at e
    | some r =>
      rw [hq] at e
      cases r with
      | none =>
        simp only [Option.map_some, Option.map_none, Option.some.injEq] at e
        rw [← e]
        simp [view, Header.add, h2.1, h2.2]
      | some i =>
        simp only [Option.map_some, Option.some.injEq] at e
        rw [← e]
        simp [view, h2.1, h2.2]

theorem finish_first {c : Cfg} {st : Option Nat} {h : HList} {body : Option Bytes} {r : Resp} (e : H2Trip.finish c st h body = some r) : ∃ t, st = some t ∧ First r.header t := by
  unfold H2Trip.finish at e
  split at e
  · simp at e
  · rename_i h1 hp
    obtain ⟨t, ht, hf⟩ := pseudo_first hp
    refine ⟨t, ht, ?_⟩
    split at e
    · simp at e
    · split at e
      · simp at e
      · simp at e
      · split at e
        · simp at e
        · rename_i hm
          simp only [Option.some.injEq] at e
          rw [← e]
          exact length_first (coding_first hf _) hm

theorem file_first {c : Cfg} {f : Site.Served} {now : Bytes} {r : Resp} (e : H2Site.finishFile c f now = some r) : First r.header 200 := by
  unfold H2Site.finishFile at e
  split at e
  · simp at e
  · split at e
    · simp at e
    · rename_i h1 hp
      obtain ⟨t, ht, hf⟩ := pseudo_first hp
      cases ht
      split at e
      · simp at e
      · simp at e
      · split at e
        · simp at e
        · rename_i hm
          simp only [Option.some.injEq] at e
          rw [← e]
          exact length_first (coding_first hf _) hm

/-- The status that is logged is the one in the response. -/
theorem status_first {s : Site} {now : Bytes → Bytes} {r : H2R.Request} {x : Resp} (e : H2Site.response s now r = some x) : First x.header (status s r) := by
  unfold H2Site.response at e
  unfold status
  split at e
  · rename_i h1 _
    rw [h1]
    split at e
    · simp at e
    · split at e
      · simp at e
      · exact file_first e
  · rename_i h1 _
    rw [h1]
    split at e
    · simp at e
    · obtain ⟨t, ht, hf⟩ := finish_first e
      cases ht; exact hf
  · rename_i h1 _
    rw [h1]
    obtain ⟨t, ht, hf⟩ := finish_first e
    cases ht; exact hf
  · generalize H2R.answer s.full.env r = o at e ⊢
    cases o with
    | file => simp [H2Trip.response] at e
    | lost => simp [H2Trip.response] at e
    | undef => simp [H2Trip.response] at e
    | status n =>
      simp only [H2Trip.response] at e
      split at e
      · obtain ⟨t, ht, hf⟩ := finish_first e
        cases ht; exact hf
      · simp at e
    | handler i q =>
      simp only [H2Trip.response] at e
      simp only
      cases hres : H2Trip.result s.full q with
      | none => rw [hres] at e; simp at e
      | some ret =>
        rw [hres] at e
        simp only [H2Trip.respond] at e
        simp only
        generalize PyBridge.convert true (decide (q.method = .head)) (s.full.cfg ⟨q.fields, q.fields.length⟩).maxLen ret = cv at e ⊢
        cases cv with
        | reply st h b =>
          simp only at e
          obtain ⟨t, ht, hf⟩ := finish_first e
          rw [ht]; exact hf
        | tooLarge =>
          simp only at e
          obtain ⟨t, ht, hf⟩ := finish_first e
          cases ht; exact hf
        | error =>
          simp only at e
          obtain ⟨t, ht, hf⟩ := finish_first e
          cases ht; exact hf
        | undefined => simp at e

theorem code_row {t c : Nat} (h : Response.codeOfType t = some c) : t ∈ Response.statusTypes ∧ c = t := by
  unfold Response.codeOfType at h
  rw [Option.map_eq_some_iff] at h
  obtain ⟨p, hp, hc⟩ := h
  have h1 := List.find?_some hp
  have h2 := List.mem_of_find?_eq_some hp
  have : p.1 = t := by simpa using h1
  have hall : ∀ p ∈ Response.responses, p.1 ∈ Response.statusTypes := by decide +kernel
  exact ⟨this ▸ hall p h2, by rw [← hc, this]⟩

theorem rows : ∀ t ∈ Response.statusTypes, ∀ p ∈ statuses, Response.decimal t = Response.threeDigits p.1 → t = p.1 := by decide +kernel

theorem phrases : ∀ p ∈ statuses, Response.codeOfType p.1 = some p.1 ∧ Response.explain p.1 = some p.2 ∧ Response.decimal p.1 = Response.threeDigits p.1 ∧ 10 ∉ p.2 ∧ 0 ∉ p.2 ∧ p.2.length ≤ 32 := by
  decide +kernel

theorem first_is {h : HList} {t : Nat} (hf : First h t) {code : Nat} {phrase : Bytes} (hc : (code, phrase) ∈ statuses)
    (hh : (view h).head? = some (b!":status", Response.threeDigits code)) : t = code := by
  obtain ⟨c, h1, h2⟩ := hf
  obtain ⟨h3, rfl⟩ := code_row h1
  rw [h2] at hh
  simp only [Option.some.injEq, Prod.mk.injEq, true_and] at hh
  exact rows _ h3 _ hc hh

/-! ## A response that is sent to its end -/

theorem finished_ok (k : Conn) (hk : 16384 ≤ k.maxFrame ∧ k.maxFrame < 2 ^ 24) (sid : Nat) (hsid : sid < 2 ^ 31) (w : Win) (ho : 0 < w.stream ∧ 0 < w.conn) (tab : List Entry)
    (r : Resp) (s : Writes) (body : Bytes) (h : Sendable k tab r s body) : finished k tab sid w r s = true := by
  obtain ⟨fr, e1, e2⟩ := H2Trip.frames_written k hk sid hsid r s _ _ rfl tab h.block h.takes
  unfold finished
  simp only [e1, e2, Bool.true_and]
  unfold Send.startData
  rw [if_neg (by omega)]
  by_cases hb : body = []
  · rw [if_pos (by rw [h.right.2.1, hb]; rfl)]
  · have hpos := List.length_pos_iff.2 hb
    rw [if_neg (by rw [h.right.2.1]; omega)]
    simp only [Bool.and_eq_true, decide_eq_true_eq]
    constructor
    · rw [H2.C07_written_header_layout _ _ _ _ _ (by rw [h.right.2.1]; exact h.length) hsid, H2Trip.dataHeader_written (H2.wireHeader _ _ _ _ _) _ h.takes.dataHeader.1 (show 9 ≤ _ from h.takes.dataHeader.2)]
    · rcases h.right.2.2 _ h.takes.data.1 with h1 | ⟨_, _, h1⟩
      · exact h1.1
      · have := h.takes.data.2; omega

/-! ## The request line -/

theorem plain_clean {p : Bytes} (h : H2R.PlainPath p) : 10 ∉ p ∧ 0 ∉ p := by
  constructor <;> intro hx <;> have := h.2 _ hx <;> revert this <;> unfold Req.PathByte Req.RfcPchar Req.RfcUnreserved Req.RfcSubDelims <;> simp

theorem query_clean {q : Option Bytes} (h : H2R.PlainQuery q) : Log.Clean (Req.queryText q) := by
  cases q with
  | none => decide
  | some x =>
    have hx := (h x rfl).2
    have : Log.Clean x := by
      constructor <;> intro hm <;> have := hx _ hm <;> revert this <;> unfold Req.QueryByte Req.RfcPchar Req.RfcUnreserved Req.RfcSubDelims <;> simp
    exact Log.Clean.append (a := b!"?") (by decide) this

theorem line2_cut (m u : Bytes) (n : Nat) (hu : 0 ∉ u) : Log.line2 (some m) (some (u, n)) = (m ++ b!" " ++ u ++ b!" HTTP/2").take (m.length + n + 8) := by
  simp only [Log.line2, Log.cut_all u hu]
  have : (b!" HTTP/2" : Bytes) = b!" " ++ b!"HTTP/2" := by decide
  rw [this, show m.length + 1 + n + 1 + 6 = m.length + n + 8 by omega]
  simp only [List.append_assoc]

/-- The line that is logged. -/
theorem line_ok (e : ReqEvent.Env) {q : H2Trip.Ask} (hg : q.Sound) (alloc : Nat → Bool) (body : Option Bytes) (d : Bool) :
    line ⟨true, cells alloc q.fields, body, d⟩ = some ((Req.methodName q.method ++ b!" " ++ q.path ++ Req.queryText q.query ++ b!" HTTP/2").take
      ((Req.methodName q.method ++ b!" " ++ q.path ++ Req.queryText q.query ++ b!" HTTP/2").length - (Req.queryText q.query).length)) := by
  have h1 := (H2R.answer_well_formed e true _ _ q.method true q.path q.query body (H2Trip.cells_hold alloc q.fields) hg.wellFormed hg.path hg.query).1
  have h2 := Req.C68_http2_path_split_partial q.method q.path q.query hg.path.1 hg.path.2 hg.query
  have hz : 0 ∉ q.path ++ Req.queryText q.query := by
    rw [List.mem_append]
    rintro (h | h)
    · exact (plain_clean hg.path).2 h
    · exact (query_clean hg.query).2 h
  have key : line ⟨true, cells alloc q.fields, body, d⟩ = some (Log.line2 (some (Req.methodName q.method)) (some (q.path ++ Req.queryText q.query, q.path.length))) := by
    unfold line
    simp only [h1, h2]
    cases q.query with
    | none => simp [Req.queryText]
    | some x => rfl
  rw [key, line2_cut _ _ _ hz]
  congr 1
  simp only [List.append_assoc]
  congr 1
  simp only [List.length_append, List.length_cons, List.length_nil]
  omega

theorem method_clean : ∀ m : Req.Method, Log.Clean (Req.methodName m) := by
  intro m; cases m <;> decide

end Fly.H2Access
