import Verif.PyBridge.Model
import Verif.PyBridge.Spec
import Verif.Response.Props

/-! # C94, C95 — what a handler returns is what the client receives -/

namespace Fly.PyBridge

open Fly.Header (HList Pairs view Inv GoodName setFirst)
open Fly.Response (readResponse threeDigits Clean)

/-! ## Header lists -/

theorem good (n : Bytes) (h : n ≠ [] ∧ 0 ∉ n) : GoodName n := h

theorem inv_init : Inv HList.init := ⟨by simp [HList.init], rfl⟩

theorem addIfNo_ok {h : HList} (hi : Inv h) {n : Bytes} (hn : GoodName n) (v : Bytes) :
    ∃ h', Header.addIfNo h n v = some h' ∧ Inv h' ∧ view h' = if n ∈ (view h).map (·.1) then view h else view h ++ [(n, v)] :=
  Header.step_ok hi (.addIfNo n v) hn

theorem addModify_ok {h : HList} (hi : Inv h) {n : Bytes} (hn : GoodName n) (v : Bytes) :
    ∃ h', Header.addModify h n v = some h' ∧ Inv h' ∧ view h' = setFirst n v (view h) :=
  Header.step_ok hi (.set n v) hn

theorem append_ok {h : HList} (hi : Inv h) {n : Bytes} (hn : GoodName n) (v : Bytes) :
    Inv (Header.add h n v false) ∧ view (Header.add h n v false) = view h ++ [(n, v)] := by
  simpa using Header.add_ok hi hn v false

theorem addHeaders_ok : ∀ (hs : Pairs) (h : HList), Inv h → (∀ p ∈ hs, GoodName p.1) →
    ∃ h', addHeaders false h (hs.map fun p => .dict (some (.str p.1)) (some (.str p.2))) = some h' ∧ Inv h' ∧ view h' = view h ++ hs
  | [], h, hi, _ => ⟨h, rfl, hi, by simp⟩
  | p :: hs, h, hi, hg => by
    obtain ⟨i1, v1⟩ := append_ok hi (hg p (by simp)) p.2
    obtain ⟨h', e, i, v⟩ := addHeaders_ok hs _ i1 (fun q hq => hg q (by simp [hq]))
    refine ⟨h', ?_, i, ?_⟩
    · rw [List.map_cons, addHeaders]; simpa using e
    · rw [v, v1]; simp

theorem missing_cons (hs : Pairs) (p : Bytes × Bytes) (l : Pairs) :
    missing hs (p :: l) = (if p.1 ∈ hs.map (·.1) then [] else [p]) ++ missing hs l := by
  unfold missing
  rw [List.filter_cons]
  by_cases h : p.1 ∈ hs.map (·.1)
  · rw [if_pos h, if_neg (by simpa using h)]; rfl
  · rw [if_neg h, if_pos (by simpa using h)]; rfl

/-! ## Building the object -/

/-- A handler makes a response and adds its fields one after the other. -/
def build (code : Int) (hs : Pairs) (body ct : Bytes) : PyResponse :=
  hs.foldl (fun r p => r.addHeader p.1 p.2) (construct code none (some body) ct)

theorem build_eq (code : Int) (hs : Pairs) (body ct : Bytes) : build code hs body ct = ⟨code, ct, hs, body⟩ := by
  have : ∀ (hs : Pairs) (r : PyResponse), hs.foldl (fun r p => r.addHeader p.1 p.2) r = { r with header := r.header ++ hs } := by
    intro hs
    induction hs with
    | nil => intro r; simp
    | cons p hs ih => intro r; rw [List.foldl_cons, ih]; simp [PyResponse.addHeader]
  unfold build
  rw [this]; rfl

theorem takeBody_ok {maxLen : Int} {b : Bytes} (h : (b.length : Int) ≤ maxLen) :
    takeBody maxLen b = some (if b = [] then none else some b) := by
  unfold takeBody
  cases b with
  | nil => rfl
  | cons x b => rw [if_pos (by simp), if_neg (by omega)]; simp

theorem mime_ok {ct : Bytes} (h : ct ∈ contentTypes) : mimeFromStr ct = some ct := by
  have : ∀ m ∈ contentTypes, mimeFromStr m = some m := by decide +kernel
  exact this ct h

theorem status_ok {code : Nat} {reason : Bytes} (h : (code, reason) ∈ statuses) :
    Response.typeOfLong code = some code ∧
      Response.statusLine .v1_1 code = some ((b!"HTTP/1.1 " ++ threeDigits code ++ b!" " ++ reason) ++ [13, 10]) ∧
      13 ∉ (b!"HTTP/1.1 " ++ threeDigits code ++ b!" " ++ reason) := by
  have : ∀ p ∈ statuses, Response.typeOfLong p.1 = some p.1 ∧
      Response.statusLine .v1_1 p.1 = some ((b!"HTTP/1.1 " ++ threeDigits p.1 ++ b!" " ++ p.2) ++ [13, 10]) ∧
      13 ∉ (b!"HTTP/1.1 " ++ threeDigits p.1 ++ b!" " ++ p.2) := by decide +kernel
  exact this _ h

theorem convert_build (code : Nat) {hs : Pairs} (hg : ∀ p ∈ hs, GoodName p.1) {body ct : Bytes} (hct : ct ∈ contentTypes) {maxLen : Int}
    (hmax : (body.length : Int) ≤ maxLen) :
    ∃ h, convert false false maxLen (.response (build code hs body ct).obj) =
        .reply (Response.typeOfLong code) h (if body = [] then none else some body) ∧
      Inv h ∧ view h = hs ++ missing hs [(b!"Content-Type", ct)] := by
  obtain ⟨h, e, i, v⟩ := addHeaders_ok hs HList.init inv_init hg
  obtain ⟨h2, e2, i2, v2⟩ := addIfNo_ok i (n := b!"Content-Type") ⟨by simp, by decide⟩ ct
  have v : view h = hs := v
  refine ⟨h2, ?_, i2, ?_⟩
  · rw [build_eq]
    simp only [convert, PyResponse.obj, Bool.false_eq_true, if_false, takeBody_ok hmax, e, mime_ok hct, addContentType, e2]
  · rw [v2, v, missing_cons]
    split <;> simp [missing]

/-! ## Completion and sending -/

theorem complete_ok {h : HList} (hi : Inv h) (date : Bytes) {hs : Pairs} {ct : Bytes} (hv : view h = hs ++ missing hs [(b!"Content-Type", ct)]) :
    ∃ h', complete date h = some h' ∧ Inv h' ∧
      view h' = hs ++ missing hs [(b!"Content-Type", ct), (b!"Date", date), (b!"Server", b!"fly")] := by
  obtain ⟨h1, e1, i1, v1⟩ := addIfNo_ok hi (n := b!"Date") ⟨by simp, by decide⟩ date
  obtain ⟨h2, e2, i2, v2⟩ := addIfNo_ok i1 (n := b!"Server") ⟨by simp, by decide⟩ b!"fly"
  obtain ⟨h3, e3, i3, v3⟩ := addIfNo_ok i2 (n := b!"Content-Type") ⟨by simp, by decide⟩ b!"text/plain"
  refine ⟨h3, by simp only [complete, e1, e2, e3], i3, ?_⟩
  have m : ∀ n, n ∈ (view h).map (·.1) ↔ n ∈ hs.map (·.1) ∨ n = b!"Content-Type" := by
    intro n
    rw [hv, missing_cons, List.map_append, List.mem_append]
    by_cases hc : b!"Content-Type" ∈ hs.map (·.1)
    · simp only [hc, if_true]
      constructor
      · rintro (h | h)
        · exact Or.inl h
        · simp [missing] at h
      · rintro (h | h)
        · exact Or.inl h
        · subst h; exact Or.inl hc
    · simp only [hc, if_false]
      simp [missing]
  have d1 : ¬ (b!"Date" = b!"Content-Type") := by decide
  have d2 : ¬ (b!"Server" = b!"Content-Type") := by decide
  have d3 : ¬ (b!"Server" = b!"Date") := by decide
  have v1' : view h1 = hs ++ missing hs [(b!"Content-Type", ct), (b!"Date", date)] := by
    rw [v1, missing_cons hs (b!"Content-Type", ct) [(b!"Date", date)], missing_cons hs (b!"Date", date), hv, missing_cons]
    have : (b!"Date" ∈ (hs ++ ((if b!"Content-Type" ∈ hs.map (·.1) then [] else [(b!"Content-Type", ct)]) ++ missing hs [])).map (·.1)) ↔
        b!"Date" ∈ hs.map (·.1) := by
      have := m b!"Date"
      rw [hv, missing_cons] at this
      rw [this]
      simp [d1]
    simp only [this]
    by_cases hd : b!"Date" ∈ hs.map (·.1) <;> simp [hd, missing]
  have m1 : b!"Server" ∈ (view h1).map (·.1) ↔ b!"Server" ∈ hs.map (·.1) := by
    rw [v1]
    by_cases hd : b!"Date" ∈ (view h).map (·.1)
    · rw [if_pos hd, m]; simp [d2]
    · rw [if_neg hd, List.map_append, List.mem_append, m]; simp [d2, d3]
  have v2' : view h2 = hs ++ missing hs [(b!"Content-Type", ct), (b!"Date", date), (b!"Server", b!"fly")] := by
    rw [v2]
    simp only [m1]
    rw [v1', missing_cons, missing_cons, missing_cons hs _ [(b!"Date", date), (b!"Server", b!"fly")], missing_cons hs _ [(b!"Server", b!"fly")],
      missing_cons hs (b!"Server", b!"fly")]
    by_cases hd : b!"Server" ∈ hs.map (·.1) <;> simp [hd, missing]
  have m2 : b!"Content-Type" ∈ (view h2).map (·.1) := by
    have h0 : b!"Content-Type" ∈ (view h).map (·.1) := (m _).2 (Or.inr rfl)
    have h1' : b!"Content-Type" ∈ (view h1).map (·.1) := by
      rw [v1]; split
      · exact h0
      · rw [List.map_append, List.mem_append]; exact Or.inl h0
    rw [v2]; split
    · exact h1'
    · rw [List.map_append, List.mem_append]; exact Or.inl h1'
  rw [v3, if_pos m2, v2']

/-- The coding applied to a body. -/
def codingOf (c : Cfg) (body : Bytes) : Option Response.Coding := if c.threshold ≤ body.length then c.acc.decided else none

/-- The body that goes out. -/
def outBody (c : Cfg) (body : Bytes) : Bytes :=
  match codingOf c body with
  | some k => if k = Response.identity then body else c.compress k body
  | none => body

/-- The field announcing the coding. -/
def outFields (c : Cfg) (body : Bytes) : Pairs :=
  match codingOf c body with
  | some k => [(b!"Content-Encoding", c.encName k)]
  | none => []

theorem setLen_ok {h : HList} (hi : Inv h) (n : Nat) :
    ∃ h', Response.setContentLength h n = some h' ∧ Inv h' ∧ view h' = setFirst b!"Content-Length" (Response.contLenStr n) (view h) :=
  addModify_ok hi ⟨by simp, by decide⟩ _

theorem prepare_ok (c : Cfg) (hth : 0 < c.threshold) (body : Option Bytes)
    (hover : ∀ k, codingOf c (body.getD []) = some k → k ≠ Response.identity → c.overflow (c.compress k (body.getD [])) = false)
    {h : HList} (hi : Inv h) :
    ∃ b h', Response.prepare c.encName c.compress c.overflow c.threshold c.acc false body none h =
        some (.ready b (outBody c (body.getD [])).length h') ∧ b.bytes = some (outBody c (body.getD [])) ∧ (∀ f, b ≠ .file f) ∧ Inv h' ∧
      view h' = setFirst b!"Content-Length" (Response.contLenStr (outBody c (body.getD [])).length) (view h ++ outFields c (body.getD [])) := by
  cases body with
  | none =>
    have hc : codingOf c [] = none := by unfold codingOf; rw [if_neg (by simp; omega)]
    obtain ⟨h', e, i, v⟩ := setLen_ok hi 0
    refine ⟨.noContent, h', ?_, ?_, by simp, i, ?_⟩
    · simp [Response.prepare, outBody, hc, show ¬ c.threshold ≤ 0 by omega, e]
    · simp [outBody, hc, Response.Body.bytes]
    · simp [outBody, outFields, hc, v]
  | some b =>
    have hover : ∀ k, codingOf c b = some k → k ≠ Response.identity → c.overflow (c.compress k b) = false := hover
    show ∃ b' h', _ = some (Response.Prepared.ready b' (outBody c b).length h') ∧ _ = some (outBody c b) ∧ _ ∧ _ ∧
      _ = setFirst _ (Response.contLenStr (outBody c b).length) (view h ++ outFields c b)
    unfold Response.prepare
    simp only [Bool.false_and, Bool.false_eq_true, if_false]
    have hcod : (if c.threshold ≤ b.length then c.acc.decided else none) = codingOf c b := rfl
    rw [hcod]
    cases hk : codingOf c b with
    | none =>
      obtain ⟨h', e, i, v⟩ := setLen_ok hi b.length
      refine ⟨.body (some b), h', ?_, ?_, by simp, i, ?_⟩
      · simp [outBody, hk, e]
      · simp [outBody, hk, Response.Body.bytes]
      · simp [outBody, outFields, hk, v]
    | some k =>
      obtain ⟨i1, v1⟩ := append_ok hi (n := b!"Content-Encoding") ⟨by simp, by decide⟩ (c.encName k)
      by_cases hid : k = Response.identity
      · obtain ⟨h', e, i, v⟩ := setLen_ok i1 b.length
        refine ⟨.body (some b), h', ?_, ?_, by simp, i, ?_⟩
        · simp [outBody, hk, hid, Response.addContentEncoding] at e ⊢
          simp [e]
        · simp [outBody, hk, hid, Response.Body.bytes]
        · simp only [outBody, outFields, hk, if_pos hid]
          rw [v, v1]
      · obtain ⟨h', e, i, v⟩ := setLen_ok i1 (c.compress k b).length
        refine ⟨.encoded (c.compress k b), h', ?_, ?_, by simp, i, ?_⟩
        · simp only [outBody, hk, if_neg hid, hover k hk hid, Response.addContentEncoding, Bool.false_eq_true, if_false, e]
        · simp [outBody, hk, hid, Response.Body.bytes]
        · simp only [outBody, outFields, hk, if_neg hid]
          rw [v, v1]

theorem default_ok {h : HList} (hi : Inv h) (hct : b!"Content-Type" ∈ (view h).map (·.1)) (d : Option (Bytes × Bytes)) :
    ∃ h', defaultHeaders d h = some h' ∧ Inv h' ∧
      view h' = view h ++ (match d with | none => [] | some (content, _) => [(b!"Content-Length", Response.contLenStr content.length)]) := by
  cases d with
  | none => exact ⟨h, rfl, hi, by simp⟩
  | some q =>
    obtain ⟨content, mime⟩ := q
    obtain ⟨i1, v1⟩ := append_ok hi (n := b!"Content-Length") ⟨by simp, by decide⟩ (Response.contLenStr content.length)
    obtain ⟨h2, e2, i2, v2⟩ := addIfNo_ok i1 (n := b!"Content-Type") ⟨by simp, by decide⟩ mime
    refine ⟨h2, e2, i2, ?_⟩
    rw [v2, v1, if_pos (by rw [List.map_append, List.mem_append]; exact Or.inl hct)]

theorem setFirst_same (n v w : Bytes) (l : Pairs) (h : n ∉ l.map (·.1)) : setFirst n v (l ++ [(n, w)]) = l ++ [(n, v)] := by
  have hne : ∀ p ∈ l, p.1 ≠ n := fun p hp e => h (List.mem_map.2 ⟨p, hp, e⟩)
  rw [Header.setFirst_split l w [] hne]

theorem setFirst_new (n v : Bytes) (l : Pairs) (h : n ∉ l.map (·.1)) : setFirst n v l = l ++ [(n, v)] :=
  Header.setFirst_none l fun p hp e => h (List.mem_map.2 ⟨p, hp, e⟩)

theorem reads (n : Nat) : Reads (Response.contLenStr n) n := by
  obtain ⟨h1, h2, h3, _⟩ := Response.C53_decimal_reads_back n
  have hd : ∀ b, isDigit b = true → 48 ≤ b ∧ b ≤ 57 := by
    intro b hb; unfold isDigit at hb; rwa [Bool.and_eq_true, decide_eq_true_eq, decide_eq_true_eq] at hb
  refine ⟨fun b hb => hd b (h1 b hb), h2, ?_⟩
  have : ∀ (s : Bytes) (a : Nat), (∀ b ∈ s, isDigit b = true) → digitsVal a s = s.foldl (fun a d => a * 10 + (d - 48)) a := by
    intro s
    induction s with
    | nil => intro a _; rfl
    | cons b s ih =>
      intro a hs
      rw [digitsVal, if_pos (hs b (by simp)), List.foldl_cons]
      exact ih _ fun x hx => hs x (by simp [hx])
  rw [← this _ _ h1]; exact h3

theorem reads_clean {s : Bytes} {n : Nat} (h : Reads s n) : 13 ∉ s := fun hm => by have := h.1 13 hm; omega

theorem setFirst_clean {n v : Bytes} (hn : Clean (n, v)) : ∀ (l : Pairs), (∀ p ∈ l, Clean p) → ∀ p ∈ setFirst n v l, Clean p
  | [], _ => by simpa [setFirst] using hn
  | (m, w) :: l, h => by
    unfold setFirst
    split
    · next e =>
      intro p hp
      rcases List.mem_cons.1 hp with rfl | hp
      · subst e; exact hn
      · exact h p (by simp [hp])
    · intro p hp
      rcases List.mem_cons.1 hp with rfl | hp
      · exact h _ (by simp)
      · exact setFirst_clean hn l (fun q hq => h q (by simp [hq])) p hp

theorem serialize_ok {t : Nat} {line : Bytes} (hl : Response.statusLine .v1_1 t = some (line ++ [13, 10])) (h13 : 13 ∉ line) {h : HList} (hi : Inv h)
    (hc : ∀ p ∈ view h, Clean p) {b : Response.Body} {bs : Bytes} (hb : b.bytes = some bs) (hf : ∀ f, b ≠ .file f) :
    ∃ buf, Response.serialize .v1_1 t 0 (.ready b bs.length h) = some buf ∧ buf.sendLen = buf.bytes.length ∧
      readResponse buf.bytes = some (line, view h, bs) := by
  have := Response.C17_serialized_layout .v1_1 t _ hl h hi b bs hb bs.length (Nat.le_refl _)
  refine ⟨⟨(Response.wire (line ++ [13, 10]) (view h) bs).length, Response.wire (line ++ [13, 10]) (view h) bs⟩, ?_, rfl,
    Response.C17_client_reads_response line h13 (view h) hc bs⟩
  show Response.setSendPtr _ t h bs.length 0 b = _
  rw [← this]
  cases b with
  | file f => exact absurd rfl (hf f)
  | body o => cases o <;> rfl
  | _ => rfl

/-- A response whose header list is complete goes out and is read back. -/
theorem send_ok (c : Cfg) {t : Nat} {line : Bytes} (hl : Response.statusLine .v1_1 t = some (line ++ [13, 10])) (h13 : 13 ∉ line) {h1 : HList}
    (i1 : Inv h1) (hct1 : b!"Content-Type" ∈ (view h1).map (·.1)) (hcl1 : ∀ p ∈ view h1, Clean p) {body : Bytes}
    (hth : 0 < c.threshold) (henc : ∀ k, 13 ∉ c.encName k) (hover : ∀ k, c.overflow (c.compress k body) = false)
    (hcl : b!"Content-Length" ∈ (view h1).map (·.1) → body ≠ [] ∨ c.dflt t = none) :
    ∃ buf len, send c (some t) h1 (if body = [] then none else some body) = some buf ∧ buf.sendLen = buf.bytes.length ∧
      readResponse buf.bytes = some (line, setFirst b!"Content-Length" len (view h1 ++ outFields c body), outBody c body) ∧
      Reads len (outBody c body).length := by
  have key : ∃ b h', prepareReply c t h1 (if body = [] then none else some body) =
      some (.ready b (outBody c body).length h') ∧ b.bytes = some (outBody c body) ∧ (∀ f, b ≠ .file f) ∧ Inv h' ∧
      view h' = setFirst b!"Content-Length" (Response.contLenStr (outBody c body).length) (view h1 ++ outFields c body) := by
    by_cases hb : body = []
    · subst hb
      simp only [if_true, prepareReply]
      obtain ⟨h2, e2, i2, v2⟩ := default_ok i1 hct1 (c.dflt t)
      rw [e2]
      obtain ⟨b, h', e, hby, hnf, i', v'⟩ := prepare_ok c hth none (fun k _ _ => hover _) i2
      refine ⟨b, h', e, hby, hnf, i', ?_⟩
      rw [v']
      have hof : outFields c [] = [] := by
        unfold outFields codingOf; rw [if_neg (by simp; omega)]
      show setFirst _ _ (view h2 ++ outFields c []) = setFirst _ _ (view h1 ++ outFields c [])
      rw [hof, List.append_nil, List.append_nil, v2]
      cases hd : c.dflt t with
      | none => simp
      | some q =>
        have hn : b!"Content-Length" ∉ (view h1).map (·.1) := fun hm => by
          rcases hcl hm with h | h
          · exact h rfl
          · rw [hd] at h; simp at h
        obtain ⟨content, mime⟩ := q
        simp only
        rw [setFirst_same _ _ _ _ hn, setFirst_new _ _ _ hn]; rfl
    · simp only [if_neg hb, prepareReply]
      exact prepare_ok c hth (some body) (fun k _ _ => hover _) i1
  obtain ⟨b, h', e, hby, hnf, i', v'⟩ := key
  have hclean : ∀ p ∈ view h', Clean p := by
    rw [v']
    apply setFirst_clean
    · exact ⟨by simp, by simp, reads_clean (reads _)⟩
    · intro p hp
      rcases List.mem_append.1 hp with hp | hp
      · exact hcl1 p hp
      · unfold outFields at hp
        split at hp
        · rw [List.mem_singleton.1 hp]; exact ⟨by simp, by simp, henc _⟩
        · simp at hp
  obtain ⟨buf, es, hlen, hr⟩ := serialize_ok hl h13 i' hclean hby hnf
  refine ⟨buf, Response.contLenStr (outBody c body).length, ?_, hlen, ?_, reads _⟩
  · simp only [send, Option.getD_some, e, es]
  · rw [hr, v']

/-- The fields of a completed list, as far as they are the handler's and the server's. -/
theorem fields_clean {hs : Pairs} (hf : ∀ p ∈ hs, Clean p) {ct date : Bytes} (hct : 13 ∉ ct) (hdate : 13 ∉ date) :
    ∀ p ∈ hs ++ missing hs [(b!"Content-Type", ct), (b!"Date", date), (b!"Server", b!"fly")], Clean p := by
  intro p hp
  rcases List.mem_append.1 hp with hp | hp
  · exact hf p hp
  · have hp := (List.mem_filter.1 hp).1
    simp only [List.mem_cons, List.not_mem_nil, or_false] at hp
    rcases hp with rfl | rfl | rfl
    · exact ⟨by simp, by simp, hct⟩
    · exact ⟨by simp, by simp, hdate⟩
    · exact ⟨by simp, by simp, by simp⟩

theorem has_ct (hs : Pairs) (ct : Bytes) (l : Pairs) : b!"Content-Type" ∈ (hs ++ missing hs ((b!"Content-Type", ct) :: l)).map (·.1) := by
  rw [missing_cons]
  by_cases hc : b!"Content-Type" ∈ hs.map (·.1)
  · rw [List.map_append, List.mem_append]; exact Or.inl hc
  · simp [hc]

theorem no_cl {hs : Pairs} {ct date : Bytes}
    (h : b!"Content-Length" ∈ (hs ++ missing hs [(b!"Content-Type", ct), (b!"Date", date), (b!"Server", b!"fly")]).map (·.1)) :
    b!"Content-Length" ∈ hs.map (·.1) := by
  rw [List.map_append, List.mem_append] at h
  rcases h with h | h
  · exact h
  · obtain ⟨p, hp, e⟩ := List.mem_map.1 h
    have hp := (List.mem_filter.1 hp).1
    simp only [List.mem_cons, List.not_mem_nil, or_false] at hp
    rcases hp with rfl | rfl | rfl <;> simp at e

theorem ct_clean {ct : Bytes} (h : ct ∈ contentTypes) : 13 ∉ ct := by
  have : ∀ m ∈ contentTypes, 13 ∉ m := by decide +kernel
  exact this ct h

/-- **C94 (partial).** For every known status, list of header fields, known content type and body within the
limit, and for every negotiation result, encoder and default content: the bytes sent for a `Response` with them are
read by a client as that status, the fields in the handler's order followed by the content type, date and server
fields the handler did not set, the coding applied if any, and a Content-Length equal to the bytes that follow,
which are the body (encoded by that coding).  Missing: HEAD requests, other statuses and content types, header
fields with a CR, an empty name, and fields given to the constructor; see the theorems `C94_…_refuted`. -/
theorem C94_response_received_partial (c : Cfg) {code : Nat} {reason : Bytes} (hst : (code, reason) ∈ statuses) {hs : Pairs}
    (hf : ∀ p ∈ hs, Field p) {ct : Bytes} (hct : ct ∈ contentTypes) {body : Bytes} (hmax : (body.length : Int) ≤ c.maxLen)
    (hth : 0 < c.threshold) (hdate : 13 ∉ c.date) (henc : ∀ k, 13 ∉ c.encName k) (hover : ∀ k, c.overflow (c.compress k body) = false)
    (hcl : b!"Content-Length" ∈ hs.map (·.1) → body ≠ [] ∨ c.dflt code = none) :
    ∃ buf len, respond c false (.response (build code hs body ct).obj) = some buf ∧ buf.sendLen = buf.bytes.length ∧
      readResponse buf.bytes = some (b!"HTTP/1.1 " ++ threeDigits code ++ b!" " ++ reason,
        setFirst b!"Content-Length" len
          (hs ++ missing hs [(b!"Content-Type", ct), (b!"Date", c.date), (b!"Server", b!"fly")] ++
            (match (if c.threshold ≤ body.length then c.acc.decided else none) with
              | some k => [(b!"Content-Encoding", c.encName k)]
              | none => [])),
        (match (if c.threshold ≤ body.length then c.acc.decided else none) with
          | some k => if k = 0 then body else c.compress k body
          | none => body)) ∧
      Reads len (match (if c.threshold ≤ body.length then c.acc.decided else none) with
          | some k => if k = 0 then body else c.compress k body
          | none => body).length := by
  show ∃ (buf : Response.SendBuf) (len : Bytes), _ ∧ _ ∧ readResponse buf.bytes = some (_, setFirst _ len (_ ++ outFields c body), outBody c body) ∧ Reads len (outBody c body).length
  obtain ⟨ht, hl, h13⟩ := status_ok hst
  obtain ⟨h, ec, i, v⟩ := convert_build code (fun p hp => ⟨(hf p hp).1, (hf p hp).2.1⟩) hct (hs := hs) (body := body) hmax
  obtain ⟨h1, ecp, i1, v1⟩ := complete_ok i c.date v
  obtain ⟨buf, len, e, hlen, hr, hrd⟩ := send_ok c hl h13 i1 (by rw [v1]; exact has_ct _ _ _)
    (by rw [v1]; exact fields_clean (fun p hp => ⟨(hf p hp).2.2.1, (hf p hp).2.2.2.1, (hf p hp).2.2.2.2⟩) (ct_clean hct) hdate)
    (body := body) hth henc hover (by rw [v1]; exact fun hm => hcl (no_cl hm))
  refine ⟨buf, len, ?_, hlen, by rw [hr, v1], hrd⟩
  simp only [respond, ec, ecp, ht, e]

/-! ## Non-vacuity -/

/-- A server with gzip from 1024 bytes on, default content for 404. -/
def sample : Cfg where
  date := b!"Mon, 16 Nov 2026 10:00:00 GMT"
  maxLen := 1048576
  threshold := 1024
  acc := ⟨fun _ => true, some 1⟩
  encName := fun k => if k = 0 then b!"identity" else b!"gzip"
  compress := fun _ b => b.take 10
  overflow := fun b => 100000 < b.length
  dflt := fun t => if t = 404 then some (b!"<p>not found</p>", b!"text/html") else none

example : (201, b!"Created") ∈ statuses ∧ (∀ p ∈ [(b!"X-A", b!"1"), (b!"Server", b!"mine")], Field p) ∧ b!"text/html" ∈ contentTypes ∧
    (respond sample false (.response (build 201 [(b!"X-A", b!"1"), (b!"Server", b!"mine")] b!"hello" b!"text/html").obj)).map (·.bytes) =
      some b!"HTTP/1.1 201 Created\r\nX-A: 1\r\nServer: mine\r\nContent-Type: text/html\r\nDate: Mon, 16 Nov 2026 10:00:00 GMT\r\nContent-Length: 5\r\n\r\nhello" := by
  unfold Field; decide +kernel

/-! ## C94 — plain values -/

theorem complete_init (date : Bytes) :
    ∃ h', complete date HList.init = some h' ∧ Inv h' ∧ view h' = [(b!"Date", date), (b!"Server", b!"fly"), (b!"Content-Type", b!"text/plain")] := by
  obtain ⟨h1, e1, i1, v1⟩ := addIfNo_ok inv_init (n := b!"Date") ⟨by simp, by decide⟩ date
  have v1 : view h1 = [(b!"Date", date)] := by rw [v1]; simp [view, HList.init]
  obtain ⟨h2, e2, i2, v2⟩ := addIfNo_ok i1 (n := b!"Server") ⟨by simp, by decide⟩ b!"fly"
  have v2 : view h2 = [(b!"Date", date), (b!"Server", b!"fly")] := by rw [v2, v1]; simp
  obtain ⟨h3, e3, i3, v3⟩ := addIfNo_ok i2 (n := b!"Content-Type") ⟨by simp, by decide⟩ b!"text/plain"
  exact ⟨h3, by simp only [complete, e1, e2, e3], i3, by rw [v3, v2]; simp⟩

/-- The values a handler may return instead of a `Response`, with the bytes meant. -/
def plain : PyObj → Option Bytes
  | .str s => some s
  | .bytes b => some b
  | .none => some []
  | _ => none

/-- **C94, plain values (partial).** A text, bytes or `None` is received as a 200 response of type `text/plain` with
exactly those bytes, in the negotiated coding from the threshold on, for every value within the limit.  Missing: HEAD requests. -/
theorem C94_plain_value_received_partial (c : Cfg) (v : PyObj) (body : Bytes) (hv : plain v = some body) (hmax : (body.length : Int) ≤ c.maxLen)
    (hth : 0 < c.threshold) (hdate : 13 ∉ c.date) (henc : ∀ k, 13 ∉ c.encName k)
    (hover : c.threshold ≤ body.length → ∀ k, c.overflow (c.compress k body) = false) :
    ∃ buf len, respond c false (.value v) = some buf ∧ buf.sendLen = buf.bytes.length ∧
      readResponse buf.bytes = some (b!"HTTP/1.1 200 OK",
        [(b!"Date", c.date), (b!"Server", b!"fly"), (b!"Content-Type", b!"text/plain")] ++
          (match (if c.threshold ≤ body.length then c.acc.decided else none) with
            | some k => [(b!"Content-Encoding", c.encName k)]
            | none => []) ++ [(b!"Content-Length", len)],
        (match (if c.threshold ≤ body.length then c.acc.decided else none) with
          | some k => if k = 0 then body else c.compress k body
          | none => body)) ∧
      Reads len (match (if c.threshold ≤ body.length then c.acc.decided else none) with
          | some k => if k = 0 then body else c.compress k body
          | none => body).length := by
  obtain ⟨h1, e1, i1, v1⟩ := complete_init c.date
  have hl : Response.statusLine .v1_1 200 = some (b!"HTTP/1.1 200 OK" ++ [13, 10]) := by decide +kernel
  have hsend : ∃ buf len, send c (some 200) h1 (if body = [] then none else some body) = some buf ∧ buf.sendLen = buf.bytes.length ∧
      readResponse buf.bytes = some (b!"HTTP/1.1 200 OK",
        [(b!"Date", c.date), (b!"Server", b!"fly"), (b!"Content-Type", b!"text/plain")] ++ outFields c body ++ [(b!"Content-Length", len)], outBody c body) ∧
      Reads len (outBody c body).length := by
    -- below the threshold the encoder is not used: any other one gives the same result
    let c' : Cfg := if c.threshold ≤ body.length then c else { c with overflow := fun _ => false }
    have hsame : send c (some 200) h1 (if body = [] then none else some body) = send c' (some 200) h1 (if body = [] then none else some body) := by
      by_cases hge : c.threshold ≤ body.length
      · simp only [c', if_pos hge]
      simp only [c', if_neg hge]
      have hp : ∀ t h (b : Option Bytes), (b = none ∨ b = some body) → prepareReply c t h b = prepareReply { c with overflow := fun _ => false } t h b := by
        intro t h b hb
        have hlen : ∀ b' : Bytes, b = some b' → b' = body := by
          intro b' e; rcases hb with hb | hb <;> rw [hb] at e
          · simp at e
          · exact (Option.some.inj e).symm
        unfold prepareReply
        cases b with
        | none =>
          simp only
          cases defaultHeaders (c.dflt t) h with
          | none => rfl
          | some h => simp [Response.prepare, show ¬ c.threshold ≤ 0 by omega]
        | some b' =>
          have := hlen b' rfl
          subst this
          simp [Response.prepare, hge]
      have hb : (if body = [] then none else some body) = none ∨ (if body = [] then none else some body) = some body := by
        split
        · exact Or.inl rfl
        · exact Or.inr rfl
      unfold send
      rw [hp _ _ _ hb]
      simp only [hp 413 _ none (Or.inl rfl)]
    rw [hsame]
    have c1 : c'.threshold = c.threshold ∧ c'.encName = c.encName ∧ c'.acc = c.acc ∧ c'.compress = c.compress := by
      simp only [c']; split <;> exact ⟨rfl, rfl, rfl, rfl⟩
    have c2 : ∀ k, c'.overflow (c'.compress k body) = false := by
      intro k
      by_cases hge : c.threshold ≤ body.length
      · simp only [c', if_pos hge]; exact hover hge k
      · simp only [c', if_neg hge]
    obtain ⟨buf, len, e, hlen, hr, hrd⟩ := send_ok c' hl (by decide) i1 (by rw [v1]; simp)
      (by rw [v1]; intro p hp
          simp only [List.mem_cons, List.not_mem_nil, or_false] at hp
          rcases hp with rfl | rfl | rfl
          · exact ⟨by simp, by simp, hdate⟩
          · exact ⟨by simp, by simp, by simp⟩
          · exact ⟨by simp, by simp, by simp⟩)
      (body := body) (by rw [c1.1]; exact hth) (by rw [c1.2.1]; exact henc) c2 (by rw [v1]; intro h; simp at h)
    have ho : outBody c' body = outBody c body := by simp only [outBody, codingOf, c1]
    have hf : outFields c' body = outFields c body := by simp only [outFields, codingOf, c1]
    rw [ho] at hrd
    refine ⟨buf, len, e, hlen, ?_, hrd⟩
    rw [hr, ho, hf, v1, setFirst_new]
    unfold outFields
    cases codingOf c body <;> simp
  obtain ⟨buf, len, e, h2, h3, h4⟩ := hsend
  refine ⟨buf, len, ?_, h2, h3, h4⟩
  cases v with
  | str s =>
    cases hv
    simp only [respond, convert, Bool.false_eq_true, if_false, takeBody_ok hmax, e1, e]
  | bytes s =>
    cases hv
    simp only [respond, convert, takeBody_ok hmax, e1, e]
  | none =>
    cases hv
    simp only [respond, convert, e1]
    exact e
  | badStr => simp [plain] at hv
  | other => simp [plain] at hv

example : (respond sample false (.value (.str b!"hi"))).map (·.bytes) = some
    b!"HTTP/1.1 200 OK\r\nDate: Mon, 16 Nov 2026 10:00:00 GMT\r\nServer: fly\r\nContent-Type: text/plain\r\nContent-Length: 2\r\n\r\nhi" := by
  decide +kernel

/-! ## C95 — failures and the size limit -/

theorem server_ok (date conn : Bytes) :
    ∃ h h', serverHeader date conn = some h ∧ complete date h = some h' ∧ Inv h' ∧
      view h' = [(b!"Server", b!"fly"), (b!"Date", date), (b!"Connection", conn), (b!"Content-Type", b!"text/plain")] := by
  obtain ⟨h1, e1, i1, v1⟩ := addIfNo_ok inv_init (n := b!"Server") ⟨by simp, by decide⟩ b!"fly"
  have v1 : view h1 = [(b!"Server", b!"fly")] := by rw [v1]; simp [view, HList.init]
  obtain ⟨h2, e2, i2, v2⟩ := addIfNo_ok i1 (n := b!"Date") ⟨by simp, by decide⟩ date
  have v2 : view h2 = [(b!"Server", b!"fly"), (b!"Date", date)] := by rw [v2, v1]; simp
  obtain ⟨i3, v3⟩ := append_ok i2 (n := b!"Connection") ⟨by simp, by decide⟩ conn
  rw [v2] at v3
  obtain ⟨h4, e4, i4, v4⟩ := addIfNo_ok i3 (n := b!"Date") ⟨by simp, by decide⟩ date
  have v4 := (v4.trans (if_pos (by rw [v3]; simp))).trans v3
  obtain ⟨h5, e5, i5, v5⟩ := addIfNo_ok i4 (n := b!"Server") ⟨by simp, by decide⟩ b!"fly"
  have v5 := (v5.trans (if_pos (by rw [v4]; simp))).trans v4
  obtain ⟨h6, e6, i6, v6⟩ := addIfNo_ok i5 (n := b!"Content-Type") ⟨by simp, by decide⟩ b!"text/plain"
  refine ⟨Header.add h2 b!"Connection" conn false, h6, by simp only [serverHeader, e1, e2], by simp only [complete, e4, e5, e6], i6, ?_⟩
  rw [v6, v5]; simp

/-- The response of the server to a failure: no body. -/
def ServerReply (c : Cfg) (r : Ret) (head : Bool) (line conn : Bytes) : Prop :=
  ∃ buf, respond c head r = some buf ∧ buf.sendLen = buf.bytes.length ∧
    readResponse buf.bytes = some (line, [(b!"Server", b!"fly"), (b!"Date", c.date), (b!"Connection", conn), (b!"Content-Type", b!"text/plain"),
      (b!"Content-Length", b!"0")], [])

theorem server_reply (c : Cfg) (hth : 0 < c.threshold) (hdate : 13 ∉ c.date) {t : Nat} {line conn : Bytes}
    (hl : Response.statusLine .v1_1 t = some (line ++ [13, 10])) (h13 : 13 ∉ line) (hconn : 13 ∉ conn) :
    ∃ h h' buf, serverHeader c.date conn = some h ∧ complete c.date h = some h' ∧ send c (some t) h' none = some buf ∧
      buf.sendLen = buf.bytes.length ∧
      readResponse buf.bytes = some (line, [(b!"Server", b!"fly"), (b!"Date", c.date), (b!"Connection", conn), (b!"Content-Type", b!"text/plain"),
        (b!"Content-Length", b!"0")], []) := by
  obtain ⟨h, h', e1, e2, i, v⟩ := server_ok c.date conn
  obtain ⟨h2, e3, i2, v2⟩ := default_ok i (by rw [v]; simp) (c.dflt t)
  obtain ⟨h3, e4, i3, v3⟩ := setLen_ok i2 0
  have hv3 : view h3 = [(b!"Server", b!"fly"), (b!"Date", c.date), (b!"Connection", conn), (b!"Content-Type", b!"text/plain"),
        (b!"Content-Length", b!"0")] := by
    have h0 : Response.contLenStr 0 = b!"0" := by decide
    rw [v3, v2, h0]
    have hn : b!"Content-Length" ∉ (view h').map (·.1) := by rw [v]; simp
    cases c.dflt t with
    | none =>
      simp only [List.append_nil]
      rw [setFirst_new _ _ _ hn, v]; rfl
    | some q =>
      obtain ⟨content, mime⟩ := q
      simp only
      rw [setFirst_same _ _ _ _ hn, v]; rfl
  have hp : prepareReply c t h' none = some (.ready .noContent 0 h3) := by
    simp only [prepareReply, e3]
    simp [Response.prepare, show ¬ c.threshold ≤ 0 by omega, e4]
  obtain ⟨buf, e5, hlen, hr⟩ := serialize_ok hl h13 i3 (b := .noContent) (bs := []) (by
      rw [hv3]; intro p hp
      simp only [List.mem_cons, List.not_mem_nil, or_false] at hp
      rcases hp with rfl | rfl | rfl | rfl | rfl
      · exact ⟨by simp, by simp, by simp⟩
      · exact ⟨by simp, by simp, hdate⟩
      · exact ⟨by simp, by simp, hconn⟩
      · exact ⟨by simp, by simp, by simp⟩
      · exact ⟨by simp, by simp, by simp⟩) rfl (by simp)
  refine ⟨h, h', buf, e1, e2, ?_, hlen, by rw [hr, hv3]⟩
  simp only [send, Option.getD_some, hp]
  exact e5

/-- **C95.** A handler that raises, or returns something that is neither a `Response`, a text, bytes nor `None`, or a
text that cannot be encoded, is answered with a 500 without body, for every method and configuration. -/
theorem C95_failure_is_500 (c : Cfg) (hth : 0 < c.threshold) (hdate : 13 ∉ c.date) (head : Bool) (r : Ret)
    (hr : r = .raised ∨ r = .value .other ∨ r = .value .badStr) :
    ServerReply c r head b!"HTTP/1.1 500 Internal Server Error" b!"keep-alive" := by
  obtain ⟨h, h', buf, e1, e2, e3, h4, h5⟩ := server_reply c hth hdate (t := 500) (line := b!"HTTP/1.1 500 Internal Server Error")
    (conn := b!"keep-alive") (by decide +kernel) (by decide) (by decide)
  refine ⟨buf, ?_, h4, h5⟩
  rcases hr with rfl | rfl | rfl <;> simp only [respond, convert, e1, e2, e3]

/-- **C95 (size limit).** A body longer than the configured maximum is never sent: a `Response`, text or bytes with
such a body is answered with a 413 without body, after which the connection is to be closed. -/
theorem C95_too_long_is_413 (c : Cfg) (hth : 0 < c.threshold) (hdate : 13 ∉ c.date) (body : Bytes) (hpos : body ≠ [])
    (hmax : c.maxLen < (body.length : Int)) (r : Ret)
    (hr : r = .value (.str body) ∨ r = .value (.bytes body) ∨ ∃ o : RespObj, o.body = some (.bytes body) ∧ r = .response o) :
    ServerReply c r false b!"HTTP/1.1 413 Payload Too Large" b!"close" := by
  obtain ⟨h, h', buf, e1, e2, e3, h4, h5⟩ := server_reply c hth hdate (t := 413) (line := b!"HTTP/1.1 413 Payload Too Large")
    (conn := b!"close") (by decide +kernel) (by decide) (by decide)
  have hb : takeBody c.maxLen body = none := by
    unfold takeBody; rw [if_pos (List.length_pos_iff.2 hpos), if_pos hmax]
  refine ⟨buf, ?_, h4, h5⟩
  rcases hr with rfl | rfl | ⟨o, ho, rfl⟩
  · simp only [respond, convert, Bool.false_eq_true, if_false, hb, e1, e2, e3]
  · simp only [respond, convert, hb, e1, e2, e3]
  · simp only [respond, convert, Bool.false_eq_true, if_false, ho, hb, e1, e2, e3]

example : (respond { sample with maxLen := 3 } false (.value (.str b!"hello"))).map (·.bytes) = some
    b!"HTTP/1.1 413 Payload Too Large\r\nServer: fly\r\nDate: Mon, 16 Nov 2026 10:00:00 GMT\r\nConnection: close\r\nContent-Type: text/plain\r\nContent-Length: 0\r\n\r\n" := by
  decide +kernel

/-! ## C94 refuted -/

/-- A response object a handler must not return: a body that is neither bytes nor `None`, no list of fields, a field
that is no dictionary of two texts, a content type that is no text, a status that is no number, or one of these
attributes missing. -/
def Malformed (o : RespObj) : Prop :=
  (o.body ≠ some .none ∧ ∀ b, o.body ≠ some (.bytes b)) ∨ (∀ l, o.header ≠ .list l) ∨
  (∃ l, o.header = .list l ∧ ∃ e ∈ l, ∀ n v, e ≠ .dict (some (.str n)) (some (.str v))) ∨ (∀ s, o.contentType ≠ some (.str s)) ∨
  ∀ n, o.status ≠ .int n

theorem addHeaders_bad (v2 : Bool) : ∀ (l : List HdrEntry) (h : HList), (∃ e ∈ l, ∀ n v, e ≠ .dict (some (.str n)) (some (.str v))) →
    addHeaders v2 h l = none
  | [], _, he => by simp at he
  | e :: l, h, ⟨x, hx, hb⟩ => by
    rw [addHeaders.eq_def]
    split
    · next heq => simp at heq
    · next n v l' heq =>
      injection heq with h1 h2
      subst h1; subst h2
      rcases List.mem_cons.1 hx with rfl | hx
      · exact absurd rfl (hb _ _)
      · exact addHeaders_bad v2 _ _ ⟨x, hx, hb⟩
    · rfl

theorem addHeaders_inv : ∀ (l : List HdrEntry) (h h' : HList), Inv h → (∀ n v, HdrEntry.dict (some (.str n)) v ∈ l → GoodName n) →
    addHeaders false h l = some h' → Inv h'
  | [], h, h', hi, _, e => by simp [addHeaders] at e; exact e ▸ hi
  | e :: l, h, h', hi, hg, he => by
    rw [addHeaders.eq_def] at he
    split at he
    · next heq => simp at heq
    · next n v l' heq =>
      injection heq with h1 h2
      subst h1; subst h2
      obtain ⟨i1, v1⟩ := append_ok hi (hg n (some (.str v)) (by simp)) v
      exact addHeaders_inv l _ h' i1 (fun n v hm => hg n v (by simp [hm])) he
    · simp at he

/-- What follows the body in the conversion of a response object. -/
def afterBody (header : HdrAttr) (ct : Option PyObj) (status : StatusAttr) (ob : Option Bytes) : Conv :=
  match header with
  | .missing => .error
  | .notList => .error
  | .list l =>
    match addHeaders false HList.init l with
    | none => .error
    | some h =>
      match ct with
      | some (.str ct) =>
        match mimeFromStr ct with
        | none => .undefined
        | some m =>
          match addContentType false h m with
          | none => .undefined
          | some h =>
            match status with
            | .missing => .error
            | .notInt => .error
            | .int n => .reply (Response.typeOfLong n) h ob
      | _ => .error

theorem convert_malformed (maxLen : Int) {o : RespObj} (hm : Malformed o) (hmax : ∀ b, o.body = some (.bytes b) → (b.length : Int) ≤ maxLen)
    (hct : ∀ s, o.contentType = some (.str s) → s ∈ contentTypes)
    (hg : ∀ l n v, o.header = .list l → HdrEntry.dict (some (.str n)) v ∈ l → GoodName n) :
    convert false false maxLen (.response o) = .error := by
  obtain ⟨body, header, ct, status⟩ := o
  simp only at hmax hct hg
  have key : ∀ ob : Option Bytes, (body = some .none ∨ ∃ b, body = some (.bytes b)) → afterBody header ct status ob = .error := by
    intro ob hbody
    cases header with
    | missing => rfl
    | notList => rfl
    | list l =>
      simp only [afterBody]
      cases ha : addHeaders false HList.init l with
      | none => rfl
      | some h =>
        simp only
        split
        · next ct' =>
          have hmem := hct _ rfl
          obtain ⟨h2, e2, _, _⟩ := addIfNo_ok (addHeaders_inv l _ h inv_init (fun n v => hg l n v rfl) ha) (n := b!"Content-Type") ⟨by simp, by decide⟩ ct'
          simp only [mime_ok hmem, addContentType, Bool.false_eq_true, if_false, e2]
          cases status with
          | missing => rfl
          | notInt => rfl
          | int n =>
            rcases hm with h | h | ⟨l', hl, he⟩ | h | h
            · rcases hbody with hb | ⟨b, hb⟩
              · exact absurd hb h.1
              · exact absurd hb (h.2 b)
            · exact absurd rfl (h l)
            · injection hl with hl
              subst hl
              rw [addHeaders_bad false _ _ he] at ha; simp at ha
            · exact absurd rfl (h ct')
            · exact absurd rfl (h n)
        · rfl
  unfold convert
  simp only [Bool.false_eq_true, if_false]
  cases body with
  | none => rfl
  | some pb =>
    cases pb with
    | none => exact key none (Or.inl rfl)
    | bytes b =>
      simp only [takeBody_ok (hmax b rfl)]
      exact key _ (Or.inr ⟨b, rfl⟩)
    | str s => rfl
    | badStr => rfl
    | other => rfl

/-- **C95 (malformed responses).** A response object that is malformed in any way is answered with a 500 without body.
The other parts of the object may be anything within the limit and the table of content types. -/
theorem C95_malformed_is_500 (c : Cfg) (hth : 0 < c.threshold) (hdate : 13 ∉ c.date) {o : RespObj} (hm : Malformed o)
    (hmax : ∀ b, o.body = some (.bytes b) → (b.length : Int) ≤ c.maxLen)
    (hct : ∀ s, o.contentType = some (.str s) → s ∈ contentTypes)
    (hg : ∀ l n v, o.header = .list l → HdrEntry.dict (some (.str n)) v ∈ l → GoodName n) :
    ServerReply c (.response o) false b!"HTTP/1.1 500 Internal Server Error" b!"keep-alive" := by
  obtain ⟨h, h', buf, e1, e2, e3, h4, h5⟩ := server_reply c hth hdate (t := 500) (line := b!"HTTP/1.1 500 Internal Server Error")
    (conn := b!"keep-alive") (by decide +kernel) (by decide) (by decide)
  refine ⟨buf, ?_, h4, h5⟩
  simp only [respond, convert_malformed c.maxLen hm hmax hct hg, e1, e2, e3]

example : Malformed ⟨some (.bytes b!"x"), .list [.dict (some (.str b!"A")) (some (.str b!"1")), .dict (some (.str b!"B")) none], some (.str b!"text/html"), .int 200⟩ :=
  Or.inr (Or.inr (Or.inl ⟨_, rfl, .dict (some (.str b!"B")) none, by simp, by simp⟩))

/-- **C95 (size limit after encoding).** A body whose encoded form is longer than the server can hold is not sent
either: the client receives a 413 without body. -/
theorem C95_encoded_too_long_is_413 (c : Cfg) (hth : 0 < c.threshold) (hdate : 13 ∉ c.date) (hd : c.dflt 413 = none) (body : Bytes)
    (hmax : (body.length : Int) ≤ c.maxLen) {k : Response.Coding} (hlen : c.threshold ≤ body.length) (hk : c.acc.decided = some k) (hid : k ≠ 0)
    (hover : c.overflow (c.compress k body) = true) {r : Ret}
    (hr : r = .value (.str body) ∨ r = .value (.bytes body) ∨
      ∃ code hs ct, (∀ p ∈ hs, Field p) ∧ ct ∈ contentTypes ∧ r = .response (build code hs body ct).obj ∧ 0 ≤ code) :
    ∃ buf, respond c false r = some buf ∧ buf.sendLen = buf.bytes.length ∧
      readResponse buf.bytes = some (b!"HTTP/1.1 413 Payload Too Large",
        [(b!"Server", b!"fly"), (b!"Date", c.date), (b!"Connection", b!"close"), (b!"Content-Length", b!"0")], []) := by
  have hne : body ≠ [] := by rintro rfl; simp at hlen; omega
  -- the 413
  obtain ⟨h1, e1, i1, v1⟩ := addIfNo_ok inv_init (n := b!"Server") ⟨by simp, by decide⟩ b!"fly"
  have v1 : view h1 = [(b!"Server", b!"fly")] := by rw [v1]; simp [view, HList.init]
  obtain ⟨h2, e2, i2, v2⟩ := addIfNo_ok i1 (n := b!"Date") ⟨by simp, by decide⟩ c.date
  have v2 : view h2 = [(b!"Server", b!"fly"), (b!"Date", c.date)] := by rw [v2, v1]; simp
  obtain ⟨i3, v3⟩ := append_ok i2 (n := b!"Connection") ⟨by simp, by decide⟩ b!"close"
  rw [v2] at v3
  obtain ⟨h4, e4, i4, v4⟩ := setLen_ok i3 0
  have v4 : view h4 = [(b!"Server", b!"fly"), (b!"Date", c.date), (b!"Connection", b!"close"), (b!"Content-Length", b!"0")] := by
    rw [v4, v3, setFirst_new _ _ _ (by simp)]; rfl
  have hp : prepareReply c 413 (Header.add h2 b!"Connection" b!"close" false) none = some (.ready .noContent 0 h4) := by
    simp [prepareReply, hd, defaultHeaders, Response.prepare, show ¬ c.threshold ≤ 0 by omega, e4]
  obtain ⟨buf, e5, hlen5, hr5⟩ := serialize_ok (t := 413) (line := b!"HTTP/1.1 413 Payload Too Large") (by decide +kernel) (by decide) i4 (b := .noContent) (bs := []) (by
      rw [v4]; intro p hp
      simp only [List.mem_cons, List.not_mem_nil, or_false] at hp
      rcases hp with rfl | rfl | rfl | rfl
      · exact ⟨by simp, by simp, by simp⟩
      · exact ⟨by simp, by simp, hdate⟩
      · exact ⟨by simp, by simp, by simp⟩
      · exact ⟨by simp, by simp, by simp⟩) rfl (by simp)
  have hs : ∀ st h, send c st h (some body) = some buf := by
    intro st h
    have : prepareReply c (st.getD 0) h (some body) = some .tooLarge := by
      have hid' : ¬ k = Response.identity := hid
      simp [prepareReply, Response.prepare, hlen, hk, hid', hover]
    simp only [send, this, serverHeader, e1, e2, hp]
    exact e5
  refine ⟨buf, ?_, hlen5, by rw [hr5, v4]⟩
  have hb : takeBody c.maxLen body = some (some body) := by rw [takeBody_ok hmax, if_neg hne]
  obtain ⟨h', ec, _, _⟩ := complete_init c.date
  rcases hr with rfl | rfl | ⟨code, hs', ct, hf, hct, rfl, hcode⟩
  · simp only [respond, convert, Bool.false_eq_true, if_false, hb, ec, hs]
  · simp only [respond, convert, hb, ec, hs]
  · obtain ⟨n, rfl⟩ := Int.eq_ofNat_of_zero_le hcode
    obtain ⟨h, e, i, v⟩ := convert_build n (fun p hp => ⟨(hf p hp).1, (hf p hp).2.1⟩) hct (hs := hs') (body := body) hmax
    obtain ⟨h1, ecp, _, _⟩ := complete_ok i c.date v
    rw [if_neg hne] at e
    simp only [respond, e, ecp, hs]

example : (respond { sample with overflow := fun _ => true, threshold := 3 } false (.value (.str b!"hello"))).map (·.bytes) = some
    b!"HTTP/1.1 413 Payload Too Large\r\nServer: fly\r\nDate: Mon, 16 Nov 2026 10:00:00 GMT\r\nConnection: close\r\nContent-Length: 0\r\n\r\n" := by
  decide +kernel

/-- **C95, HTTP/2.** Over HTTP/2 the same failures and bodies are answered by the server, not with the handler's
header list. -/
theorem C95_http2_failure (date : Bytes) (maxLen : Int) (head : Bool) (r : Ret)
    (hr : r = .raised ∨ r = .value .other ∨ r = .value .badStr ∨ ∃ body, maxLen < (body.length : Int) ∧ body ≠ [] ∧ head = false ∧
      (r = .value (.str body) ∨ r = .value (.bytes body) ∨ ∃ o : RespObj, o.body = some (.bytes body) ∧ r = .response o)) :
    headersV2 date maxLen head r = some none := by
  rcases hr with rfl | rfl | rfl | ⟨body, hmax, hpos, rfl, hr⟩
  · rfl
  · rfl
  · rfl
  · have hb : takeBody maxLen body = none := by
      unfold takeBody; rw [if_pos (List.length_pos_iff.2 hpos), if_pos hmax]
    rcases hr with rfl | rfl | ⟨o, ho, rfl⟩
    · simp only [headersV2, convert, Bool.false_eq_true, if_false, hb]
    · simp only [headersV2, convert, hb]
    · simp only [headersV2, convert, Bool.false_eq_true, if_false, ho, hb]

/-- **C94 refuted (HEAD).** A `Response` returned for a HEAD request is always replaced by a 500, whatever it
contains; a text too. -/
theorem C94_head_always_500_refuted (c : Cfg) (hth : 0 < c.threshold) (hdate : 13 ∉ c.date) (r : Ret)
    (hr : (∃ o, r = .response o) ∨ ∃ s, r = .value (.str s)) :
    ServerReply c r true b!"HTTP/1.1 500 Internal Server Error" b!"keep-alive" := by
  obtain ⟨h, h', buf, e1, e2, e3, h4, h5⟩ := server_reply c hth hdate (t := 500) (line := b!"HTTP/1.1 500 Internal Server Error")
    (conn := b!"keep-alive") (by decide +kernel) (by decide) (by decide)
  refine ⟨buf, ?_, h4, h5⟩
  rcases hr with ⟨o, rfl⟩ | ⟨s, rfl⟩ <;> simp only [respond, convert, if_true, e1, e2, e3]

/-- **C94 refuted (HEAD with bytes).** Bytes returned for a HEAD request are sent as for any other method, although the
response to HEAD has no body. -/
theorem C94_head_sends_bytes_refuted (c : Cfg) (b : Bytes) :
    respond c true (.value (.bytes b)) = respond c false (.value (.bytes b)) := rfl

/-- **C94 refuted (constructor).** Header fields given to the constructor of a response are dropped: the object is the
same as without them. -/
theorem C94_constructor_header_dropped_refuted (status : Int) (hs : List (Bytes × Bytes)) (body : Option Bytes) (ct : Bytes) :
    construct status (some hs) body ct = construct status none body ct ∧ (construct status (some hs) body ct).header = [] := ⟨rfl, rfl⟩

/-- **C94 refuted (content type).** Every content type outside the ten names of the table (so every one with a
parameter, every image type, `application/octet-stream`) makes the search run past the end of the table, whatever the
status, fields and body. -/
theorem C94_unknown_content_type_undefined_refuted (c : Cfg) (code : Int) {hs : Pairs} (hg : ∀ p ∈ hs, GoodName p.1) {ct : Bytes}
    (hct : ct ∉ contentTypes) {body : Bytes} (hmax : (body.length : Int) ≤ c.maxLen) :
    respond c false (.response (build code hs body ct).obj) = none := by
  obtain ⟨h, e, i, v⟩ := addHeaders_ok hs HList.init inv_init hg
  have hm : mimeFromStr ct = none := by
    unfold mimeFromStr
    rw [List.find?_eq_none]
    intro m hm hb
    rw [Bool.and_eq_true, beq_iff_eq, beq_iff_eq] at hb
    apply hct
    rw [hb.2]
    exact hm
  rw [build_eq]
  simp only [respond, convert, PyResponse.obj, Bool.false_eq_true, if_false, takeBody_ok hmax, e, hm]

example : b!"image/png" ∉ contentTypes ∧ b!"text/html; charset=utf-8" ∉ contentTypes ∧ b!"application/octet-stream" ∉ contentTypes := by
  decide +kernel

/-- The numbers with a row in the status table. -/
def knownCodes : List Nat :=
  [100, 101, 200, 201, 202, 203, 204, 205, 300, 301, 302, 303, 304, 307, 400, 401, 402, 403, 404, 405, 406, 407, 408, 409, 410, 413, 414, 415,
   416, 417, 426, 500, 501, 502, 503, 504, 505]

theorem unknown_status {code : Nat} (h : code ∉ knownCodes) : Response.typeOfLong code = none := by
  unfold Response.typeOfLong
  rw [Option.map_eq_none_iff, List.find?_eq_none]
  intro r hr hb
  rw [decide_eq_true_eq] at hb
  have : ∀ r ∈ Response.responses, r.1 ∈ knownCodes := by decide +kernel
  exact h (by have := this r hr; have e : r.1 = code := by omega
              rwa [e] at this)

/-- **C94 refuted (status).** Every status number without a row in the table (206, 308, 411, 422, 429, 451, …) is
received as `-1 (null)` over HTTP/1.1, and over HTTP/2 the length of a NULL text is taken. -/
theorem C94_unknown_status_refuted (c : Cfg) {code : Nat} (hcode : code ∉ knownCodes) {ct : Bytes} (hct : ct ∈ contentTypes) {body : Bytes}
    (hmax : (body.length : Int) ≤ c.maxLen) (hth : body.length < c.threshold) (hdate : 13 ∉ c.date) (henc : ∀ k, 13 ∉ c.encName k)
    (hover : ∀ k, c.overflow (c.compress k body) = false) (hd : ∀ t, c.dflt t = none) :
    (∃ buf fs, respond c false (.response (build code [] body ct).obj) = some buf ∧
      readResponse buf.bytes = some (b!"HTTP/1.1 -1 (null)", fs, body)) ∧
    headersV2 c.date c.maxLen false (.response (build code [] body ct).obj) = none := by
  have hu := unknown_status hcode
  constructor
  · obtain ⟨h, ec, i, v⟩ := convert_build code (hs := []) (by simp) hct (body := body) hmax
    obtain ⟨h1, ecp, i1, v1⟩ := complete_ok i c.date v
    have hl : Response.statusLine .v1_1 0 = some (b!"HTTP/1.1 -1 (null)" ++ [13, 10]) := by decide +kernel
    obtain ⟨buf, len, e, hlen, hr, hrd⟩ := send_ok c hl (by decide) i1 (by rw [v1]; exact has_ct _ _ _)
      (by rw [v1]; exact fields_clean (by simp) (ct_clean hct) hdate) (body := body) (by omega) henc hover (fun _ => Or.inr (hd _))
    have ho : outBody c body = body := by simp only [outBody, codingOf, if_neg (show ¬ c.threshold ≤ body.length by omega)]
    rw [ho] at hr
    refine ⟨buf, _, ?_, hr⟩
    simp only [respond, ec, ecp, hu]
    exact e
  · rw [build_eq]
    simp only [headersV2, convert, PyResponse.obj, Bool.false_eq_true, if_false, takeBody_ok hmax, List.map_nil, addHeaders, mime_ok hct, addContentType,
      if_true, hu, statusPseudo, Option.map_none]

example : 429 ∉ knownCodes ∧ 206 ∉ knownCodes := by decide

/-- **C94 refuted (empty name).** A field with an empty name makes the server compare a NULL pointer: undefined, for
every value, status, type and body. -/
theorem C94_empty_field_name_undefined_refuted (c : Cfg) (code : Int) (v : Bytes) {hs : Pairs} {ct : Bytes} (hct : ct ∈ contentTypes) {body : Bytes}
    (hmax : (body.length : Int) ≤ c.maxLen) :
    respond c false (.response (build code (([], v) :: hs) body ct).obj) = none := by
  have hadd : ∀ (hs : Pairs) (f : Header.HField) (h : HList), h.items.head? = some f → ∃ h', addHeaders false h
      (hs.map fun p => .dict (some (.str p.1)) (some (.str p.2))) = some h' ∧ h'.items.head? = some f := by
    intro hs f
    induction hs with
    | nil => intro h hh; exact ⟨h, rfl, hh⟩
    | cons p hs ih =>
      intro h hh
      rw [List.map_cons, addHeaders]
      apply ih
      obtain ⟨x, l, hx⟩ := List.exists_cons_of_ne_nil (l := h.items) (by intro e; rw [e] at hh; simp at hh)
      rw [hx] at hh
      simp only [Header.add, Bool.false_eq_true, if_false, hx]
      exact hh
  rw [build_eq]
  obtain ⟨h', e, hh⟩ := hadd hs (Header.mkField [] v) (Header.add HList.init [] v false) rfl
  have e : addHeaders false HList.init ((([], v) :: hs).map fun p => .dict (some (.str p.1)) (some (.str p.2))) = some h' := e
  have hno : Header.addIfNo h' b!"Content-Type" ct = none := by
    obtain ⟨x, l, hx⟩ := List.exists_cons_of_ne_nil (l := h'.items) (by intro e; rw [e] at hh; simp at hh)
    rw [hx] at hh
    have hh : x = Header.mkField [] v := Option.some.inj hh
    unfold Header.addIfNo
    rw [hx, hh]
    simp [Header.findStr, Header.mkField, Header.strEq]
  simp only [respond, convert, PyResponse.obj, Bool.false_eq_true, if_false, takeBody_ok hmax, e, mime_ok hct, addContentType, hno]

/-- **C94 refuted (empty JSON).** An empty list or object is sent as an empty body, which is no JSON text, whatever its
JSON form is. -/
theorem C94_empty_json_refuted (status : Int) (dumps : Bytes) : (jsonResponse status dumps 0).body = [] := rfl

/-! ## C96 — default content -/

/-- **C96 refuted.** Content configured for a status is never sent over HTTP/1.1: the response to a handler that
raises has an empty body and Content-Length 0, whatever is configured. -/
theorem C96_default_content_never_sent_refuted (c : Cfg) (hth : 0 < c.threshold) (hdate : 13 ∉ c.date) (content mime : Bytes)
    (_hd : c.dflt 500 = some (content, mime)) :
    ServerReply c .raised false b!"HTTP/1.1 500 Internal Server Error" b!"keep-alive" :=
  C95_failure_is_500 c hth hdate false .raised (Or.inl rfl)

/-! ## HTTP/2 -/

theorem addHeadersV2_ok : ∀ (hs : Pairs) (h : HList), Inv h → (∀ p ∈ hs, GoodName p.1) →
    ∃ h', addHeaders true h (hs.map fun p => .dict (some (.str p.1)) (some (.str p.2))) = some h' ∧ Inv h' ∧
      view h' = view h ++ hs.map fun p => (p.1.map Header.lower, p.2)
  | [], h, hi, _ => ⟨h, rfl, hi, by simp⟩
  | p :: hs, h, hi, hg => by
    have hgp := hg p (by simp)
    have hlow : GoodName (p.1.map Header.lower) := by
      refine ⟨by simpa using hgp.1, ?_⟩
      intro hm
      obtain ⟨x, hx, e⟩ := List.mem_map.1 hm
      unfold Header.lower at e
      split at e
      · omega
      · subst e; exact hgp.2 hx
    obtain ⟨i1, v1⟩ := append_ok hi hlow p.2
    obtain ⟨h', e, i, v⟩ := addHeadersV2_ok hs _ i1 (fun q hq => hg q (by simp [hq]))
    refine ⟨h', ?_, i, ?_⟩
    · rw [List.map_cons, addHeaders]; simpa using e
    · rw [v, v1]; simp

theorem addVerIfNo_ok {h : HList} (hi : Inv h) {n : Bytes} (hn : GoodName n) (v : Bytes) :
    Inv (Header.addVerIfNo h n v) ∧ view (Header.addVerIfNo h n v) = if n ∈ (view h).map (·.1) then view h else view h ++ [(n, v)] := by
  obtain ⟨h', e, i, vw⟩ := Header.step_ok hi (.addVerIfNo n v) hn
  have e : Header.addVerIfNo h n v = h' := Option.some.inj e
  rw [e]; exact ⟨i, vw⟩

/-- A field name in lower case. -/
def lowerName (n : Bytes) : Bytes := n.map fun b => if 65 ≤ b ∧ b ≤ 90 then b + 32 else b

/-- **C94, HTTP/2 (partial).** Over HTTP/2 the header list of a `Response` is `:status` with its code, then the handler's
fields in order with lower-case names, then the type, date and server fields it did not set.  Missing: as above. -/
theorem C94_http2_fields_partial (date : Bytes) (maxLen : Int) {code : Nat} {reason : Bytes} (hst : (code, reason) ∈ statuses) {hs : Pairs}
    (hf : ∀ p ∈ hs, p.1 ≠ [] ∧ 0 ∉ p.1) {ct : Bytes} (hct : ct ∈ contentTypes) {body : Bytes} (hmax : (body.length : Int) ≤ maxLen) :
    ∃ h, headersV2 date maxLen false (.response (build code hs body ct).obj) = some (some h) ∧
      view h = (b!":status", threeDigits code) :: (hs.map fun p => (lowerName p.1, p.2)) ++
        missing (hs.map fun p => (lowerName p.1, p.2)) [(b!"content-type", ct), (b!"date", date), (b!"server", b!"fly")] := by
  obtain ⟨ht, hl, h13⟩ := status_ok hst
  have hcode : Response.codeOfType code = some code ∧ Response.decimal code = threeDigits code := by
    have : ∀ p ∈ statuses, Response.codeOfType p.1 = some p.1 ∧ Response.decimal p.1 = threeDigits p.1 := by decide +kernel
    exact this _ hst
  obtain ⟨h, e, i, v⟩ := addHeadersV2_ok hs HList.init inv_init hf
  have v : view h = hs.map fun p => (lowerName p.1, p.2) := v
  generalize hls : (hs.map fun p => (lowerName p.1, p.2)) = ls at v ⊢
  obtain ⟨i1, v1⟩ := addVerIfNo_ok i (n := b!"content-type") ⟨by simp, by decide⟩ ct
  obtain ⟨i2, v2⟩ := addVerIfNo_ok i1 (n := b!"date") ⟨by simp, by decide⟩ date
  obtain ⟨i3, v3⟩ := addVerIfNo_ok i2 (n := b!"server") ⟨by simp, by decide⟩ b!"fly"
  obtain ⟨i4, v4⟩ := addVerIfNo_ok i3 (n := b!"content-type") ⟨by simp, by decide⟩ b!"text/plain"
  obtain ⟨_, v5⟩ := Header.add_ok i4 (n := b!":status") ⟨by simp, by decide⟩ (Response.decimal code) true
  refine ⟨Header.add (completeV2 date (Header.addVerIfNo h b!"content-type" ct)) b!":status" (Response.decimal code) true, ?_, ?_⟩
  · rw [build_eq]
    simp only [headersV2, convert, PyResponse.obj, Bool.false_eq_true, if_false, takeBody_ok hmax, e, mime_ok hct, addContentType,
      if_true, ht, statusPseudo, hcode.1, Option.map_some]
  · show view (Header.add _ _ _ true) = _
    unfold completeV2
    rw [v5, if_pos rfl, hcode.2, List.cons_append]
    congr 1
    have m1 : ∀ n, n ∈ (view (Header.addVerIfNo h b!"content-type" ct)).map (·.1) ↔ n ∈ ls.map (·.1) ∨ n = b!"content-type" := by
      intro n
      rw [v1, v]
      by_cases hc : b!"content-type" ∈ ls.map (·.1)
      · rw [if_pos hc]
        constructor
        · exact Or.inl
        · rintro (h | rfl)
          · exact h
          · exact hc
      · rw [if_neg hc, List.map_append, List.mem_append]; simp
    have d1 : ¬ (b!"date" = b!"content-type") := by decide
    have d2 : ¬ (b!"server" = b!"content-type") := by decide
    have d3 : ¬ (b!"server" = b!"date") := by decide
    have hd : b!"date" ∈ (view (Header.addVerIfNo h b!"content-type" ct)).map (·.1) ↔ b!"date" ∈ ls.map (·.1) := by rw [m1]; simp [d1]
    have m2 : ∀ n, n ∈ (view (Header.addVerIfNo (Header.addVerIfNo h b!"content-type" ct) b!"date" date)).map (·.1) ↔
        n ∈ ls.map (·.1) ∨ n = b!"content-type" ∨ n = b!"date" := by
      intro n
      rw [v2]
      by_cases hc : b!"date" ∈ ls.map (·.1)
      · rw [if_pos (hd.2 hc), m1]
        constructor
        · rintro (h | h)
          · exact Or.inl h
          · exact Or.inr (Or.inl h)
        · rintro (h | h | rfl)
          · exact Or.inl h
          · exact Or.inr h
          · exact Or.inl hc
      · rw [if_neg (fun h => hc (hd.1 h)), List.map_append, List.mem_append, m1]
        simp [or_assoc]
    have hsv : b!"server" ∈ (view (Header.addVerIfNo (Header.addVerIfNo h b!"content-type" ct) b!"date" date)).map (·.1) ↔
        b!"server" ∈ ls.map (·.1) := by rw [m2]; simp [d2, d3]
    have m3 : b!"content-type" ∈ (view (Header.addVerIfNo (Header.addVerIfNo (Header.addVerIfNo h b!"content-type" ct) b!"date" date)
        b!"server" b!"fly")).map (·.1) := by
      rw [v3]
      have h0 := (m2 b!"content-type").2 (Or.inr (Or.inl rfl))
      split
      · exact h0
      · rw [List.map_append, List.mem_append]; exact Or.inl h0
    rw [v4, if_pos m3, v3]
    simp only [hsv]
    rw [v2]
    simp only [hd]
    rw [v1, v, missing_cons, missing_cons, missing_cons]
    by_cases h1 : b!"content-type" ∈ ls.map (·.1) <;> by_cases h2 : b!"date" ∈ ls.map (·.1) <;> by_cases h3 : b!"server" ∈ ls.map (·.1) <;>
      simp only [h1, h2, h3, if_true, if_false, missing, List.filter_nil, List.append_nil, List.nil_append, List.append_assoc] <;> rfl

example : (headersV2 sample.date sample.maxLen false (.response (build 302 [(b!"Location", b!"/x")] [] b!"text/html").obj)).map (·.map view) =
    some (some [(b!":status", b!"302"), (b!"location", b!"/x"), (b!"content-type", b!"text/html"), (b!"date", sample.date), (b!"server", b!"fly")]) := by
  decide +kernel

end Fly.PyBridge
