import Verif.H2Request.Lemmas
import Verif.Nego.Lemmas
import Verif.Request.Props
import Verif.ReqHeader.Spec

/-! # HTTP/2 requests: C100 understood, C101 harmless, C102 encoded bodies, C103 the same answer as over HTTP/1 -/

namespace Fly.H2R

open Header (HField)
open _root_.Fly.Nego (Agreeable Says)
open Req (Method methodName queryText target2 matchMethodName)

/-! ## C100 — well-formed requests are understood, others refused -/

theorem answer_well_formed (e : ReqEvent.Env) (ssl : Bool) (cells : List HField) (fs : List Field) (m : Method) (https : Bool)
    (p : Bytes) (q : Option Bytes) (body : Option Bytes) (hh : Holds cells fs) (hw : WellFormed fs m https (p ++ queryText q))
    (hp : PlainPath p) (hq : PlainQuery q) :
    requestLine ssl cells = .ok m b!"http" (p ++ queryText q) ∧
    answer e ⟨ssl, cells, body, true⟩ = .status 413 ∧
    (∀ w, Says fs w → ¬ w.Met → answer e ⟨ssl, cells, body, false⟩ = .status 406) ∧
    (Agreeable fs → answer e ⟨ssl, cells, body, false⟩ =
      (match bodyStep cells body with
       | .undef => .undef
       | .lost => .lost
       | .ok b => choose e ⟨m, b!"http", p, q, cells, b⟩)) := by
  obtain ⟨ps, rs, rfl, hps, hrs⟩ := hw
  obtain ⟨h1, ⟨v1, h2⟩, ⟨v2, h3⟩, h4⟩ := pseudo_mem hps
  have hne : p ++ queryText q ≠ [] := by
    intro e
    have := hp.1
    rw [(List.append_eq_nil_iff.1 e).1] at this
    simp at this
  have hl := requestLine_fields m (p ++ queryText q) hne ssl cells (ps ++ rs) hh
    (by
      intro x hx
      rcases List.mem_append.1 hx with h | h
      · exact h1 x h
      · exact Or.inl (hrs x h))
    ⟨v1, List.mem_append_left _ h2⟩ ⟨v2, List.mem_append_left _ h3⟩ ⟨_, List.mem_append_left _ h4⟩
  have ht := Req.C68_http2_path_split_partial m p q hp.1 hp.2 hq
  refine ⟨hl, ?_, ?_, ?_⟩
  · simp only [answer, hl, ht, if_true]
  · intro w hw hm
    simp only [answer, hl, ht, (_root_.Fly.Nego.nego_says hh hw).2 hm]
    rfl
  · intro ha
    simp only [answer, hl, ht, _root_.Fly.Nego.nego_agreeable hh ha]
    rfl

/-- **C100 (partial).** A well-formed HTTP/2 request (pseudo-header fields in any order, with or without `:authority`, then any
regular fields that do not describe a content type or coding and do not refuse every form of the response) for a path and method that a route has: the
application function is called once, with exactly the method, path, query, header fields and body sent.
Missing: the scheme (`C100_https_seen_as_http_refuted`), percent-encoded targets (C68), fields that describe the body
(C101, C102), and the refusal of malformed requests (below). -/
theorem C100_request_understood_partial (e : ReqEvent.Env) (ssl : Bool) (cells : List HField) (fs : List Field) (m : Method)
    (https : Bool) (p : Bytes) (q : Option Bytes) (body : Option Bytes) (k : Nat) (hh : Holds cells fs)
    (hw : WellFormed fs m https (p ++ queryText q)) (hp : PlainPath p) (hq : PlainQuery q)
    (ha : Agreeable fs)
    (hf : ∀ f ∈ fs, Named f ∧ NoContent f) (hr : e.route p m = some k) :
    ∃ s, answer e ⟨ssl, cells, body, false⟩ = .handler k ⟨m, s, p, q, cells, body.map .bytes⟩ := by
  refine ⟨b!"http", ?_⟩
  rw [(answer_well_formed e ssl cells fs m https p q body hh hw hp hq).2.2.2 ha,
    body_plain cells fs hh hf]
  simp only [choose, hr]

/-- **C100 (size limit).** A well-formed request whose body was too large is answered with 413 whatever it asks for. -/
theorem C100_discarded_is_413_partial (e : ReqEvent.Env) (ssl : Bool) (cells : List HField) (fs : List Field) (m : Method)
    (https : Bool) (p : Bytes) (q : Option Bytes) (body : Option Bytes) (hh : Holds cells fs)
    (hw : WellFormed fs m https (p ++ queryText q)) (hp : PlainPath p) (hq : PlainQuery q) :
    answer e ⟨ssl, cells, body, true⟩ = .status 413 :=
  (answer_well_formed e ssl cells fs m https p q body hh hw hp hq).2.1

/-- An environment with one route, `GET /a`. -/
def env1 : ReqEvent.Env := ⟨1000, fun _ => .ok, fun p m => if p = b!"/a" ∧ m = .get then some 7 else none, fun _ _ => none⟩

example : WellFormed [(b!":method", b!"GET"), (b!":path", b!"/a?x=1"), (b!":scheme", b!"https"), (b!"user-agent", b!"u")] .get true
    (b!"/a" ++ queryText (some b!"x=1")) := by
  refine ⟨[(b!":method", b!"GET"), (b!":path", b!"/a?x=1"), (b!":scheme", b!"https")], [(b!"user-agent", b!"u")], rfl, Or.inl ?_, ?_⟩
  · exact List.Perm.cons _ (List.Perm.swap _ _ _)
  · intro f hf; simp only [List.mem_singleton] at hf; subst hf; simp [Regular]

example : answer env1 ⟨true, [⟨some b!":method", some b!"GET"⟩, ⟨some b!":path", some b!"/a?x=1"⟩, ⟨some b!":scheme", some b!"https"⟩,
      ⟨some b!"user-agent", some b!"u"⟩], none, false⟩ =
    .handler 7 ⟨.get, b!"http", b!"/a", some b!"x=1", [⟨some b!":method", some b!"GET"⟩, ⟨some b!":path", some b!"/a?x=1"⟩,
      ⟨some b!":scheme", some b!"https"⟩, ⟨some b!"user-agent", some b!"u"⟩], none⟩ := by decide +kernel

/-- **C100 refuted (scheme).** No handler is ever told that an HTTP/2 request came with the scheme `https`: if a
request has a `:scheme` field at all, the scheme seen is `http`. -/
theorem C100_https_seen_as_http_refuted (e : ReqEvent.Env) (r : Request) (k : Nat) (s : Seen) (f : HField) (hf : f ∈ r.fields)
    (hn : f.name = some b!":scheme") (h : answer e r = .handler k s) : s.scheme = b!"http" := by
  have hm : ∀ v x, matchScheme v = some x → x = b!"http" := by
    intro v x hx
    have h1 := List.find?_some hx
    have h2 := List.mem_of_find?_eq_some hx
    simp only [List.mem_cons, List.not_mem_nil, or_false] at h2
    rcases h2 with rfl | rfl
    · rfl
    · exfalso
      have h3 : b!"http" <+: v := List.IsPrefix.trans ⟨b!"s", rfl⟩ (List.isPrefixOf_iff_prefix.1 h1)
      rw [matchScheme, List.find?_cons_of_pos (by simpa using h3)] at hx
      exact absurd hx (by decide)
  have keep : ∀ l f l', fieldStep l f = .next l' → l'.scheme = l.scheme ∨ l'.scheme = some b!"http" := by
    intro l f l' h
    rw [fieldStep] at h
    split at h
    · split at h
      · cases h
      · split at h
        · cases h
        · simp only [Step.next.injEq] at h; subst h; exact Or.inl rfl
      · split at h
        · cases h
        · split at h
          · cases h
          · rename_i x hx
            simp only [Step.next.injEq] at h; subst h
            exact Or.inr (by rw [hm _ _ hx])
      · simp only [Step.next.injEq] at h; subst h; exact Or.inl rfl
      · simp only [Step.next.injEq] at h; subst h; exact Or.inl rfl
    · simp only [Step.next.injEq] at h; subst h; exact Or.inl rfl
  have set : ∀ l l', fieldStep l f = .next l' → l'.scheme = some b!"http" := by
    intro l l' h
    obtain ⟨n, v⟩ := f
    simp only at hn; subst hn
    cases v with
    | none => exact absurd h (by intro h; cases h)
    | some v =>
      have e : fieldStep l ⟨some b!":scheme", some v⟩ =
        (match matchScheme v with | none => .bad | some s => .next { l with scheme := some s }) := rfl
      rw [e] at h
      split at h
      · cases h
      · rename_i x hx
        simp only [Step.next.injEq] at h; subst h
        rw [hm _ _ hx]
  have loop : ∀ fs l l', (f ∈ fs ∨ l.scheme = some b!"http") → lineLoop l fs = .next l' → l'.scheme = some b!"http" := by
    intro fs
    induction fs with
    | nil =>
      intro l l' h1 h2
      simp only [lineLoop, Step.next.injEq] at h2
      subst h2
      rcases h1 with h1 | h1
      · cases h1
      · exact h1
    | cons g fs ih =>
      intro l l' h1 h2
      rw [lineLoop] at h2
      split at h2
      · rename_i l1 hl1
        refine ih _ _ ?_ h2
        rcases h1 with h1 | h1
        · rcases List.mem_cons.1 h1 with rfl | h1
          · exact Or.inr (set _ _ hl1)
          · exact Or.inl h1
        · right
          rcases keep _ _ _ hl1 with h | h
          · rw [h, h1]
          · exact h
      · cases h2
      · cases h2
  rw [answer] at h
  split at h
  · cases h
  · cases h
  · rename_i m sc u hl
    have hs : sc = b!"http" := by
      rw [requestLine] at hl
      split at hl
      · cases hl
      · cases hl
      · rename_i l hl2
        have := loop _ _ _ (Or.inl hf) hl2
        split at hl
        · rename_i e1 e2 e3
          simp only [LineRes.ok.injEq] at hl
          rw [this] at e3
          simp only [Option.some.injEq] at e3
          rw [← hl.2.1, e3]
        · cases hl
    split at h
    · cases h
    · cases h
    · split at h
      · cases h
      · split at h
        · cases h
        · cases h
        · cases h
        · split at h
          · cases h
          · cases h
          · rw [choose] at h
            split at h
            · simp only [Out.handler.injEq] at h
              rw [← h.2]; exact hs
            · split at h
              · cases h
              · split at h
                · cases h
                · split at h <;> cases h

/-! ### What is refused -/

theorem loop_bad {f : HField} (hb : ∀ l, fieldStep l f = .bad) : ∀ (fs : List HField) (l : Line),
    (∀ g ∈ fs, ∀ l, fieldStep l g ≠ .undef) → f ∈ fs → lineLoop l fs = .bad := by
  intro fs
  induction fs with
  | nil => intro _ _ h; cases h
  | cons g fs ih =>
    intro l hu hf
    rw [lineLoop]
    rcases List.mem_cons.1 hf with rfl | hf
    · rw [hb]
    · split
      · exact ih _ (fun g hg => hu g (by simp [hg])) hf
      · rfl
      · rename_i h; exact absurd h (hu g (by simp) l)

/-- A cell for `:scheme` has a value: `C101_empty_scheme_refuted` for the others. -/
def SchemeValue (f : HField) : Prop := b!":scheme" <+: f.name.getD [] → f.value ≠ none

theorem step_no_undef {f : HField} (h : SchemeValue f) (l : Line) : fieldStep l f ≠ .undef := by
  rw [fieldStep]
  split
  · split
    · simp
    · split <;> simp
    · rename_i x hx
      split
      · rename_i hv
        have h1 := List.find?_some hx
        have h2 := List.mem_of_find?_eq_some hx
        simp only [pseudoTable, List.mem_cons, List.not_mem_nil, or_false, Prod.mk.injEq] at h2
        have h3 : x = b!":scheme" := by
          rcases h2 with ⟨_, h⟩ | ⟨h, _⟩ | ⟨_, h⟩ | ⟨_, h⟩
          · cases h
          · exact h
          · cases h
          · cases h
        rw [h3] at h1
        exact absurd hv (h (List.isPrefixOf_iff_prefix.1 h1))
      · split <;> simp
    · simp
    · simp
  · simp

/-- A pseudo-header field the RFC does not know, a `:method` whose value does not begin with a method's name, or a
`:scheme` whose value does not begin with `http`. -/
def Offending (f : HField) : Prop :=
  (∃ n, f.name = some n ∧ n.head? = some 58 ∧ ∀ x ∈ [b!":method", b!":scheme", b!":authority", b!":path"], ¬ x <+: n) ∨
  (f.name = some b!":method" ∧ ∀ m, ¬ methodName m <+: f.value.getD []) ∨
  (f.name = some b!":scheme" ∧ ∃ v, f.value = some v ∧ ¬ b!"http" <+: v)

theorem offending_bad {f : HField} (h : Offending f) (l : Line) : fieldStep l f = .bad := by
  obtain ⟨n, v⟩ := f
  rcases h with ⟨n', h1, h2, h3⟩ | ⟨h1, h2⟩ | ⟨h1, v', h2, h3⟩
  · simp only at h1; subst h1
    have : pseudoTable.find? (fun p => p.1.isPrefixOf n') = none := by
      rw [List.find?_eq_none]
      intro x hx
      simp only [pseudoTable, List.mem_cons, List.not_mem_nil, or_false] at hx
      rw [List.isPrefixOf_iff_prefix]
      rcases hx with rfl | rfl | rfl | rfl
      · exact h3 _ (by simp)
      · exact h3 _ (by simp)
      · exact h3 _ (by simp)
      · exact h3 _ (by simp)
    rw [fieldStep]
    simp only [isPseudo, Option.getD_some, h2, beq_self_eq_true, if_true, this]
  · simp only at h1; subst h1
    have e : fieldStep l ⟨some b!":method", v⟩ =
      (match v.bind matchMethodName with | none => .bad | some m => .next { l with method := some m }) := rfl
    rw [e]
    have : v.bind matchMethodName = none := by
      cases v with
      | none => rfl
      | some v =>
        simp only [Option.bind_some, matchMethodName, Option.map_eq_none_iff]
        rw [List.find?_eq_none]
        intro x hx hc
        have := h2 x.2
        rw [← Req.table_method x hx] at this
        exact this (List.isPrefixOf_iff_prefix.1 hc)
    rw [this]
  · simp only at h1 h2; subst h1 h2
    have e : fieldStep l ⟨some b!":scheme", some v'⟩ =
      (match matchScheme v' with | none => .bad | some s => .next { l with scheme := some s }) := rfl
    rw [e]
    have : matchScheme v' = none := by
      rw [matchScheme, List.find?_eq_none]
      intro x hx hc
      simp only [List.mem_cons, List.not_mem_nil, or_false] at hx
      have hc := List.isPrefixOf_iff_prefix.1 hc
      rcases hx with rfl | rfl
      · exact h3 hc
      · exact h3 (List.IsPrefix.trans ⟨b!"s", rfl⟩ hc)
    rw [this]

/-- **C100 (partial, refusal).** A request with an unknown pseudo-header field, an unknown method or a scheme other than http(s) is
answered with 400, whatever else it holds. -/
theorem C100_unknown_refused_partial (e : ReqEvent.Env) (r : Request) (f : HField) (hf : f ∈ r.fields) (ho : Offending f)
    (hs : ∀ g ∈ r.fields, SchemeValue g) : answer e r = .status 400 := by
  have h := loop_bad (offending_bad ho) r.fields (lineInit r.ssl) (fun g hg l => step_no_undef (hs g hg) l) hf
  have : requestLine r.ssl r.fields = .bad := by rw [requestLine, h]
  simp only [answer, this]

example : answer env1 ⟨true, [⟨some b!":method", some b!"GET"⟩, ⟨some b!":path", some b!"/a"⟩, ⟨some b!":protocol", some b!"websocket"⟩,
    ⟨some b!":scheme", some b!"https"⟩], none, false⟩ = .status 400 := by decide +kernel

theorem loop_keeps {α : Type} (get : Line → α) (P : HField → Prop) (h : ∀ f l l', P f → fieldStep l f = .next l' → get l' = get l) :
    ∀ (fs : List HField) (l l' : Line), (∀ f ∈ fs, P f) → lineLoop l fs = .next l' → get l' = get l := by
  intro fs
  induction fs with
  | nil => intro l l' _ h2; simp only [lineLoop, Step.next.injEq] at h2; rw [h2]
  | cons f fs ih =>
    intro l l' h1 h2
    rw [lineLoop] at h2
    split at h2
    · rename_i l1 hl
      rw [ih _ _ (fun g hg => h1 g (by simp [hg])) h2, h f l l1 (h1 f (by simp)) hl]
    · cases h2
    · cases h2

theorem keeps_method (f : HField) (l l' : Line) (hf : ¬ b!":method" <+: f.name.getD []) (h : fieldStep l f = .next l') :
    l'.method = l.method := by
  rw [fieldStep] at h
  split at h
  · split at h
    · cases h
    · rename_i x hx
      have h1 := List.find?_some hx
      have h2 := List.mem_of_find?_eq_some hx
      simp only [pseudoTable, List.mem_cons, List.not_mem_nil, or_false, Prod.mk.injEq] at h2
      have h3 : x = b!":method" := by
        rcases h2 with ⟨h, _⟩ | ⟨_, h⟩ | ⟨_, h⟩ | ⟨_, h⟩
        · exact h
        · cases h
        · cases h
        · cases h
      rw [h3] at h1
      exact absurd (List.isPrefixOf_iff_prefix.1 h1) hf
    · split at h
      · cases h
      · split at h
        · cases h
        · simp only [Step.next.injEq] at h; subst h; rfl
    · simp only [Step.next.injEq] at h; subst h; rfl
    · simp only [Step.next.injEq] at h; subst h; rfl
  · simp only [Step.next.injEq] at h; subst h; rfl

theorem keeps_uri (f : HField) (l l' : Line) (hf : ¬ b!":path" <+: f.name.getD []) (h : fieldStep l f = .next l') :
    l'.uri = l.uri := by
  rw [fieldStep] at h
  split at h
  · split at h
    · cases h
    · split at h
      · cases h
      · simp only [Step.next.injEq] at h; subst h; rfl
    · split at h
      · cases h
      · split at h
        · cases h
        · simp only [Step.next.injEq] at h; subst h; rfl
    · simp only [Step.next.injEq] at h; subst h; rfl
    · rename_i x hx
      have h1 := List.find?_some hx
      have h2 := List.mem_of_find?_eq_some hx
      simp only [pseudoTable, List.mem_cons, List.not_mem_nil, or_false, Prod.mk.injEq] at h2
      have h3 : x = b!":path" := by
        rcases h2 with ⟨_, h⟩ | ⟨_, h⟩ | ⟨_, h⟩ | ⟨h, _⟩
        · cases h
        · cases h
        · cases h
        · exact h
      rw [h3] at h1
      exact absurd (List.isPrefixOf_iff_prefix.1 h1) hf
  · simp only [Step.next.injEq] at h; subst h; rfl

/-- **C100 (partial, refusal).** A request without method or without path is answered with 400. -/
theorem C100_incomplete_refused_partial (e : ReqEvent.Env) (r : Request) (hs : ∀ g ∈ r.fields, SchemeValue g)
    (h : (∀ f ∈ r.fields, ¬ b!":method" <+: f.name.getD []) ∨ (∀ f ∈ r.fields, ¬ b!":path" <+: f.name.getD [])) :
    answer e r = .status 400 := by
  have nu : ∀ (fs : List HField) (l : Line), (∀ g ∈ fs, SchemeValue g) → lineLoop l fs ≠ .undef := by
    intro fs
    induction fs with
    | nil => intro l _; simp [lineLoop]
    | cons g fs ih =>
      intro l h
      rw [lineLoop]
      split
      · exact ih _ fun x hx => h x (by simp [hx])
      · simp
      · rename_i hu; exact absurd hu (step_no_undef (h g (by simp)) l)
  have : requestLine r.ssl r.fields = .bad := by
    rw [requestLine]
    split
    · rfl
    · rename_i hu; exact absurd hu (nu _ _ hs)
    · rename_i l hl
      rcases h with h | h
      · have := loop_keeps Line.method (fun f => ¬ b!":method" <+: f.name.getD []) keeps_method _ _ _ h hl
        simp only [lineInit] at this
        rw [this]
        split
        · rename_i h2 _; cases h2
        · rfl
      · have := loop_keeps Line.uri (fun f => ¬ b!":path" <+: f.name.getD []) keeps_uri _ _ _ h hl
        simp only [lineInit] at this
        rw [this]
  simp only [answer, this]

example : answer env1 ⟨true, [⟨some b!":path", some b!"/a"⟩, ⟨some b!":scheme", some b!"https"⟩], none, false⟩ = .status 400 := by
  decide +kernel

/-! ### What should be refused and is not -/

theorem requestLine_append (ssl : Bool) (a b : List HField) (m : Method) (s u : Bytes) (h : requestLine ssl a = .ok m s u) :
    ∃ l, lineLoop (lineInit ssl) (a ++ b) = lineLoop l b ∧ l.method = some m ∧ l.scheme = some s ∧ l.uri = some u := by
  rw [requestLine] at h
  split at h
  · cases h
  · cases h
  · rename_i l hl
    refine ⟨l, ?_, ?_⟩
    · rw [loop_append, hl]
    · split at h
      · rename_i e1 e2 e3
        simp only [LineRes.ok.injEq] at h
        rw [e1, e2, e3, h.1, h.2.1, h.2.2]
        exact ⟨rfl, rfl, rfl⟩
      · cases h

/-- **C100 refuted (duplicates, prefixes, order).** RFC 9113 8.3: a request with a pseudo-header field twice, with an unknown one or with
one behind regular fields is malformed.  But behind any accepted request, a further field whose name is or begins
with `:path` replaces the target: an intermediary that takes the first one and the server disagree. -/
theorem C100_second_path_wins_refuted (ssl : Bool) (a : List HField) (m : Method) (s u s' t : Bytes)
    (h : requestLine ssl a = .ok m s u) :
    requestLine ssl (a ++ [⟨some (b!":path" ++ s'), some t⟩]) = .ok m s t := by
  obtain ⟨l, h1, h2, h3, h4⟩ := requestLine_append ssl a [⟨some (b!":path" ++ s'), some t⟩] m s u h
  rw [requestLine, h1]
  have : lineLoop l [⟨some (b!":path" ++ s'), some t⟩] = .next { l with uri := some t } := rfl
  rw [this]
  simp only [h2, h3]

/-- **C100 refuted (duplicates).** The same with the method. -/
theorem C100_second_method_wins_refuted (ssl : Bool) (a : List HField) (m m' : Method) (s u s' t : Bytes)
    (h : requestLine ssl a = .ok m s u) :
    requestLine ssl (a ++ [⟨some (b!":method" ++ s'), some (methodName m' ++ t)⟩]) = .ok m' s u := by
  obtain ⟨l, h1, h2, h3, h4⟩ := requestLine_append ssl a [⟨some (b!":method" ++ s'), some (methodName m' ++ t)⟩] m s u h
  rw [requestLine, h1]
  have e : lineLoop l [⟨some (b!":method" ++ s'), some (methodName m' ++ t)⟩] =
    (match (match (some (methodName m' ++ t)).bind matchMethodName with
      | none => Step.bad | some m => .next { l with method := some m }) with
      | .next l => .next l | .bad => .bad | .undef => .undef) := rfl
  rw [e, Option.bind_some, Req.C26_http2_method_prefix_refuted]
  simp only [h3, h4]

example : requestLine true [⟨some b!":method", some b!"GET"⟩, ⟨some b!":path", some b!"/public"⟩, ⟨some b!":scheme", some b!"https"⟩,
    ⟨some b!"user-agent", some b!"u"⟩, ⟨some b!":pathology", some b!"/admin"⟩, ⟨some b!":methodical", some b!"DELETED"⟩] =
    .ok .delete b!"http" b!"/admin" := by decide +kernel

/-- **C100 refuted (missing scheme).** Every accepted request stays accepted when its `:scheme` fields are taken out. -/
theorem C100_missing_scheme_accepted_refuted (m : Method) (t : Bytes) (ssl : Bool) (rs : List HField)
    (hr : ∀ f ∈ rs, isPseudo f = false) :
    requestLine ssl (⟨some b!":method", some (methodName m)⟩ :: ⟨some b!":path", some t⟩ :: rs) =
      .ok m (if ssl then b!"https" else b!"http") t := by
  have h0 : ∀ (fs : List HField) (l : Line), (∀ f ∈ fs, isPseudo f = false) → lineLoop l fs = .next l := by
    intro fs
    induction fs with
    | nil => intro l _; rfl
    | cons f fs ih =>
      intro l h
      rw [lineLoop, fieldStep, h f (by simp)]
      exact ih l fun g hg => h g (by simp [hg])
  have e1 : fieldStep (lineInit ssl) ⟨some b!":method", some (methodName m)⟩ = .next { lineInit ssl with method := some m } := by
    have e : fieldStep (lineInit ssl) ⟨some b!":method", some (methodName m)⟩ =
      (match (some (methodName m)).bind matchMethodName with | none => .bad | some m => .next { lineInit ssl with method := some m }) := rfl
    rw [e, Option.bind_some, matchMethodName_self]
  have e2 : ∀ l, fieldStep l ⟨some b!":path", some t⟩ = .next { l with uri := some t } := fun _ => rfl
  rw [requestLine, lineLoop, e1]
  simp only
  rw [lineLoop, e2]
  simp only
  rw [h0 rs _ hr]
  rfl

/-! ## C101 — no request harms the server -/

/-- **C101 (partial).** No request whose fields have names, say in a form the server understands what the client accepts, if anything, do not describe content
type or coding, and whose `:scheme` has a value leads to undefined behaviour or costs the connection, however malformed it is
otherwise: it is answered. -/
theorem C101_always_answered_partial (e : ReqEvent.Env) (r : Request) (hs : ∀ g ∈ r.fields, SchemeValue g)
    (h : ∀ f ∈ r.fields, Named (f.name.getD [], f.value.getD []) ∧ NoContent (f.name.getD [], f.value.getD []))
    (w : _root_.Fly.Nego.Wish) (hw : Says (r.fields.map fun f => (f.name.getD [], f.value.getD [])) w) : answer e r ≠ .undef ∧ answer e r ≠ .lost := by
  have hn : nego r.fields = .ok ∨ nego r.fields = .notAcceptable :=
    (Classical.em w.Met).imp (_root_.Fly.Nego.nego_says rfl hw).1 (_root_.Fly.Nego.nego_says rfl hw).2
  have hb : bodyStep r.fields r.body = .ok (r.body.map .bytes) := by
    refine body_plain r.fields _ rfl ?_ _
    intro x hx
    obtain ⟨f, hf, rfl⟩ := List.mem_map.1 hx
    exact h f hf
  have hl : requestLine r.ssl r.fields ≠ .undef := by
    intro hu
    rw [requestLine] at hu
    have nu : ∀ (fs : List HField) (l : Line), (∀ g ∈ fs, SchemeValue g) → lineLoop l fs ≠ .undef := by
      intro fs
      induction fs with
      | nil => intro l _; simp [lineLoop]
      | cons g fs ih =>
        intro l h
        rw [lineLoop]
        split
        · exact ih _ fun x hx => h x (by simp [hx])
        · simp
        · rename_i hu; exact absurd hu (step_no_undef (h g (by simp)) l)
    split at hu
    · cases hu
    · rename_i h; exact nu _ _ hs h
    · split at hu <;> cases hu
  have hc : ∀ s, choose e s ≠ .undef ∧ choose e s ≠ .lost := by
    intro s
    rw [choose]
    split
    · simp
    · split
      · simp
      · split
        · simp
        · split <;> simp
  rw [answer]
  split
  · rename_i h; exact absurd h hl
  · simp
  · split
    · rename_i h; exact absurd h (target2_nc _ _)
    · simp
    · split
      · simp
      · rcases hn with hn | hn <;> rw [hn] <;> simp only
        · rw [hb]; exact hc _
        · simp

def sampleOdd : List HField := [⟨some b!":method", some b!"BREW"⟩, ⟨some b!":path", none⟩, ⟨some b!"x", none⟩]

example : (∀ f ∈ sampleOdd, SchemeValue f ∧ Named (f.name.getD [], f.value.getD []) ∧ NoContent (f.name.getD [], f.value.getD [])) ∧
    Says (sampleOdd.map fun f => (f.name.getD [], f.value.getD [])) .nothing := by
  refine ⟨fun f hf => ?_, _root_.Fly.Nego.says_nothing (by decide)⟩
  simp only [sampleOdd, List.mem_cons, List.not_mem_nil, or_false] at hf
  rcases hf with rfl | rfl | rfl <;> simp [SchemeValue, Named, NoContent] <;> decide

/-- **C101 refuted.** A literal `:scheme` with an empty value (a null pointer in the cell) makes the server follow a null
pointer, on any connection and whatever follows. -/
theorem C101_empty_scheme_refuted (e : ReqEvent.Env) (ssl d : Bool) (rs : List HField) (b : Option Bytes) :
    answer e ⟨ssl, ⟨some b!":scheme", none⟩ :: rs, b, d⟩ = .undef := rfl

theorem nego_undef_lang (a : List HField) (fs : List Field) (hh : Holds a fs) (ha : ∀ f ∈ fs, NoAccept f) :
    nego (a ++ [⟨some b!"accept-language", none⟩]) = .undef := by
  have hp : pairs a = fs := hh
  have hpairs : pairs (a ++ [⟨some b!"accept-language", none⟩]) = fs ++ [(b!"accept-language", [])] := by
    rw [← hp]; simp [pairs]
  have e1 : Encode.headerValue (fs ++ [(b!"accept-language", [])]) = none := by
    rw [Encode.headerValue, Option.map_eq_none_iff, List.find?_eq_none]
    intro x hx hc
    simp only [Bool.and_eq_true, List.isPrefixOf_iff_prefix] at hc
    rcases List.mem_append.1 hx with hx | hx
    · exact (ha x hx).1 (List.IsPrefix.trans ⟨b!"-encoding", rfl⟩ hc.2)
    · simp only [List.mem_singleton] at hx; subst hx
      exact absurd hc.2 (by decide)
  have e2 : Mime.headerValue (pairs ((a ++ [(⟨some b!"accept-language", none⟩ : HField)]).filter fun f => f.value.isSome)) = none := by
    rw [Mime.headerValue, Option.map_eq_none_iff, List.find?_eq_none]
    intro x hx hc
    have hx : x ∈ fs := by
      rw [← hp]
      obtain ⟨f, hf, e⟩ := List.mem_map.1 hx
      have hf := List.mem_filter.1 hf
      rcases List.mem_append.1 hf.1 with h | h
      · exact List.mem_map.2 ⟨f, h, e⟩
      · simp only [List.mem_singleton] at h; rw [h] at hf; exact absurd hf.2 (by decide)
    have h1 := ha x hx
    simp only [Bool.and_eq_true, Bool.or_eq_true, beq_iff_eq] at hc
    rcases hc.2 with e | e
    · exact h1.2 e
    · exact h1.1 (e ▸ List.prefix_rfl)
  have e3 : Lang.headerValue Lang.charset (fs ++ [(b!"accept-language", [])]) = none := by
    rw [Lang.headerValue, Option.map_eq_none_iff, List.find?_eq_none]
    intro x hx hc
    simp only [Bool.and_eq_true, beq_iff_eq] at hc
    rcases List.mem_append.1 hx with hx | hx
    · exact (ha x hx).1 (hc.2 ▸ ⟨b!"-charset", rfl⟩)
    · simp only [List.mem_singleton] at hx; subst hx
      exact absurd hc.2 (by decide)
  have e4 : (a ++ [(⟨some b!"accept-language", none⟩ : HField)]).find? (fun f => f.name == some b!"accept-language") =
      some (⟨some b!"accept-language", none⟩ : HField) := by
    have : a.find? (fun f => f.name == some b!"accept-language") = none := by
      rw [List.find?_eq_none]
      intro f hf hc
      simp only [beq_iff_eq] at hc
      have := (ha (f.name.getD [], f.value.getD []) (by rw [← hp]; exact List.mem_map.2 ⟨f, hf, rfl⟩)).1
      rw [hc] at this
      exact this ⟨b!"-language", rfl⟩
    rw [List.find?_append, this]
    rfl
  have a1 : negoEncoding (a ++ [⟨some b!"accept-language", none⟩]) = .ok := by
    rw [negoEncoding, hpairs, Encode.accept, e1]; decide +kernel
  have a2 : negoMime (a ++ [⟨some b!"accept-language", none⟩]) = .ok := by rw [negoMime, Mime.accept, e2]
  have a3 : negoCharset (a ++ [⟨some b!"accept-language", none⟩]) = .ok := by
    rw [negoCharset, hpairs, Lang.accept, e3]; rfl
  rw [nego, a1]
  simp only [a2, a3]
  rw [negoLang, e4]

/-- **C101 refuted.** So does a literal `accept-language` with an empty value behind any accepted request without other
Accept fields. -/
theorem C101_empty_accept_language_refuted (e : ReqEvent.Env) (ssl : Bool) (cells : List HField) (fs : List Field) (m : Method)
    (https : Bool) (p : Bytes) (q : Option Bytes) (body : Option Bytes) (hh : Holds cells fs)
    (hw : WellFormed fs m https (p ++ queryText q)) (hp : PlainPath p) (hq : PlainQuery q) (ha : ∀ f ∈ fs, NoAccept f) :
    answer e ⟨ssl, cells ++ [⟨some b!"accept-language", none⟩], body, false⟩ = .undef := by
  have h1 := (answer_well_formed e ssl cells fs m https p q body hh hw hp hq).1
  obtain ⟨l, h2, h3, h4, h5⟩ := requestLine_append ssl cells [⟨some b!"accept-language", none⟩] m _ _ h1
  have h6 : requestLine ssl (cells ++ [⟨some b!"accept-language", none⟩]) = .ok m b!"http" (p ++ queryText q) := by
    rw [requestLine, h2]
    have : lineLoop l [⟨some b!"accept-language", none⟩] = .next l := rfl
    rw [this]
    simp only [h3, h4, h5]
  simp only [answer, h6, Req.C68_http2_path_split_partial m p q hp.1 hp.2 hq, nego_undef_lang cells fs hh ha]
  rfl

/-! ### Bodies -/

/-- Fields with a name that say nothing of the body. -/
def Silent (a : List HField) : Prop := ∀ f ∈ a, Named (f.name.getD [], f.value.getD []) ∧
  NoContent (f.name.getD [], f.value.getD []) ∧ NoLength (f.name.getD [], f.value.getD [])

/-- A `content-length` value that is not zero for the server. -/
def Announces (d : Bytes) : Prop := atoll (Header.cstr d) % 18446744073709551616 ≠ 0

theorem cstr_named {n : Bytes} (h : Named (n, [])) : Header.cstr n = n := by
  rw [Header.cstr]
  apply takeWhile_all
  intro c hc
  simp only [bne_iff_ne, ne_eq]
  rintro rfl
  exact h.2 hc

theorem contentLength_of (a b : List HField) (d : Bytes) (h : Silent a) :
    Header.contentLength ⟨a ++ ⟨some b!"content-length", some d⟩ :: b, (a ++ ⟨some b!"content-length", some d⟩ :: b).length⟩ =
      atoll (Header.cstr d) := by
  rw [Header.contentLength, if_neg (by simp)]
  have : a.find? (fun f => f.value.isSome && ((f.name.getD [] |> Header.cstr) == b!"Content-Length" ||
      (f.name.getD [] |> Header.cstr) == b!"content-length")) = none := by
    rw [List.find?_eq_none]
    intro f hf hc
    have hn : Header.cstr (f.name.getD []) = f.name.getD [] := cstr_named (h f hf).1
    simp only [Bool.and_eq_true, Bool.or_eq_true, beq_iff_eq, hn] at hc
    rcases hc.2 with e | e
    · exact (h f hf).2.2.2 e
    · exact (h f hf).2.2.1 e
  simp only [List.find?_append, this]
  rfl

theorem contentEncoding_skip : ∀ (a b : List HField), Silent a →
    contentEncoding b!"content-encoding" (a ++ b) = contentEncoding b!"content-encoding" b := by
  intro a b
  induction a with
  | nil => intro _; rfl
  | cons f a ih =>
    intro h
    have hf := h f (by simp)
    rw [List.cons_append, contentEncoding]
    cases e : f.name with
    | none => rw [e] at hf; exact absurd rfl hf.1.1
    | some n =>
      rw [e] at hf
      simp only
      rw [cstr_named (n := n) hf.1, if_neg]
      · exact ih fun g hg => h g (by simp [hg])
      · simpa using hf.2.1.2.2

theorem isMultipart_skip : ∀ (a b : List HField), Silent a → Multipart.isMultipart (a ++ b) = Multipart.isMultipart b := by
  intro a b
  induction a with
  | nil => intro _; rfl
  | cons f a ih =>
    intro h
    have hf := h f (by simp)
    rw [List.cons_append, Multipart.isMultipart, if_neg]
    · exact ih fun g hg => h g (by simp [hg])
    · rw [Multipart.isContentType]
      intro hc
      simp only [Bool.and_eq_true, Bool.or_eq_true, beq_iff_eq] at hc
      rcases hc.1 with e | e <;> rw [e] at hf
      · exact hf.2.1.2.1 rfl
      · exact hf.2.1.1 rfl

theorem bodyStep_announced (a b : List HField) (d : Bytes) (body : Option Bytes) (h : Silent a) (hd : Announces d) :
    bodyStep (a ++ ⟨some b!"content-length", some d⟩ :: b) body =
      (match contentEncoding b!"content-encoding" b with
       | none => .undef
       | some none => multipart (a ++ ⟨some b!"content-length", some d⟩ :: b) body
       | some (some v) =>
         match supported v, body with
         | none, _ => .undef
         | some _, none => .undef
         | some c, some _ =>
           match decodeNow c with
           | .ok (some (.bytes x)) => multipart (a ++ ⟨some b!"content-length", some d⟩ :: b) (some x)
           | r => r) := by
  rw [bodyStep, contentLength_of a b d h, if_neg hd, contentEncoding_skip _ _ h]
  rfl

/-- **C101 refuted.** A request that announces a multipart form but ends with its header makes the server follow the null pointer of
the body that never came. -/
theorem C101_form_without_body_refuted (a : List HField) (d tail : Bytes) (h : Silent a) (hd : Announces d) :
    bodyStep (a ++ [⟨some b!"content-length", some d⟩, ⟨some b!"content-type", some (b!"multipart/form-data" ++ tail)⟩]) none = .undef := by
  rw [bodyStep_announced a _ d none h hd]
  have : contentEncoding b!"content-encoding" [⟨some b!"content-type", some (b!"multipart/form-data" ++ tail)⟩] = some none := rfl
  simp only [this]
  have hm : Multipart.isMultipart (a ++ [⟨some b!"content-length", some d⟩,
      ⟨some b!"content-type", some (b!"multipart/form-data" ++ tail)⟩]) = some true := by
    rw [isMultipart_skip _ _ h]
    have e : Multipart.mimeFromStrn (b!"multipart/form-data" ++ tail) = some b!"multipart/form-data" := by
      simp [Multipart.mimeFromStrn, PyBridge.mimes, List.find?]
    have e2 : Multipart.isMultipart [⟨some b!"content-length", some d⟩,
      ⟨some b!"content-type", some (b!"multipart/form-data" ++ tail)⟩] =
      (match Multipart.mimeFromStrn (b!"multipart/form-data" ++ tail) with
      | none => none
      | some m => if m = b!"multipart/form-data" then some true else some false) := rfl
    rw [e2, e]
    rfl
  simp only [multipart, hm]

/-- **C101 refuted.** So does one that announces a coding but has no body. -/
theorem C101_coding_without_body_refuted (a b : List HField) (d v : Bytes) (h : Silent a) (hd : Announces d) :
    bodyStep (a ++ ⟨some b!"content-length", some d⟩ :: ⟨some b!"content-encoding", some v⟩ :: b) none = .undef := by
  rw [bodyStep_announced a _ d none h hd]
  have : contentEncoding b!"content-encoding" (⟨some b!"content-encoding", some v⟩ :: b) = some (some v) := rfl
  simp only [this]
  cases supported v <;> rfl

/-- **C101 refuted.** And one with a field without name behind its length. -/
theorem C101_nameless_field_refuted (a b : List HField) (d : Bytes) (v body : Option Bytes) (h : Silent a) (hd : Announces d) :
    bodyStep (a ++ ⟨some b!"content-length", some d⟩ :: ⟨none, v⟩ :: b) body = .undef := by
  rw [bodyStep_announced a _ d body h hd]
  rfl

/-- The whole request: what the body step says of it. -/
theorem answer_of_body (e : ReqEvent.Env) (ssl : Bool) (cells : List HField) (fs : List Field) (m : Method) (https : Bool)
    (p : Bytes) (q : Option Bytes) (body : Option Bytes) (hh : Holds cells fs) (hw : WellFormed fs m https (p ++ queryText q))
    (hp : PlainPath p) (hq : PlainQuery q) (ha : Agreeable fs) :
    (bodyStep cells body = .undef → answer e ⟨ssl, cells, body, false⟩ = .undef) ∧
    (bodyStep cells body = .lost → answer e ⟨ssl, cells, body, false⟩ = .lost) := by
  have := (answer_well_formed e ssl cells fs m https p q body hh hw hp hq).2.2.2 ha
  constructor <;> intro hb <;> rw [this, hb]

example : answer env1 ⟨true, [⟨some b!":method", some b!"GET"⟩, ⟨some b!":path", some b!"/a"⟩, ⟨some b!":scheme", some b!"https"⟩,
    ⟨some b!"content-length", some b!"9"⟩, ⟨some b!"content-type", some b!"multipart/form-data; boundary=x"⟩], none, false⟩ = .undef := by
  decide +kernel

/-! ## C102 — encoded bodies -/

/-- **C102 (partial).** A body without content coding is delivered as it was sent. -/
theorem C102_plain_body_delivered_partial (cells : List HField) (fs : List Field) (body : Option Bytes) (hh : Holds cells fs)
    (h : ∀ f ∈ fs, Named f ∧ NoContent f) : bodyStep cells body = .ok (body.map .bytes) := body_plain cells fs hh h body

/-- **C102 refuted (content lost).** A body sent with a content coding over HTTP/2 never reaches the application: what it is given
does not depend on the body sent. -/
theorem C102_encoded_body_lost_refuted (e : ReqEvent.Env) (ssl dis : Bool) (a b : List HField) (d v x y : Bytes) (h : Silent a)
    (hd : Announces d) :
    answer e ⟨ssl, a ++ ⟨some b!"content-length", some d⟩ :: ⟨some b!"content-encoding", some v⟩ :: b, some x, dis⟩ =
    answer e ⟨ssl, a ++ ⟨some b!"content-length", some d⟩ :: ⟨some b!"content-encoding", some v⟩ :: b, some y, dis⟩ := by
  have : bodyStep (a ++ ⟨some b!"content-length", some d⟩ :: ⟨some b!"content-encoding", some v⟩ :: b) (some x) =
      bodyStep (a ++ ⟨some b!"content-length", some d⟩ :: ⟨some b!"content-encoding", some v⟩ :: b) (some y) := by
    rw [bodyStep_announced a _ d _ h hd, bodyStep_announced a _ d _ h hd]
    have : contentEncoding b!"content-encoding" (⟨some b!"content-encoding", some v⟩ :: b) = some (some v) := rfl
    simp only [this]
    cases supported v <;> rfl
  simp only [answer, this]

/-- **C102 refuted.** In particular deflate, brotli and identity bodies arrive empty, gzip bodies cost the connection, and codings
the server does not know lead to undefined behaviour where 415 was due. -/
theorem C102_codings_refuted (a b : List HField) (d v x : Bytes) (h : Silent a) (hb : Silent b) (hd : Announces d) :
    bodyStep (a ++ ⟨some b!"content-length", some d⟩ :: ⟨some b!"content-encoding", some v⟩ :: b) (some x) =
      (if Header.cstr v = b!"deflate" ∨ Header.cstr v = b!"br" ∨ Header.cstr v = b!"identity" then .ok (some (.bytes []))
       else if Header.cstr v = b!"gzip" ∨ Header.cstr v = b!"x-gzip" then .lost
       else .undef) := by
  rw [bodyStep_announced a _ d _ h hd]
  have : contentEncoding b!"content-encoding" (⟨some b!"content-encoding", some v⟩ :: b) = some (some v) := rfl
  simp only [this]
  have hm : Multipart.isMultipart (a ++ ⟨some b!"content-length", some d⟩ :: ⟨some b!"content-encoding", some v⟩ :: b) = some false := by
    rw [isMultipart_skip _ _ h]
    have : Multipart.isMultipart (⟨some b!"content-length", some d⟩ :: ⟨some b!"content-encoding", some v⟩ :: b) =
      Multipart.isMultipart b := rfl
    rw [this]
    exact isMultipart_plain b fun f hf => (hb f hf).2.1
  by_cases h1 : Header.cstr v = b!"gzip"
  · simp only [supported, h1]; rfl
  by_cases h2 : Header.cstr v = b!"x-gzip"
  · simp only [supported, h2]; rfl
  by_cases h3 : Header.cstr v = b!"deflate"
  · have : supported v = some .deflate := by rw [supported, h3]; rfl
    simp only [this, decodeNow, multipart, hm, Multipart.bodySeen, h3, true_or, if_true]
  by_cases h4 : Header.cstr v = b!"br"
  · have : supported v = some .br := by rw [supported, h4]; rfl
    simp only [this, decodeNow, multipart, hm, Multipart.bodySeen, h4, true_or, or_true, if_true]
  by_cases h5 : Header.cstr v = b!"identity"
  · have : supported v = some .identity := by rw [supported, h5]; rfl
    simp only [this, decodeNow, multipart, hm, Multipart.bodySeen, h5, or_true, if_true]
  rw [if_neg (by simp [h3, h4, h5]), if_neg (by simp [h1, h2])]
  by_cases h6 : Header.cstr v = b!"*"
  · simp only [supported, h6]; rfl
  have : supported v = none := by
    rw [supported, Option.map_eq_none_iff, List.find?_eq_none]
    intro x hx hc
    simp only [beq_iff_eq] at hc
    simp only [Encode.table, List.mem_cons, List.not_mem_nil, or_false] at hx
    rcases hx with rfl | rfl | rfl | rfl | rfl | rfl <;> simp_all
  rw [this]

example : Silent [⟨some b!":method", some b!"POST"⟩, ⟨some b!":path", some b!"/a"⟩, ⟨some b!":scheme", some b!"https"⟩] ∧
    Announces b!"17" := by
  constructor
  · intro f hf
    simp only [List.mem_cons, List.not_mem_nil, or_false] at hf
    rcases hf with rfl | rfl | rfl <;> simp [Named, NoContent, NoLength]
  · unfold Announces; decide +kernel

theorem contentEncoding_http1 (fs : List (Bytes × Bytes)) :
    contentEncoding b!"Content-Encoding" (ReqHeader.cells fs).items = some none := by
  rw [ReqHeader.cells]
  induction fs with
  | nil => rfl
  | cons f fs ih =>
    simp only [List.map_cons, contentEncoding]
    rw [if_neg]
    · exact ih
    · intro hc
      simp only [beq_iff_eq] at hc
      cases hn : f.1 with
      | nil => rw [hn] at hc; exact absurd hc (by decide)
      | cons c n =>
        rw [hn, List.map_cons, Header.cstr, List.takeWhile_cons] at hc
        split at hc
        · have := (List.cons.inj hc).1
          rw [Header.lower] at this
          split at this <;> omega
        · cases hc

/-- **C102 refuted (HTTP/1).** Over HTTP/1 the field is never found (names are stored in lower case, "Content-Encoding" is looked for),
so an encoded body is handed over undecoded and an unsupported coding is not refused. -/
theorem C102_http1_coding_ignored_refuted (fs : List (Bytes × Bytes)) (v : Bytes) (_ : (b!"Content-Encoding", v) ∈ fs) :
    contentEncoding b!"Content-Encoding" (ReqHeader.cells fs).items = some none := contentEncoding_http1 fs

/-- **C101.** Whatever a request holds, if it is answered with a status at once, it is one of these: 304, 400, 404, 405, 406, 413. -/
theorem C101_statuses (e : ReqEvent.Env) (r : Request) (n : Nat) (h : answer e r = .status n) : n ∈ [304, 400, 404, 405, 406, 413] := by
  unfold answer at h
  repeat' split at h
  all_goals first
    | (cases h; done)
    | (simp only [Out.status.injEq] at h; subst h; simp; done)
    | skip
  unfold choose at h
  repeat' split at h
  all_goals first
    | (cases h; done)
    | (simp only [Out.status.injEq] at h; subst h; simp; done)

/-! ## C103 — the same answer as over HTTP/1 -/

/-- Both protocols give the same: the same status, or a file, or a call of the same function with the same method, path, query and
body. -/
inductive Same : Out → ReqEvent.Reply → Prop
  | status (n : Nat) : Same (.status n) (.status n)
  | file : Same .file .file
  | handler (k : Nat) (m : Method) (s p : Bytes) (q : Option Bytes) (cells : List HField) (h : Header.HList) (b : Option Bytes)
      (l : Req.ReqLine) (h1 : l.method = m) (h2 : l.uri = p) (h3 : l.query = q) :
      Same (.handler k ⟨m, s, p, q, cells, b.map .bytes⟩) (.handler k l h b)

/-- **C103 (partial).** A request in both protocols: the HTTP/1 answer (`ReqEvent.select`, C51, C71) for the request line
parsed from `METHOD path?query HTTP/1.1` and the HTTP/2 answer agree, if the file search gives the same for both and no
directory is asked for.  Missing: directories (`C103_directory_refuted`), percent-encoding (C68), bodies with
content type or coding (C102), and what is not understood of the Accept fields (C27, C29, C74). -/
theorem C103_same_answer_partial (e : ReqEvent.Env) (ssl : Bool) (cells : List HField) (fs : List Field) (m : Method) (https : Bool)
    (p : Bytes) (q : Option Bytes) (body : Option Bytes) (h1 : Header.HList) (l : Req.ReqLine) (hh : Holds cells fs)
    (hw : WellFormed fs m https (p ++ queryText q)) (hp : PlainPath p) (hq : PlainQuery q)
    (ha : Agreeable fs)
    (hf : ∀ f ∈ fs, Named f ∧ NoContent f)
    (hm : m ≠ .connect)
    (hl : Req.parseReqline (Req.requestLine m (p ++ queryText q) .v1_1) = .ok l)
    (hfile : e.file ⟨cells, cells.length⟩ p = e.file h1 p) (hdir : ∀ f, e.file h1 p = some f → f.dir = false) :
    Same (answer e ⟨ssl, cells, body, false⟩) (ReqEvent.select e l h1 body) := by
  have chars : ∀ (ok : Nat → Prop) (x : Bytes), (∀ c ∈ x, ok c) → Req.Chars ok x := by
    intro ok x
    induction x with
    | nil => intro _; exact .nil
    | cons c x ih => intro h; exact .byte c x (h c (by simp)) (ih fun y hy => h y (by simp [hy]))
  have hline := Req.C21_origin_form_round_trip_partial m p q .v1_1 hm ⟨chars _ _ hp.2, hp.1⟩ (by
    intro x hx
    refine ⟨(hq x hx).1, chars _ _ (hq x hx).2, ?_⟩
    intro h37
    have : Req.QueryByte 37 := (hq x hx).2 37 (List.mem_of_mem_head? h37)
    simp [Req.QueryByte, Req.RfcPchar, Req.RfcUnreserved, Req.RfcSubDelims] at this)
  rw [hl] at hline
  obtain rfl := (by injection hline : l = _)

  rw [(answer_well_formed e ssl cells fs m https p q body hh hw hp hq).2.2.2 ha,
    body_plain cells fs hh hf]
  simp only [choose, ReqEvent.select]
  cases e.route p m with
  | some k => exact .handler k m _ p q cells h1 body _ rfl rfl rfl
  | none =>
    simp only [hfile]
    cases hx : e.file h1 p with
    | none => exact .status 404
    | some x =>
      simp only [hdir x hx]
      by_cases hg : m = .get
      · simp only [hg, ne_eq, not_true_eq_false, if_false, Bool.false_eq_true]
        cases x.notModified
        · exact .file
        · exact .status 304
      · simp only [ne_eq, hg, not_false_eq_true, if_true]
        exact .status 405

/-- A file server. -/
def env2 (f : ReqEvent.File) : ReqEvent.Env := ⟨1000, fun _ => .ok, fun _ _ => none, fun _ p => if p = b!"/d" then some f else none⟩

example : answer (env2 ⟨false, false⟩) ⟨true, [⟨some b!":method", some b!"GET"⟩, ⟨some b!":path", some b!"/d"⟩,
    ⟨some b!":scheme", some b!"https"⟩], none, false⟩ = .file := by decide +kernel

/-- **C103 refuted (directories).** GET of any mounted directory is 404 over HTTP/1, but over HTTP/2 the server sets about sending the
directory like a file. -/
theorem C103_directory_refuted (e : ReqEvent.Env) (ssl : Bool) (cells : List HField) (fs : List Field) (https : Bool)
    (p : Bytes) (q : Option Bytes) (body : Option Bytes) (h1 : Header.HList) (v : Req.Version) (hh : Holds cells fs)
    (hw : WellFormed fs .get https (p ++ queryText q)) (hp : PlainPath p) (hq : PlainQuery q)
    (ha : Agreeable fs)
    (hf : ∀ f ∈ fs, Named f ∧ NoContent f) (hr : e.route p .get = none)
    (hd : ∀ h, e.file h p = some ⟨true, false⟩) :
    answer e ⟨ssl, cells, body, false⟩ = .file ∧ ReqEvent.select e ⟨.get, p, q, v⟩ h1 body = .status 404 := by
  rw [(answer_well_formed e ssl cells fs .get https p q body hh hw hp hq).2.2.2 ha,
    body_plain cells fs hh hf]
  simp only [choose, ReqEvent.select, hr, hd]
  exact ⟨rfl, rfl⟩

example : ∃ e : ReqEvent.Env, e.route b!"/d" .get = none ∧ ∀ h, e.file h b!"/d" = some ⟨true, false⟩ :=
  ⟨env2 ⟨true, false⟩, rfl, fun _ => rfl⟩

end Fly.H2R
