import Verif.PyRoute.Lemmas
import Verif.PyArgs.Lemmas

/-!
# Route table, CORS, production mode and handlers of the Python application

C44 (routes are unique), C45 (default headers never override), C49 (CORS covers every route),
C84 (exceptions become responses), C85 (CORS in production), C86 (debug routes in production),
C87 (tracebacks in production), C88 (headers given to a response).
-/

namespace Fly.PyRoute
open Spec

/-! ## C44 -/

/-- **C44** (the table).  After every history of registrations, accepted or refused, no two routes
have the same path and method, and every path begins with a slash, is one line and has no repeated
slashes. -/
theorem C44_table (qs : List Reg) :
    (history qs).Pairwise (fun r s => ¬ (r.uri = s.uri ∧ r.method = s.method)) ∧
    ∀ r ∈ history qs, StoredPath r.uri :=
  ⟨(good_history qs).uniq, (good_history qs).stored⟩

/-- **C44** (one registration).  On every table a registration either adds exactly one route at the
end, with the given text's path (repeated slashes collapsed), the given method and function; or it
raises and the table is as before.  It raises exactly when the text is no path, the function is
missing or the path and method are taken. -/
theorem C44_register (rs : List Route) (q : Reg) :
    (∃ u f, PathOf q.uri u ∧ q.func = some f ∧ (∀ r ∈ rs, ¬ (r.method = q.method ∧ r.uri = u)) ∧
      ∃ r, attempt rs q = rs ++ [r] ∧ r.uri = u ∧ r.method = q.method ∧ r.func = f) ∨
    (register rs q = none ∧ attempt rs q = rs ∧
      ((¬ ∃ u, PathOf q.uri u) ∨ q.func = none ∨
        ∃ u, PathOf q.uri u ∧ ∃ r ∈ rs, r.method = q.method ∧ r.uri = u)) := by
  rcases register_cases rs q with ⟨u, f, h1, h2, h3, he⟩ | ⟨he, h⟩
  · exact Or.inl ⟨u, f, h1, h2, h3, newRoute q u f, by simp [attempt, he], rfl, rfl, rfl⟩
  · exact Or.inr ⟨he, by simp [attempt, he], h⟩

/-- A text means one path only. -/
theorem C44_path_unique {g u v : List Nat} (h : PathOf g u) (h' : PathOf g v) : u = v := by
  obtain ⟨t, ht, rfl⟩ := (pathOf_iff _ _).1 h
  obtain ⟨t', ht', rfl⟩ := (pathOf_iff _ _).1 h'
  rw [ht] at ht'
  cases ht'
  rfl

/-- Non-vacuity: three registrations, the third is a duplicate written with more slashes. -/
def demoRegs : List Reg :=
  [⟨b!"/a//b", b!"GET", some 1, true, false, false⟩, ⟨b!"/a/b", b!"POST", some 2, true, false, false⟩,
   ⟨b!"/a///b", b!"GET", some 3, true, false, false⟩]

example : (history demoRegs).map (fun r => (r.uri, r.method, r.func)) =
    [(b!"/a/b", b!"GET", 1), (b!"/a/b", b!"POST", 2)] := by decide +kernel

example : register (history demoRegs) ⟨b!"a/b", b!"GET", some 4, true, false, false⟩ = none := by
  decide +kernel

/-! ## C45 -/

/-- **C45.**  For every response a handler returns and every list of default headers: the status, the
body and all the handler's own headers are kept, in order and in front; what is added is part of the
default headers, each of a name (disregarding case) the response did not have yet; and afterwards a
header of every default name is there. -/
theorem C45_defaults_never_override (r : Route) (te : List Nat) (st : Int) (hs : List Hdr)
    (b : List Nat) :
    ∃ added, handler r te (.response st hs b) = .response st (hs ++ added) b ∧
      added.Sublist r.headers ∧
      (∀ d ∈ added, ∀ h ∈ hs, ¬ SameName h.name d.name) ∧
      added.Pairwise (fun x y => ¬ SameName x.name y.name) ∧
      (∀ d ∈ r.headers, ∃ h ∈ hs ++ added, SameName h.name d.name) := by
  obtain ⟨added, h0, h1, h2, h3, h4⟩ := addDefaults_spec r.headers hs
  refine ⟨added, ?_, h1, h2, h3, h4⟩
  simp only [handler, bodyOf]
  split
  · rw [h0]
  · rename_i hl
    have e : r.headers = [] := by
      cases hh : r.headers with
      | nil => rfl
      | cons a l => rw [hh] at hl; simp at hl
    have e2 : addDefaults hs r.headers = hs := by rw [e]; rfl
    rw [← h0, e2]

/-- **C45** for the other results a handler may return: a text, bytes or nothing become a response
with status 200 and those contents as soon as there are default headers, and all of them are added. -/
theorem C45_plain_results (r : Route) (te : List Nat) (hd : r.headers ≠ []) :
    (∀ s, ∃ hs, handler r te (.text s) = .response 200 hs (utf8 s) ∧
      ∀ d ∈ r.headers, ∃ h ∈ hs, SameName h.name d.name) ∧
    (∀ b, ∃ hs, handler r te (.bytes b) = .response 200 hs b ∧
      ∀ d ∈ r.headers, ∃ h ∈ hs, SameName h.name d.name) ∧
    (∃ hs, handler r te .noneVal = .response 200 hs [] ∧
      ∀ d ∈ r.headers, ∃ h ∈ hs, SameName h.name d.name) := by
  obtain ⟨added, h0, -, -, -, h4⟩ := addDefaults_spec r.headers []
  have hl : r.headers.length > 0 := List.length_pos_iff.2 hd
  refine ⟨fun s => ⟨added, ?_, h4⟩, fun b => ⟨added, ?_, h4⟩, ⟨added, ?_, h4⟩⟩ <;>
  · simp only [handler, bodyOf, if_pos hl, h0, List.nil_append]

def demoRoute : Route :=
  { uri := b!"/", method := b!"GET", func := 1, debugRoute := false, onlyDebug := false,
    baseDebug := false, headers := [⟨b!"X-A", b!"1"⟩, ⟨b!"X-B", b!"2"⟩], debugNames := [] }

example : handler demoRoute [] (.response 201 [⟨b!"x-a", b!"mine"⟩] b!"body") =
    .response 201 [⟨b!"x-a", b!"mine"⟩, ⟨b!"X-B", b!"2"⟩] b!"body" := by decide +kernel

/-! ## C49 -/

theorem start_debug (c : Cors) (qs : List Reg) :
    start true (some c) (history qs) =
      some ((corsRes true c (optUris (history qs)) (history qs)).1 ++
            (corsRes true c (optUris (history qs)) (history qs)).2) := by
  simp only [start, productionRoutes, if_true]
  rw [applyCors_eq true c (history qs) (fun r hr => ⟨(good_history qs).stored r hr, Or.inl rfl⟩)]
  rfl

/-- **C49_partial.**  For every history of registrations and every configuration, starting in debug
mode never fails; every path then has an `OPTIONS` route; the routes are still unique; and a route
whose path had no `OPTIONS` route and no earlier route of another method keeps everything and gets
exactly the configured CORS headers.  Missing from C49: the other routes of the path, see
`C49_second_method_refuted`. -/
theorem C49_partial (c : Cors) (qs : List Reg) :
    ∃ out, start true (some c) (history qs) = some out ∧
      (∀ r ∈ out, ∃ o ∈ out, o.uri = r.uri ∧ o.method = b!"OPTIONS") ∧
      out.Pairwise (fun r s => ¬ (r.uri = s.uri ∧ r.method = s.method)) ∧
      (∀ (k : Nat) (r : Route), (history qs)[k]? = some r → r.method ≠ b!"OPTIONS" →
        (∀ s ∈ history qs, s.uri = r.uri → s.method ≠ b!"OPTIONS") →
        (∀ (j : Nat) (s : Route), j < k → (history qs)[j]? = some s → s.uri ≠ r.uri) →
        ∃ r' : Route, out[k]? = some r' ∧ r'.uri = r.uri ∧ r'.method = r.method ∧ r'.func = r.func ∧
          r'.headers.map (fun h => (h.name, h.value)) =
            corsWanted c.origin c.methods c.allow c.expose c.credentials) := by
  have hg := good_history qs
  refine ⟨_, start_debug c qs, ?_, ?_, ?_⟩
  · intro r hr
    rcases List.mem_append.1 hr with hr | hr
    · obtain ⟨s, hs, he⟩ := corsRes_old true c _ _ r hr
      have hu : r.uri = s.uri ∧ r.method = s.method := by rcases he with rfl | rfl <;> exact ⟨rfl, rfl⟩
      by_cases hm : s.method = options
      · exact ⟨r, List.mem_append_left _ hr, rfl, hu.2.trans hm⟩
      · rcases corsRes_covers true c _ (optUris (history qs)) s hs hm with h | ⟨o, ho, h1, h2⟩
        · rw [mem_optUris] at h
          obtain ⟨o, ho, h1, h2⟩ := h
          obtain ⟨k, hk⟩ := List.mem_iff_getElem?.1 ho
          have := corsRes_get true c (history qs) (optUris (history qs)) k o hk
          rw [if_pos (Or.inl h2)] at this
          exact ⟨o, List.mem_append_left _ (List.mem_of_getElem? this), by rw [h1, hu.1], h2⟩
        · exact ⟨o, List.mem_append_right _ ho, by rw [h1, hu.1], h2⟩
    · obtain ⟨s, hs, h1, h2, rfl⟩ := corsRes_new true c _ _ r hr
      exact ⟨_, List.mem_append_right _ hr, rfl, rfl⟩
  · rw [List.pairwise_append]
    refine ⟨?_, ?_, ?_⟩
    · rw [List.pairwise_iff_getElem]
      intro i j hi hj hij
      have hl := corsRes_length true c (history qs) (optUris (history qs))
      have hi' : i < (history qs).length := by omega
      have hj' : j < (history qs).length := by omega
      have e1 := corsRes_get true c (history qs) (optUris (history qs)) i _
        (List.getElem?_eq_getElem hi')
      have e2 := corsRes_get true c (history qs) (optUris (history qs)) j _
        (List.getElem?_eq_getElem hj')
      rw [List.getElem?_eq_getElem hi] at e1
      rw [List.getElem?_eq_getElem hj] at e2
      simp only [Option.some.injEq] at e1 e2
      have k1 : (corsRes true c (optUris (history qs)) (history qs)).1[i].uri = (history qs)[i].uri ∧
          (corsRes true c (optUris (history qs)) (history qs)).1[i].method = (history qs)[i].method := by
        rw [e1]; split <;> exact ⟨rfl, rfl⟩
      have k2 : (corsRes true c (optUris (history qs)) (history qs)).1[j].uri = (history qs)[j].uri ∧
          (corsRes true c (optUris (history qs)) (history qs)).1[j].method = (history qs)[j].method := by
        rw [e2]; split <;> exact ⟨rfl, rfl⟩
      rw [k1.1, k1.2, k2.1, k2.2]
      exact List.pairwise_iff_getElem.1 hg.uniq i j hi' hj' hij
    · exact (corsRes_new_uniq true c _ _).1.imp (fun h e => h e.1)
    · intro a ha b hb hab
      obtain ⟨s, hs, he⟩ := corsRes_old true c _ _ a ha
      obtain ⟨s', hs', h1, h2, rfl⟩ := corsRes_new true c _ _ b hb
      have hu : a.uri = s.uri ∧ a.method = s.method := by rcases he with rfl | rfl <;> exact ⟨rfl, rfl⟩
      apply h2
      rw [mem_optUris]
      exact ⟨s, hs, hu.1.symm.trans hab.1, hu.2.symm.trans hab.2⟩
  · intro k r hk hm ho hf
    refine ⟨withCors c r, ?_, rfl, rfl, rfl, ?_⟩
    · have hl := corsRes_length true c (history qs) (optUris (history qs))
      have hlt : k < (history qs).length := by
        rcases Nat.lt_or_ge k (history qs).length with h | h
        · exact h
        · rw [List.getElem?_eq_none h] at hk; cases hk
      rw [List.getElem?_append_left (by omega), corsRes_get true c _ _ k r hk, if_neg]
      rintro (h | h | ⟨j, s, hj, hs, h1, -⟩)
      · exact hm h
      · rw [mem_optUris] at h
        obtain ⟨s, hs, h1, h2⟩ := h
        exact ho s hs h1 h2
      · exact hf j s hj hs h1
    · have hp := hg.plain r (List.mem_of_getElem? hk)
      simp only [withCors, hp.1, List.nil_append]
      exact corsHeaders_wanted c

/-- **C49_second_method_refuted.**  When a path has several methods, only the first one gets the CORS
headers: for every history and configuration, a route with an earlier route of the same path (both
not `OPTIONS`) is left as it was, and its responses carry no CORS header at all. -/
theorem C49_second_method_refuted (c : Cors) (qs : List Reg) (j k : Nat) (s r : Route) (hjk : j < k)
    (hj : (history qs)[j]? = some s) (hk : (history qs)[k]? = some r) (hu : s.uri = r.uri)
    (hs : s.method ≠ b!"OPTIONS") :
    ∃ out, start true (some c) (history qs) = some out ∧ out[k]? = some r ∧
      ∀ te st hs b, handler r te (.response st hs b) = .response st hs b := by
  refine ⟨_, start_debug c qs, ?_, ?_⟩
  · have hl := corsRes_length true c (history qs) (optUris (history qs))
    have hlt : k < (history qs).length := by
      rcases Nat.lt_or_ge k (history qs).length with h | h
      · exact h
      · rw [List.getElem?_eq_none h] at hk; cases hk
    rw [List.getElem?_append_left (by omega), corsRes_get true c _ _ k r hk, if_pos]
    exact Or.inr (Or.inr ⟨j, s, hjk, hj, hu, hs⟩)
  · intro te st hs b
    have hp := (good_history qs).plain r (List.mem_of_getElem? hk)
    simp [handler, bodyOf, hp.1]

def demoCors : Cors :=
  { origin := b!"*", methods := [b!"GET", b!"POST"], allow := [], expose := [], credentials := true,
    onlyDebug := false }

/-- Both theorems apply to the demo: `GET /a/b` gets the headers, `POST /a/b` does not. -/
example : (start true (some demoCors) (history demoRegs)).map
      (fun rs => rs.map (fun r => (r.uri, r.method, r.headers.length))) =
    some [(b!"/a/b", b!"GET", 3), (b!"/a/b", b!"POST", 0), (b!"/a/b", b!"OPTIONS", 0)] := by
  decide +kernel

/-! ## C84 -/

/-- **C84_partial.**  Whatever the route and its default headers: an HTTP exception becomes a response
of its status with its message as body and its headers in front; any other exception becomes a
response of status 500, with the traceback in debug mode and empty otherwise; so does, in debug
mode, a result of an unexpected type.  Missing: `C84_exit_refuted`, `C84_type_refuted`. -/
theorem C84_partial (r : Route) (te : List Nat) :
    (∀ st m hs, ∃ added, handler r te (.httpExc st m hs) = .response st (hs ++ added) (utf8 m)) ∧
    (∀ t, ∃ hs, handler r te (.exc t) = .response 500 hs (if r.baseDebug then t else [])) ∧
    (r.baseDebug = true → ∃ hs, handler r te .other = .response 500 hs te) := by
  have hb : ∀ st hs b, ∃ added, (if r.headers.length > 0 then
      Out.response st (addDefaults hs r.headers) b else .response st hs b) = .response st (hs ++ added) b := by
    intro st hs b
    obtain ⟨added, h0, -⟩ := addDefaults_spec r.headers hs
    split
    · exact ⟨added, by rw [h0]⟩
    · exact ⟨[], by simp⟩
  refine ⟨?_, ?_, ?_⟩
  · intro st m hs
    have e : (if m.length > 0 then utf8 m else []) = utf8 m := by
      cases m <;> rfl
    simp only [handler, bodyOf, e]
    exact hb st hs _
  · intro t
    simp only [handler, bodyOf]
    obtain ⟨a, h⟩ := hb 500 [] (if r.baseDebug then t else [])
    exact ⟨_, h⟩
  · intro hd
    simp only [handler, bodyOf, hd, if_true]
    obtain ⟨a, h⟩ := hb 500 [] te
    exact ⟨_, h⟩

/-- The message of an HTTP exception in plain ASCII is the body as it is. -/
theorem C84_ascii_body (m : Str) (h : ∀ c ∈ m, c < 128) : utf8 m = m := by
  induction m with
  | nil => rfl
  | cons c m ih =>
    have hc := h c (by simp)
    have hs : utf8 (c :: m) = utf8c c ++ utf8 m := rfl
    rw [hs, ih (fun x hx => h x (by simp [hx]))]
    simp [utf8c, hc]

/-- The body of an HTTP exception's response is its message in UTF-8: whoever decodes it gets the message back, whatever its characters. -/
theorem C84_message_decodes (r : Route) (te : List Nat) (st : Int) (m : Str) (hs : List Hdr) (hm : ∀ c ∈ m, PyArgs.Spec.Scalar c) :
    ∃ hs' b, handler r te (.httpExc st m hs) = .response st hs' b ∧ b = PyArgs.Spec.utf8 m ∧ PyArgs.decodeStrict b = some m := by
  obtain ⟨added, h⟩ := (C84_partial r te).1 st m hs
  have e : utf8 m = PyArgs.Spec.utf8 m := by
    have : utf8c = PyArgs.Spec.enc := by funext c; rfl
    unfold utf8 PyArgs.Spec.utf8
    rw [this]
  exact ⟨_, _, h, e, by rw [e]; exact PyArgs.decodeStrict_utf8 m hm⟩

example : PyArgs.Spec.Scalar 0x20AC ∧ PyArgs.Spec.utf8 [0x20AC, 49] = [0xE2, 0x82, 0xAC, 49] := by
  refine ⟨⟨by decide, by decide⟩, by decide⟩

/-- **C84_exit_refuted.**  `SystemExit`, `KeyboardInterrupt` and the like never become a response:
the handler's own clean-up raises (it uses a variable that was never set), for every route. -/
theorem C84_exit_refuted (r : Route) (te : List Nat) : handler r te .baseExc = .raises := rfl

/-- **C84_type_refuted.**  Outside debug mode a result of an unexpected type (an `int`, a `dict`) of
any route with default headers makes the clean-up raise too. -/
theorem C84_type_refuted (r : Route) (te : List Nat) (hd : r.baseDebug = false)
    (hh : r.headers ≠ []) : handler r te .other = .raises := by
  have hl : r.headers.length > 0 := List.length_pos_iff.2 hh
  simp [handler, bodyOf, hd, hl]

example : handler demoRoute [] (.httpExc 404 b!"no such user" [⟨b!"X-B", b!"own"⟩]) =
    .response 404 [⟨b!"X-B", b!"own"⟩, ⟨b!"X-A", b!"1"⟩] b!"no such user" := by decide +kernel

/-! ## C85 -/

theorem prod_mem {d : Bool} {rs : List Route} {r : Route} (h : r ∈ productionRoutes d rs) :
    r ∈ rs ∧ (d = true ∨ r.debugRoute = false) := by
  unfold productionRoutes at h
  split at h
  · rename_i hd; exact ⟨h, Or.inl hd⟩
  · rw [List.mem_filter] at h
    exact ⟨h.1, Or.inr (by simpa using h.2)⟩

theorem start_cors (d : Bool) (c : Cors) (qs : List Reg) :
    start d (some c) (history qs) = some (removeOnlyDebug d
      ((corsRes d c (optUris (productionRoutes d (history qs))) (productionRoutes d (history qs))).1 ++
       (corsRes d c (optUris (productionRoutes d (history qs))) (productionRoutes d (history qs))).2)) := by
  simp only [start]
  rw [applyCors_eq d c _ (fun r hr => ⟨(good_history qs).stored r (prod_mem hr).1, (prod_mem hr).2⟩)]

theorem sweep_none_debug (rs : List Route) (h : ∀ r ∈ rs, r.onlyDebug = false) :
    removeOnlyDebug false rs = rs.map strip := by
  have := sweep_keep rs (rs.length + 1) [] (by omega) h [] 1 (by omega)
  simp only [List.nil_append, List.length_nil, List.append_nil, Nat.zero_add] at this
  simp only [removeOnlyDebug, Bool.false_eq_true, if_false]
  rw [this]
  simp [sweep]

/-- **C85_origin_refuted.**  A CORS configuration that is *not* for debugging only loses its main
header in production: for every history (without `only_debug` routes) and every such configuration,
no route of the started application has `Access-Control-Allow-Origin` among its default headers, so
no browser accepts a cross-origin answer. -/
theorem C85_origin_refuted (c : Cors) (qs : List Reg) (hc : c.onlyDebug = false)
    (hq : ∀ q ∈ qs, q.onlyDebug = false) :
    ∃ out, start false (some c) (history qs) = some out ∧
      ∀ r ∈ out, ∀ h ∈ r.headers, h.name ≠ b!"Access-Control-Allow-Origin" := by
  have hg := good_history qs
  have hod : ∀ r ∈ history qs, r.onlyDebug = false := by
    intro r hr
    obtain ⟨q, hq', u, f, rfl⟩ := history_mem hr
    exact hq q hq'
  refine ⟨_, start_cors false c qs, ?_⟩
  rw [sweep_none_debug]
  · intro r hr h hh
    simp only [List.mem_map, List.mem_append] at hr
    obtain ⟨s, hs, rfl⟩ := hr
    rcases hs with hs | hs
    · obtain ⟨t, ht, he⟩ := corsRes_old false c _ _ s hs
      have hp := hg.plain t (prod_mem ht).1
      rcases he with rfl | rfl
      · rw [strip_plain s hp.2, hp.1] at hh
        simp at hh
      · rw [strip_withCors c t hp hc] at hh
        exact fun e => corsRest_names c h hh e.symm
    · obtain ⟨t, -, -, -, rfl⟩ := corsRes_new false c _ _ s hs
      simp [strip, optRoute] at hh
  · intro r hr
    rcases List.mem_append.1 hr with hr | hr
    · obtain ⟨t, ht, he⟩ := corsRes_old false c _ _ r hr
      have := hod t (prod_mem ht).1
      rcases he with rfl | rfl <;> exact this
    · obtain ⟨t, -, -, -, rfl⟩ := corsRes_new false c _ _ r hr
      exact hc

/-- **C85_partial.**  With such a configuration and without debug routes everything else survives in
production: every route keeps its place, a first route of a path (as in `C49_partial`) has the
configured headers except the first one, and every path has its `OPTIONS` route. -/
theorem C85_partial (c : Cors) (qs : List Reg) (hc : c.onlyDebug = false)
    (hq : ∀ q ∈ qs, q.onlyDebug = false ∧ q.debugRoute = false) :
    ∃ out, start false (some c) (history qs) = some out ∧
      (∀ r ∈ history qs, ∃ o ∈ out, o.uri = r.uri ∧ o.method = b!"OPTIONS") ∧
      (∀ (k : Nat) (r : Route), (history qs)[k]? = some r → r.method ≠ b!"OPTIONS" →
        (∀ s ∈ history qs, s.uri = r.uri → s.method ≠ b!"OPTIONS") →
        (∀ (j : Nat) (s : Route), j < k → (history qs)[j]? = some s → s.uri ≠ r.uri) →
        ∃ r' : Route, out[k]? = some r' ∧ r'.uri = r.uri ∧ r'.method = r.method ∧ r'.func = r.func ∧
          r'.headers.map (fun h => (h.name, h.value)) =
            (corsWanted c.origin c.methods c.allow c.expose c.credentials).tail) := by
  have hg := good_history qs
  have hod : ∀ r ∈ history qs, r.onlyDebug = false ∧ r.debugRoute = false := by
    intro r hr
    obtain ⟨q, hq', u, f, rfl⟩ := history_mem hr
    exact hq q hq'
  have hpr : productionRoutes false (history qs) = history qs := by
    simp only [productionRoutes, Bool.false_eq_true, if_false]
    rw [List.filter_eq_self]
    intro r hr
    simp [(hod r hr).2]
  have hst := start_cors false c qs
  rw [hpr] at hst
  rw [sweep_none_debug] at hst
  · refine ⟨_, hst, ?_, ?_⟩
    · intro r hr
      have hput : ∀ o : Route, o ∈ (corsRes false c (optUris (history qs)) (history qs)).1 ++
          (corsRes false c (optUris (history qs)) (history qs)).2 → o.uri = r.uri →
          o.method = options → ∃ o ∈ ((corsRes false c (optUris (history qs)) (history qs)).1 ++
          (corsRes false c (optUris (history qs)) (history qs)).2).map strip, o.uri = r.uri ∧
          o.method = b!"OPTIONS" := fun o ho h1 h2 => ⟨strip o, List.mem_map_of_mem ho, h1, h2⟩
      have hopt : r.uri ∈ optUris (history qs) → ∃ o ∈ ((corsRes false c (optUris (history qs))
          (history qs)).1 ++ (corsRes false c (optUris (history qs)) (history qs)).2).map strip,
          o.uri = r.uri ∧ o.method = b!"OPTIONS" := by
        intro h
        rw [mem_optUris] at h
        obtain ⟨o, ho, h1, h2⟩ := h
        obtain ⟨k, hk⟩ := List.mem_iff_getElem?.1 ho
        have := corsRes_get false c (history qs) (optUris (history qs)) k o hk
        rw [if_pos (Or.inl h2)] at this
        exact hput o (List.mem_append_left _ (List.mem_of_getElem? this)) h1 h2
      by_cases hm : r.method = options
      · exact hopt ((mem_optUris _ _).2 ⟨r, hr, rfl, hm⟩)
      · rcases corsRes_covers false c _ (optUris (history qs)) r hr hm with h | ⟨o, ho, h1, h2⟩
        · exact hopt h
        · exact hput o (List.mem_append_right _ ho) h1 h2
    · intro k r hk hm ho hf
      have hp := hg.plain r (List.mem_of_getElem? hk)
      refine ⟨strip (withCors c r), ?_, rfl, rfl, rfl, ?_⟩
      · have hl := corsRes_length false c (history qs) (optUris (history qs))
        have hlt : k < (history qs).length := by
          rcases Nat.lt_or_ge k (history qs).length with h | h
          · exact h
          · rw [List.getElem?_eq_none h] at hk; cases hk
        rw [List.getElem?_map, List.getElem?_append_left (by omega),
          corsRes_get false c _ _ k r hk, if_neg]
        · rfl
        · rintro (h | h | ⟨j, s, hj, hs, h1, -⟩)
          · exact hm h
          · rw [mem_optUris] at h
            obtain ⟨s, hs, h1, h2⟩ := h
            exact ho s hs h1 h2
          · exact hf j s hj hs h1
      · rw [strip_withCors c r hp hc, corsRest, List.map_tail, corsHeaders_wanted]
  · intro r hr
    rcases List.mem_append.1 hr with hr | hr
    · obtain ⟨t, ht, he⟩ := corsRes_old false c _ _ r hr
      have := (hod t ht).1
      rcases he with rfl | rfl <;> exact this
    · obtain ⟨t, -, -, -, rfl⟩ := corsRes_new false c _ _ r hr
      exact hc

/-- **C85_debug_only_refuted.**  A configuration for debugging only is not taken back in production:
for every history of routes of different paths (none of them `OPTIONS` or for debugging), the
`OPTIONS` routes of every second path are still served, so with two paths or more at least one is. -/
theorem C85_debug_only_refuted (c : Cors) (qs : List Reg) (hc : c.onlyDebug = true)
    (hq : ∀ q ∈ qs, q.onlyDebug = false ∧ q.debugRoute = false ∧ q.method ≠ b!"OPTIONS")
    (hu : (history qs).Pairwise (fun r s => r.uri ≠ s.uri)) :
    ∃ out, start false (some c) (history qs) = some out ∧
      (out.filter (fun r => r.method = b!"OPTIONS")).map (·.uri) =
        everySecond ((history qs).map (·.uri)) ∧
      (2 ≤ (history qs).length → ∃ o ∈ out, o.method = b!"OPTIONS" ∧ o.onlyDebug = true) := by
  have hod : ∀ r ∈ history qs, r.onlyDebug = false ∧ r.debugRoute = false ∧ r.method ≠ options := by
    intro r hr
    obtain ⟨q, hq', u, f, rfl⟩ := history_mem hr
    exact hq q hq'
  have hpr : productionRoutes false (history qs) = history qs := by
    simp only [productionRoutes, Bool.false_eq_true, if_false]
    rw [List.filter_eq_self]
    intro r hr
    simp [(hod r hr).2.1]
  have hst := start_cors false c qs
  rw [hpr, corsRes_distinct false c (history qs) _ (fun r hr => ⟨(hod r hr).2.2, by
    rw [mem_optUris]; rintro ⟨s, hs, -, h2⟩; exact (hod s hs).2.2 h2⟩) hu] at hst
  generalize history qs = rs at *
  have hsw : removeOnlyDebug false (rs.map (withCors c) ++ rs.map (optRoute false c)) =
      (rs.map (withCors c)).map strip ++ everySecond (rs.map (optRoute false c)) := by
    simp only [removeOnlyDebug, Bool.false_eq_true, if_false]
    have h1 := sweep_keep (rs.map (withCors c))
      ((rs.map (withCors c) ++ rs.map (optRoute false c)).length + 1) [] (by simp; omega)
      (by
        intro r hr
        obtain ⟨s, hs, rfl⟩ := List.mem_map.1 hr
        exact (hod s hs).1)
      (rs.map (optRoute false c)) (rs.length + 1) (by simp; omega)
    simp only [List.nil_append, List.length_nil, Nat.zero_add] at h1
    rw [h1]
    have h2 := sweep_drop rs.length (rs.map (optRoute false c)) (by simp) (rs.length + 1)
      ((rs.map (withCors c)).map strip) (by simp)
      (by
        intro r hr
        obtain ⟨s, hs, rfl⟩ := List.mem_map.1 hr
        exact hc)
    simpa using h2
  rw [hsw] at hst
  have hev : ∀ (n : Nat) (l : List Route), l.length ≤ n →
      everySecond (l.map (optRoute false c)) = (everySecond l).map (optRoute false c) ∧
      everySecond (l.map (·.uri)) = (everySecond l).map (·.uri) := by
    intro n
    induction n with
    | zero => intro l hl; have : l = [] := List.length_eq_zero_iff.1 (by omega); subst this; exact ⟨rfl, rfl⟩
    | succ n ih =>
      intro l hl
      match l with
      | [] => exact ⟨rfl, rfl⟩
      | [_] => exact ⟨rfl, rfl⟩
      | a :: b :: l =>
        have := ih l (by simp at hl; omega)
        simp [everySecond, this.1, this.2]
  have hev' := hev rs.length rs (by omega)
  rw [hev'.1] at hst
  refine ⟨_, hst, ?_, ?_⟩
  · rw [List.filter_append]
    have e1 : ((rs.map (withCors c)).map strip).filter (fun r => decide (r.method = b!"OPTIONS")) = [] := by
      rw [List.filter_eq_nil_iff]
      intro r hr
      simp only [List.mem_map] at hr
      obtain ⟨s, ⟨t, ht, rfl⟩, rfl⟩ := hr
      have := (hod t ht).2.2
      simpa [strip, withCors, options] using this
    have e2 : ((everySecond rs).map (optRoute false c)).filter
        (fun r => decide (r.method = b!"OPTIONS")) = (everySecond rs).map (optRoute false c) := by
      rw [List.filter_eq_self]
      intro r hr
      obtain ⟨s, hs, rfl⟩ := List.mem_map.1 hr
      rfl
    rw [e1, e2, hev'.2]
    simp [List.map_map, Function.comp_def, optRoute]
  · intro h2
    match rs, h2 with
    | a :: b :: l, _ =>
      exact ⟨optRoute false c b, List.mem_append_right _ (by simp [everySecond]), rfl, hc⟩

def demoTwo : List Reg :=
  [⟨b!"/a", b!"GET", some 1, true, false, false⟩, ⟨b!"/b", b!"GET", some 2, true, false, false⟩]

example : (start false (some { demoCors with onlyDebug := true }) (history demoTwo)).map
      (fun rs => rs.map (fun r => (r.uri, r.method, r.headers.length))) =
    some [(b!"/a", b!"GET", 0), (b!"/b", b!"GET", 0), (b!"/b", b!"OPTIONS", 0)] := by decide +kernel

example : (start false (some demoCors) (history demoTwo)).map
      (fun rs => rs.map (fun r => (r.uri, r.method, r.headers.map (·.name)))) =
    some [(b!"/a", b!"GET", [acam, acac]), (b!"/b", b!"GET", [acam, acac]),
      (b!"/a", b!"OPTIONS", []), (b!"/b", b!"OPTIONS", [])] := by decide +kernel

/-! ## C86 -/

/-- **C86.**  For every history of registrations and every CORS configuration (or none), starting in
production never fails, no route registered for debugging is served, and every other route that is
not `only_debug` is, with its function. -/
theorem C86_debug_routes_gone (cors : Option Cors) (qs : List Reg) :
    ∃ out, start false cors (history qs) = some out ∧
      (∀ r ∈ out, r.debugRoute = false) ∧
      (∀ r ∈ history qs, r.debugRoute = false → r.onlyDebug = false →
        ∃ r' ∈ out, r'.uri = r.uri ∧ r'.method = r.method ∧ r'.func = r.func) := by
  have key : ∀ rs : List Route, (∀ r ∈ rs, r.debugRoute = false) →
      ∀ r ∈ removeOnlyDebug false rs, r.debugRoute = false := by
    intro rs h r hr
    simp only [removeOnlyDebug, Bool.false_eq_true, if_false] at hr
    obtain ⟨s, hs, he⟩ := sweep_mem _ _ _ _ hr
    rcases he with rfl | ⟨hh, rfl⟩
    · exact h _ hs
    · exact h s hs
  have key2 : ∀ rs : List Route, ∀ r ∈ rs, r.onlyDebug = false →
      ∃ r' ∈ removeOnlyDebug false rs, r'.uri = r.uri ∧ r'.method = r.method ∧ r'.func = r.func := by
    intro rs r hr ho
    simp only [removeOnlyDebug, Bool.false_eq_true, if_false]
    obtain ⟨hs, hm⟩ := sweep_stays (rs.length + 1) rs 0 r hr ho
    exact ⟨_, hm, rfl, rfl, rfl⟩
  have hin : ∀ r ∈ history qs, r.debugRoute = false → r ∈ productionRoutes false (history qs) := by
    intro r hr hd
    simp only [productionRoutes, Bool.false_eq_true, if_false, List.mem_filter]
    exact ⟨hr, by simp [hd]⟩
  have hpd : ∀ r ∈ productionRoutes false (history qs), r.debugRoute = false := by
    intro r hr
    rcases (prod_mem hr).2 with h | h
    · cases h
    · exact h
  cases cors with
  | none => exact ⟨_, rfl, key _ hpd, fun r hr hd ho => key2 _ r (hin r hr hd) ho⟩
  | some c =>
    refine ⟨_, start_cors false c qs, key _ ?_, ?_⟩
    · intro r hr
      rcases List.mem_append.1 hr with hr | hr
      · obtain ⟨t, ht, he⟩ := corsRes_old false c _ _ r hr
        have := hpd t ht
        rcases he with rfl | rfl <;> exact this
      · obtain ⟨t, ht, -, -, rfl⟩ := corsRes_new false c _ _ r hr
        exact hpd t ht
    · intro r hr hd ho
      obtain ⟨k, hk⟩ := List.mem_iff_getElem?.1 (hin r hr hd)
      have := corsRes_get false c _ (optUris (productionRoutes false (history qs))) k r hk
      have hm := List.mem_of_getElem? this
      split at hm
      · exact key2 _ r (List.mem_append_left _ hm) ho
      · obtain ⟨r', h1, h2⟩ := key2 _ (withCors c r) (List.mem_append_left _ hm) ho
        exact ⟨r', h1, h2⟩

def demoDebug : List Reg :=
  [⟨b!"/a", b!"GET", some 1, true, true, false⟩, ⟨b!"/b", b!"GET", some 2, true, false, false⟩,
   ⟨b!"/c", b!"GET", some 3, true, false, true⟩]

example : (start false none (history demoDebug)).map (fun rs => rs.map (·.uri)) = some [b!"/b"] := by
  decide +kernel

/-! ## C87 -/

theorem start_base (d : Bool) (cors : Option Cors) (qs : List Reg) (out : List Route)
    (h : start d cors (history qs) = some out) (r : Route) (hr : r ∈ out) :
    (∃ s ∈ history qs, r.baseDebug = s.baseDebug ∧ r.method = s.method) ∨
    (r.baseDebug = d ∧ r.method = options) := by
  have key : ∀ rs : List Route, ∀ r ∈ removeOnlyDebug d rs,
      ∃ s ∈ rs, r.baseDebug = s.baseDebug ∧ r.method = s.method := by
    intro rs r hr
    simp only [removeOnlyDebug] at hr
    split at hr
    · exact ⟨r, hr, rfl, rfl⟩
    · obtain ⟨s, hs, he⟩ := sweep_mem _ _ _ _ hr
      rcases he with rfl | ⟨hh, rfl⟩
      · exact ⟨_, hs, rfl, rfl⟩
      · exact ⟨s, hs, rfl, rfl⟩
  cases cors with
  | none =>
    simp only [start, Option.some.injEq] at h
    subst h
    obtain ⟨s, hs, h1⟩ := key _ r hr
    exact Or.inl ⟨s, (prod_mem hs).1, h1⟩
  | some c =>
    rw [start_cors d c qs, Option.some.injEq] at h
    subst h
    obtain ⟨s, hs, h1, h2⟩ := key _ r hr
    rcases List.mem_append.1 hs with hs | hs
    · obtain ⟨t, ht, he⟩ := corsRes_old d c _ _ s hs
      refine Or.inl ⟨t, (prod_mem ht).1, ?_⟩
      rcases he with rfl | rfl <;> exact ⟨h1, h2⟩
    · obtain ⟨t, -, -, -, rfl⟩ := corsRes_new d c _ _ s hs
      exact Or.inr ⟨h1, h2⟩

/-- **C87_partial.**  An application created with `debug=False` (so that every registration hands
that on) never puts a traceback into an answer: for every history and configuration, every served
route and every exception the body is empty. -/
theorem C87_partial (cors : Option Cors) (qs : List Reg) (hq : ∀ q ∈ qs, q.debug = false) :
    ∃ out, start false cors (history qs) = some out ∧
      ∀ r ∈ out, ∀ te t, ∃ hs, handler r te (.exc t) = .response 500 hs [] := by
  obtain ⟨out, ho, -⟩ := C86_debug_routes_gone cors qs
  refine ⟨out, ho, ?_⟩
  intro r hr te t
  obtain ⟨hs, he⟩ := (C84_partial r te).2.1 t
  have hb : r.baseDebug = false := by
    rcases start_base false cors qs out ho r hr with ⟨s, hs, h1, -⟩ | ⟨h1, -⟩
    · obtain ⟨q, hq', u, f, rfl⟩ := history_mem hs
      rw [h1]; exact hq q hq'
    · exact h1
  rw [hb] at he
  exact ⟨hs, he⟩

/-- **C87_switch_refuted.**  `fly --production` does not keep tracebacks from clients: an application
created in the default mode registers its routes before the switch is applied, and for every such
application, configuration, served route (other than a generated `OPTIONS` route) and exception, the
answer in production consists of the traceback. -/
theorem C87_switch_refuted (cors : Option Cors) (qs : List Reg) (hq : ∀ q ∈ qs, q.debug = true) :
    ∃ out, start (runCommand true ⟨true, history qs⟩).debug cors
        (runCommand true ⟨true, history qs⟩).routes = some out ∧
      ∀ r ∈ out, r.method ≠ b!"OPTIONS" →
        ∀ te t, ∃ hs, handler r te (.exc t) = .response 500 hs t := by
  obtain ⟨out, ho, -⟩ := C86_debug_routes_gone cors qs
  refine ⟨out, ho, ?_⟩
  intro r hr hm te t
  obtain ⟨hs, he⟩ := (C84_partial r te).2.1 t
  have hb : r.baseDebug = true := by
    rcases start_base false cors qs out ho r hr with ⟨s, hs, h1, -⟩ | ⟨-, h2⟩
    · obtain ⟨q, hq', u, f, rfl⟩ := history_mem hs
      rw [h1]; exact hq q hq'
    · exact absurd h2 hm
  rw [hb] at he
  exact ⟨hs, he⟩

/-- The hypotheses are met: a served route exists and answers with the traceback. -/
example : ((start (runCommand true ⟨true, history demoTwo⟩).debug none
      (runCommand true ⟨true, history demoTwo⟩).routes).getD []).map
      (fun r => handler r [] (.exc b!"Traceback: secret")) =
    [.response 500 [] b!"Traceback: secret", .response 500 [] b!"Traceback: secret"] := by
  decide +kernel

/-! ## C88 -/

/-- **C88_partial.**  A header added to a response object is sent, behind those added before and in
front of the default headers. -/
theorem C88_partial (r : Route) (te : List Nat) (st : Int) (hdr : Option (List Hdr))
    (body : Option (List Nat)) (hs : List Hdr) :
    ∃ added, handler r te (hs.foldl addHeader (newResponse st hdr body)) =
      .response st (hs ++ added) (body.getD []) := by
  have : ∀ (l acc : List Hdr) b, l.foldl addHeader (.response st acc b) = .response st (acc ++ l) b := by
    intro l
    induction l with
    | nil => intro acc b; simp
    | cons a l ih => intro acc b; simp [addHeader, ih]
  rw [newResponse, this]
  obtain ⟨added, h, -⟩ := C45_defaults_never_override r te st ([] ++ hs) (body.getD [])
  exact ⟨added, by simpa using h⟩

/-- **C88_constructor_refuted.**  Headers given to the constructor of a response are never sent: for
every list of them the answer is the same as without. -/
theorem C88_constructor_refuted (r : Route) (te : List Nat) (st : Int) (hdr : List Hdr)
    (body : Option (List Nat)) :
    handler r te (newResponse st (some hdr) body) = handler r te (newResponse st none body) ∧
    (r.headers = [] → handler r te (newResponse st (some hdr) body) =
      .response st [] (body.getD [])) := by
  refine ⟨rfl, fun h => ?_⟩
  simp [handler, newResponse, bodyOf, h]

example : handler demoRoute [] (addHeader (newResponse 200 (some [⟨b!"X-C", b!"3"⟩]) none)
      ⟨b!"X-D", b!"4"⟩) =
    .response 200 [⟨b!"X-D", b!"4"⟩, ⟨b!"X-A", b!"1"⟩, ⟨b!"X-B", b!"2"⟩] [] := by decide +kernel

end Fly.PyRoute
