import Verif.PyCors.Lemmas
import Verif.PyBridge.Props
import Verif.PyRoute.Props

/-! # C174, C175, C176: the CORS decorators -/

namespace Fly.PyCors
open PyRoute
open PyRoute.Spec

/-! ## C174 -/

/-- Default headers of new names are all added, in order. -/
theorem addDefaults_fresh : ∀ (ds hs : List Hdr), ds.Pairwise (fun a b => lower a.name ≠ lower b.name) → (∀ h ∈ hs, ∀ d ∈ ds, lower h.name ≠ lower d.name) →
    addDefaults hs ds = hs ++ ds
  | [], hs, _, _ => by simp [addDefaults]
  | d :: ds, hs, hp, hn => by
    obtain ⟨h1, h2⟩ := List.pairwise_cons.1 hp
    have hno : hs.any (fun j => lower j.name == lower d.name) = false := by
      rw [List.any_eq_false]
      intro j hj
      simpa using hn j hj d (by simp)
    have := addDefaults_fresh ds (hs ++ [d]) h2 (by
      intro h hh e he
      rcases List.mem_append.1 hh with hh | hh
      · exact hn h hh e (by simp [he])
      · rcases List.mem_singleton.1 hh with rfl
        exact h1 e he)
    unfold addDefaults at this ⊢
    rw [List.foldl_cons, hno]
    simp only [Bool.false_eq_true, if_false]
    rw [this]
    simp

theorem corsHeaders_distinct (c : Cors) : (corsHeaders c).Pairwise (fun a b => lower a.name ≠ lower b.name) := by
  have h : ((corsHeaders c).map (·.name)).Sublist [acao, acam, acah, aceh, acac] := by
    unfold corsHeaders
    cases h1 : decide (c.methods.length > 0) <;> cases h2 : decide (c.allow.length > 0) <;> cases h3 : decide (c.expose.length > 0) <;> cases h4 : c.credentials <;>
      simp only [decide_eq_true_eq, decide_eq_false_iff_not] at h1 h2 h3 <;> simp only [h1, h2, h3, if_true, if_false, Bool.false_eq_true, List.map_append, List.map_cons, List.map_nil] <;> decide
  have hp : ([acao, acam, acah, aceh, acac] : List Str).Pairwise (fun a b => lower a ≠ lower b) := by decide
  have := hp.sublist h
  rw [List.pairwise_map] at this
  exact this

theorem addHeaders_all : ∀ (l : List Hdr) (code : Int) (hs : List Hdr) (b : List Nat), l.foldl addHeader (.response code hs b) = .response code (hs ++ l) b
  | [], code, hs, b => by simp
  | h :: l, code, hs, b => by
    rw [List.foldl_cons]
    show l.foldl addHeader (.response code (hs ++ [h]) b) = _
    rw [addHeaders_all l]
    simp

theorem decimal_reads (n : Nat) : PyBridge.Reads (Response.decimal n) n := by
  have := PyBridge.reads n
  rwa [(Response.C53_digits_reserved_exact n).2] at this

theorem intStr_ok (n : Int) : Decimal (intStr n) n := by
  unfold intStr
  split
  · next h => exact Or.inr ⟨h, _, rfl, decimal_reads _⟩
  · next h => exact Or.inl ⟨by omega, decimal_reads _⟩

theorem preflight_ok (s : Settings) (ms : List Str) (h : s.methods = ms.map .str) :
    ∃ hs, preflight s = .response 200 hs [] ∧ PreflightFields s ms (pairs hs) := by
  unfold preflight
  rw [(texts_some _ _).2 h]
  simp only [newResponse, Option.getD_none, addHeaders_all, List.nil_append]
  refine ⟨_, rfl, ?_⟩
  unfold PreflightFields
  have hw := corsHeaders_wanted ⟨s.origin, ms, s.allow, s.expose, s.credentials, s.onlyDebug⟩
  simp only at hw
  cases hm : s.maxAge with
  | none => simp only [pairs, List.append_nil, hw, fields]
  | some n => exact ⟨intStr n, intStr_ok n, by simp [pairs, hw, fields, acma]⟩

/-- Starting in debug mode leaves the routes of a path with an `OPTIONS` route as they are, and adds none for it. -/
theorem start_debug_opt {st : State} (hi : Inv st) (cors : Option Cors) :
    ∃ out, start true cors st.routes = some out ∧ ∀ u, HasOpt st.routes u → ∀ r, r.uri = u → (r ∈ out ↔ r ∈ st.routes) := by
  cases cors with
  | none => exact ⟨st.routes, rfl, fun _ _ _ _ => Iff.rfl⟩
  | some c =>
    have ha := applyCors_eq true c st.routes fun r hr => ⟨hi.stored r hr, Or.inl rfl⟩
    refine ⟨(corsRes true c (optUris st.routes) st.routes).1 ++ (corsRes true c (optUris st.routes) st.routes).2, ?_, ?_⟩
    · simp only [start, productionRoutes, removeOnlyDebug, if_true, ha]
    · intro u hu r hr
      have hseen : u ∈ optUris st.routes := by rw [mem_optUris]; exact hu
      constructor
      · intro hin
        rcases List.mem_append.1 hin with h | h
        · obtain ⟨j, hj, e⟩ := List.getElem_of_mem h
          rw [corsRes_length] at hj
          have hg := corsRes_get true c st.routes (optUris st.routes) j st.routes[j] (List.getElem?_eq_getElem hj)
          have e' : (corsRes true c (optUris st.routes) st.routes).1[j]? = some r := by
            rw [List.getElem?_eq_some_iff]; exact ⟨_, e⟩
          rw [e'] at hg
          simp only [Option.some.injEq] at hg
          by_cases hcond : st.routes[j].method = options ∨ st.routes[j].uri ∈ optUris st.routes ∨
              ∃ k s, k < j ∧ st.routes[k]? = some s ∧ s.uri = st.routes[j].uri ∧ s.method ≠ options
          · rw [if_pos hcond] at hg
            rw [hg]; exact List.getElem_mem hj
          · rw [if_neg hcond] at hg
            exfalso
            apply hcond
            right; left
            have : r.uri = st.routes[j].uri := by rw [hg]; rfl
            rw [← this, hr]; exact hseen
        · exact absurd (by rw [hr]; exact hseen) ((corsRes_new_uniq true c st.routes (optUris st.routes)).2 r h)
      · intro hin
        obtain ⟨j, hj, e⟩ := List.getElem_of_mem hin
        have hg := corsRes_get true c st.routes (optUris st.routes) j r (List.getElem?_eq_some_iff.2 ⟨hj, e⟩)
        rw [if_pos (Or.inr (Or.inl (by rw [hr]; exact hseen)))] at hg
        exact List.mem_append_left _ (List.mem_of_getElem? hg)

/-- **C174.**  For every application file that loads in debug mode, with or without settings for the whole application: a route for which a decorator asks for CORS is served, once, and so is
its path for `OPTIONS`.  Every response of its function (with no field of those names) is sent with exactly the configured fields added, a text, bytes or nothing
become a response with them; and a preflight request is answered with 200, no content and exactly the configured fields. -/
theorem C174_decorated_route (prog : List (List Deco)) (st : State) (h : load true prog = some st) (i : Nat) (ds : List Deco) (hi : prog[i]? = some ds) (s : Settings)
    (path method : Str) (dr : Bool) (ha : Asks ds s path method dr) (cors : Option Cors) :
    ∃ out ms, start true cors st.routes = some out ∧ s.methods = ms.map .str ∧
      (∃ r ∈ out, r.uri = path ∧ r.method = method ∧ (∀ r' ∈ out, r'.uri = path → r'.method = method → r' = r) ∧
        (∀ fns te code hs body, fns i = .response code hs body → (∀ h ∈ hs, ∀ w ∈ fields s ms, ¬ SameName h.name w.1) →
          ∃ added, answer st fns te r = .response code (hs ++ added) body ∧ pairs added = fields s ms) ∧
        (∀ fns te e body, fns i = e → ((∃ t, e = .text t ∧ body = utf8 t) ∨ e = .bytes body ∨ (e = .noneVal ∧ body = [])) →
          ∃ added, answer st fns te r = .response 200 added body ∧ pairs added = fields s ms)) ∧
      (∃ o ∈ out, o.uri = path ∧ o.method = b!"OPTIONS" ∧ (∀ o' ∈ out, o'.uri = path → o'.method = b!"OPTIONS" → o' = o) ∧
        ∀ fns te, ∃ hs, answer st fns te o = .response 200 hs [] ∧ PreflightFields s ms (pairs hs)) := by
  obtain ⟨hinv, hst, ms, n, hms, hp, ⟨r, hr, r1, r2, r3, r4, r5⟩, ho⟩ := asked_loaded h (fun _ _ => Or.inl rfl) hi ha (Or.inl rfl)
  obtain ⟨out, hout, hmem⟩ := start_debug_opt hinv cors
  have hopt : HasOpt st.routes path := ⟨_, ho, rfl, rfl⟩
  have hw := corsHeaders_wanted ⟨s.origin, ms, s.allow, s.expose, s.credentials, s.onlyDebug⟩
  simp only at hw
  have hlen : (corsHeaders ⟨s.origin, ms, s.allow, s.expose, s.credentials, s.onlyDebug⟩).length > 0 := by
    unfold corsHeaders; simp
  have hfn : r.func % 2 ≠ 1 ∧ r.func / 2 = i := by rw [r3]; omega
  refine ⟨out, ms, hout, hms, ⟨r, (hmem path hopt r r1).2 hr, r1, r2, ?_, ?_, ?_⟩, ⟨_, (hmem path hopt _ rfl).2 ho, rfl, rfl, ?_, ?_⟩⟩
  · intro r' hr' h1 h2
    exact hinv.unique ((hmem path hopt r' h1).1 hr') hr (by rw [h1, r1]) (by rw [h2, r2])
  · intro fns te code hs body hf hno
    refine ⟨corsHeaders ⟨s.origin, ms, s.allow, s.expose, s.credentials, s.onlyDebug⟩, ?_, hw⟩
    unfold answer
    rw [if_neg hfn.1, hfn.2, hf]
    simp only [handler, bodyOf, r4, if_pos hlen]
    rw [addDefaults_fresh _ _ (corsHeaders_distinct _)]
    intro x hx d hd he
    refine hno x hx (d.name, d.value) ?_ ((lower_eq_iff _ _).1 he)
    unfold fields
    rw [← hw]
    exact List.mem_map.2 ⟨d, hd, rfl⟩
  · intro fns te e body hf hcase
    have hadd : addDefaults [] (corsHeaders ⟨s.origin, ms, s.allow, s.expose, s.credentials, s.onlyDebug⟩) = corsHeaders ⟨s.origin, ms, s.allow, s.expose, s.credentials, s.onlyDebug⟩ := by
      rw [addDefaults_fresh _ _ (corsHeaders_distinct _) (by simp)]; rfl
    refine ⟨corsHeaders ⟨s.origin, ms, s.allow, s.expose, s.credentials, s.onlyDebug⟩, ?_, hw⟩
    unfold answer
    rw [if_neg hfn.1, hfn.2, hf]
    rcases hcase with ⟨t, rfl, rfl⟩ | rfl | ⟨rfl, rfl⟩ <;> simp only [handler, bodyOf, r4, if_pos hlen, hadd]
  · intro o' ho' h1 h2
    exact hinv.unique ((hmem path hopt o' h1).1 ho') ho h1 h2
  · intro fns te
    obtain ⟨hs, h1, h2⟩ := preflight_ok s ms hms
    refine ⟨hs, ?_, h2⟩
    unfold answer
    have : (2 * n + 1) % 2 = 1 ∧ (2 * n + 1) / 2 = n := by omega
    simp only [this.1, this.2, if_true, hp, h1, handler, bodyOf, List.length_nil, gt_iff_lt, Nat.lt_irrefl, if_false]

/-- Two functions under CORS, one of them with everything allowed. -/
def sample : List (List Deco) :=
  [[.route b!"/a" b!"GET" false false, .allow ⟨b!"http://x", [.str b!"GET"], [b!"X-T"], [], false, some 60, true⟩],
   [.route b!"/b" b!"POST" false false],
   [.route b!"/c" b!"GET" false false, .route b!"/d" b!"PUT" true false, .allowAll]]

example : ∃ st, load true sample = some st ∧ sample[0]? = some [.route b!"/a" b!"GET" false false, .allow ⟨b!"http://x", [.str b!"GET"], [b!"X-T"], [], false, some 60, true⟩] ∧
    Asks [.route b!"/a" b!"GET" false false, .allow ⟨b!"http://x", [.str b!"GET"], [b!"X-T"], [], false, some 60, true⟩]
      ⟨b!"http://x", [.str b!"GET"], [b!"X-T"], [], false, some 60, true⟩ b!"/a" b!"GET" false ∧
    Asks [.route b!"/c" b!"GET" false false, .route b!"/d" b!"PUT" true false, .allowAll] everything b!"/d" b!"PUT" true := by
  refine ⟨(load true sample).get (by decide +kernel), by simp, rfl, ⟨[], false, [], _, [], rfl, by simp, Or.inl rfl⟩,
    ⟨[.route b!"/c" b!"GET" false false], false, [], _, [], rfl, by simp, Or.inr ⟨rfl, rfl⟩⟩⟩

example : (load true sample).map (fun st => (start true none st.routes).map fun out => out.map fun r => (r.uri, r.method, r.func, r.headers.length)) =
    some (some [(b!"/a", b!"GET", 0, 3), (b!"/a", b!"OPTIONS", 1, 0), (b!"/b", b!"POST", 2, 0), (b!"/c", b!"GET", 4, 0), (b!"/d", b!"PUT", 4, 3), (b!"/d", b!"OPTIONS", 3, 0)]) := by
  decide +kernel

/-- Where the mark of a function comes from: the last route decorator so far. -/
def MarkFrom (done : List Deco) : Option Mark → Prop
  | none => True
  | some k => ∃ below od between, done = below ++ .route k.path k.method k.debugRoute od :: between ∧ ∀ p m a b, Deco.route p m a b ∉ between

theorem decos_headers {debug : Bool} {f : Nat} : ∀ (ds done : List Deco) {x y : State × Option Mark}, Inv x.1 → MarkGood debug x.1 f x.2 → Calm debug ds →
    MarkFrom done x.2 → decos debug f x ds = some y →
    ∀ r ∈ y.1.routes, r.headers ≠ [] → r ∈ x.1.routes ∨ ∃ s dr, Asks (done ++ ds) s r.uri r.method dr
  | [], done, x, y, _, _, _, _, h => by
    simp only [decos, Option.some.injEq] at h
    subst h
    exact fun r hr _ => Or.inl hr
  | d :: ds, done, x, y, hi, hm, hc, hf, h => by
    rw [decos] at h
    cases hs : step debug f x d with
    | none => rw [hs] at h; simp at h
    | some z =>
      rw [hs] at h
      obtain ⟨h1, h2, h3⟩ := step_ok hi hm hc.head hs
      have hfz : MarkFrom (done ++ [d]) z.2 ∧ ∀ r ∈ z.1.routes, r.headers ≠ [] → r ∈ x.1.routes ∨ ∃ s dr, Asks (done ++ d :: ds) s r.uri r.method dr := by
        obtain ⟨st, mk⟩ := x
        have hdeco : ∀ (s : Settings) (k : Mark) (st' : State), mk = some k → (d = .allow s ∨ (d = .allowAll ∧ s = everything)) → decorate debug s k st = some st' →
            MarkFrom (done ++ [d]) mk ∧ ∀ r ∈ st'.routes, r.headers ≠ [] → r ∈ st.routes ∨ ∃ s dr, Asks (done ++ d :: ds) s r.uri r.method dr := by
          intro s k st' hk hds hd
          subst hk
          obtain ⟨below, od, between, e, hb⟩ := hf
          have hnr : ∀ p m a b, d ≠ .route p m a b := by
            intro p m a b e
            subst e
            rcases hds with h | h <;> simp at h
          refine ⟨⟨below, od, between ++ [d], by rw [e]; simp, ?_⟩, ?_⟩
          · intro p m a b hmem
            rcases List.mem_append.1 hmem with h | h
            · exact hb p m a b h
            · exact hnr p m a b (List.mem_singleton.1 h).symm
          · obtain ⟨_, _, _, ms, _, _, _, _, hall⟩ := decorate_ok hi hm.1 (hm.2 k rfl) hd
            intro r hr hne
            rcases hall r hr with h | h | ⟨e1, e2, _⟩
            · exact Or.inl h
            · rw [h] at hne; simp at hne
            · exact Or.inr ⟨s, k.debugRoute, below, od, between, d, ds, by rw [e, e1, e2], hb, hds⟩
        cases d with
        | route path method dr od =>
          simp only [step] at hs
          have hd : debug = true ∨ dr = false := by
            rcases hc.head with h | h
            · exact Or.inl h
            · cases dr with
              | false => exact Or.inr rfl
              | true => exact absurd (List.mem_singleton.2 rfl) (h path method od)
          cases ha : appRoute debug st.routes path method (2 * f) dr od with
          | none => rw [ha] at hs; simp at hs
          | some rs =>
            rw [ha] at hs
            simp only [Option.some.injEq] at hs
            subst hs
            obtain ⟨u, hu, hn, rfl⟩ := appRoute_some hd ha
            refine ⟨⟨done, od, [], rfl, by simp⟩, fun r hr hne => ?_⟩
            rcases List.mem_append.1 hr with h | h
            · exact Or.inl h
            · rw [List.mem_singleton.1 h] at hne; simp at hne
        | allow s =>
          cases mk with
          | none => simp [step] at hs
          | some k =>
            simp only [step] at hs
            split at hs
            · simp only [Option.some.injEq] at hs
              subst hs
              obtain ⟨below, od, between, e, hb⟩ := hf
              refine ⟨⟨below, od, between ++ [.allow s], by rw [e]; simp, fun p m a b hmem => ?_⟩, fun r hr _ => Or.inl hr⟩
              rcases List.mem_append.1 hmem with h | h
              · exact hb p m a b h
              · simp at h
            · cases hd : decorate debug s k st with
              | none => rw [hd] at hs; simp at hs
              | some st' =>
                rw [hd] at hs
                simp only [Option.map_some, Option.some.injEq] at hs
                subst hs
                exact hdeco s k st' rfl (Or.inl rfl) hd
        | allowAll =>
          cases mk with
          | none => simp [step] at hs
          | some k =>
            simp only [step] at hs
            cases hd : decorate debug allSettings k st with
            | none => rw [hd] at hs; simp at hs
            | some st' =>
              rw [hd] at hs
              simp only [Option.map_some, Option.some.injEq] at hs
              subst hs
              exact hdeco allSettings k st' rfl (Or.inr ⟨rfl, rfl⟩) hd
      have ih := decos_headers ds (done ++ [d]) h1 h2 hc.tail hfz.1 h
      intro r hr hne
      rcases ih r hr hne with h | ⟨s, dr, h⟩
      · exact hfz.2 r h hne
      · exact Or.inr ⟨s, dr, by rwa [List.append_assoc] at h⟩

theorem load_headers {debug : Bool} : ∀ (prog : List (List Deco)) {n : Nat} {st st' : State}, Inv st → (∀ ds ∈ prog, Calm debug ds) →
    loadFrom debug n st prog = some st' → ∀ r ∈ st'.routes, r.headers ≠ [] → r ∈ st.routes ∨ ∃ ds ∈ prog, ∃ s dr, Asks ds s r.uri r.method dr
  | [], n, st, st', hi, _, h => by
    simp only [loadFrom, Option.some.injEq] at h
    subst h
    exact fun r hr _ => Or.inl hr
  | ds :: l, n, st, st', hi, hc, h => by
    rw [loadFrom] at h
    cases hs : decos debug n (st, none) ds with
    | none => rw [hs] at h; simp at h
    | some x =>
      rw [hs] at h
      obtain ⟨h1, _, h3⟩ := decos_ok ds (x := (st, none)) hi ⟨trivial, by simp⟩ (hc ds (by simp)) hs
      intro r hr hne
      rcases load_headers l h1 (fun d hd => hc d (by simp [hd])) h r hr hne with h' | ⟨d, hd, h'⟩
      · rcases decos_headers ds [] (x := (st, none)) hi ⟨trivial, by simp⟩ (hc ds (by simp)) trivial hs r h' hne with h'' | ⟨s, dr, h''⟩
        · exact Or.inl h''
        · exact Or.inr ⟨ds, by simp, s, dr, h''⟩
      · exact Or.inr ⟨d, by simp [hd], h'⟩

/-- **C174.**  A route for which no decorator asks for CORS is not touched: started without settings for the whole application, its function's results reach the server as they are. -/
theorem C174_other_routes (prog : List (List Deco)) (st : State) (h : load true prog = some st) (r : Route) (out : List Route) (hs : start true none st.routes = some out) (hr : r ∈ out)
    (hno : ∀ ds ∈ prog, ∀ s dr, ¬ Asks ds s r.uri r.method dr) (hfun : r.func % 2 = 0) (fns : Nat → Ending) (te : List Nat) :
    (∀ code hs body, fns (r.func / 2) = .response code hs body → answer st fns te r = .response code hs body) ∧
    (∀ t, fns (r.func / 2) = .text t → answer st fns te r = .text t) ∧
    (∀ b, fns (r.func / 2) = .bytes b → answer st fns te r = .bytes b) ∧
    (fns (r.func / 2) = .noneVal → answer st fns te r = .noneVal) := by
  have hr' : r ∈ st.routes := by
    simp only [start, productionRoutes, removeOnlyDebug, if_true, Option.some.injEq] at hs
    rw [hs]; exact hr
  have hh : r.headers = [] := Classical.byContradiction fun hne => by
    rcases load_headers prog inv_nil (fun _ _ => Or.inl rfl) h r hr' hne with h' | ⟨ds, hds, s, dr, h'⟩
    · simp at h'
    · exact hno ds hds s dr h'
  unfold answer
  rw [if_neg (by omega)]
  refine ⟨?_, ?_, ?_, ?_⟩ <;> intros <;> simp only [*, handler, bodyOf, List.length_nil, gt_iff_lt, Nat.lt_irrefl, if_false]

/-! ## C175 -/

/-- The definition without the decorators that are for debugging only. -/
def withoutDebugOnly (ds : List Deco) : List Deco := ds.filter fun d => match d with | .allow s => !s.onlyDebug | _ => true

theorem decos_without (f : Nat) : ∀ (ds : List Deco) (x y : State × Option Mark), decos false f x ds = some y → decos false f x (withoutDebugOnly ds) = some y
  | [], x, y, h => h
  | d :: ds, x, y, h => by
    rw [decos] at h
    cases hs : step false f x d with
    | none => rw [hs] at h; simp at h
    | some z =>
      rw [hs] at h
      have ih := decos_without f ds z y h
      cases d with
      | route p m a b => simp only [withoutDebugOnly, List.filter_cons, if_true, decos, hs] at ih ⊢; exact ih
      | allowAll => simp only [withoutDebugOnly, List.filter_cons, if_true, decos, hs] at ih ⊢; exact ih
      | allow s =>
        cases ho : s.onlyDebug with
        | false => simp only [withoutDebugOnly, List.filter_cons, ho, Bool.not_false, if_true, decos, hs] at ih ⊢; exact ih
        | true =>
          have : z = x := by
            obtain ⟨st, mk⟩ := x
            cases mk with
            | none => simp [step] at hs
            | some k => simp only [step, ho, Bool.not_false, Bool.and_true, if_true, Option.some.injEq] at hs; exact hs.symm
          subst this
          simp only [withoutDebugOnly, List.filter_cons, ho, Bool.not_true, Bool.false_eq_true, if_false] at ih ⊢
          exact ih

theorem load_without : ∀ (prog : List (List Deco)) (n : Nat) (st st' : State), loadFrom false n st prog = some st' →
    loadFrom false n st (prog.map withoutDebugOnly) = some st'
  | [], n, st, st', h => h
  | ds :: l, n, st, st', h => by
    rw [loadFrom] at h
    cases hs : decos false n (st, none) ds with
    | none => rw [hs] at h; simp at h
    | some x =>
      rw [hs] at h
      rw [List.map_cons, loadFrom, decos_without n ds _ _ hs]
      exact load_without l (n + 1) x.1 st' h

/-- **C175 (partial).**  In an application made for production (`Fly(debug=False)`) decorators for debugging only leave no trace: the file without them gives the same application. -/
theorem C175_no_trace_partial (prog : List (List Deco)) (st : State) (h : load false prog = some st) : load false (prog.map withoutDebugOnly) = some st :=
  load_without prog 0 _ st h

/-- No route of the file is for debugging. -/
def AllServed (prog : List (List Deco)) : Prop := ∀ ds ∈ prog, ∀ p m dr od, Deco.route p m dr od ∈ ds → dr = false ∧ od = false

theorem AllServed.calm {prog : List (List Deco)} (h : AllServed prog) : ∀ ds ∈ prog, Calm false ds :=
  fun ds hds => Or.inr fun p m od hm => absurd (h ds hds p m true od hm).1 (by decide)

/-- A route that production keeps. -/
def Kept (r : Route) : Prop := r.debugRoute = false ∧ r.onlyDebug = false

theorem decorate_kept {s : Settings} {k : Mark} {st st' : State} (hs : s.onlyDebug = false) (hk : k.debugRoute = false) (h0 : ∀ r ∈ st.routes, Kept r)
    (h : decorate false s k st = some st') : ∀ r ∈ st'.routes, Kept r := by
  unfold decorate at h
  cases ha : appRoute false st.routes k.path options (2 * st.pre.length + 1) k.debugRoute s.onlyDebug with
  | none => rw [ha] at h; simp at h
  | some rs1 =>
    rw [ha] at h
    simp only at h
    obtain ⟨u, _, _, rfl⟩ := appRoute_some (Or.inr hk) ha
    cases ht : texts s.methods with
    | none => rw [ht] at h; simp at h
    | some ms =>
      rw [ht] at h
      simp only at h
      cases hg : giveLast ⟨s.origin, ms, s.allow, s.expose, s.credentials, s.onlyDebug⟩ k.path k.method
          (st.routes ++ [⟨u, options, 2 * st.pre.length + 1, k.debugRoute, s.onlyDebug, false, [], []⟩]) with
      | none => rw [hg] at h; simp at h
      | some rs2 =>
        rw [hg] at h
        simp only [Option.some.injEq] at h
        subst h
        obtain ⟨pre, r, post, e1, e2, _, _⟩ := giveLast_some _ _ _ _ _ hg
        have hall : ∀ x ∈ pre ++ r :: post, Kept x := by
          rw [← e1]
          intro x hx
          rcases List.mem_append.1 hx with h | h
          · exact h0 x h
          · rw [List.mem_singleton.1 h]; exact ⟨hk, hs⟩
        intro x hx
        simp only [e2] at hx
        rcases List.mem_append.1 hx with h | h
        · exact hall x (List.mem_append_left _ h)
        · rcases List.mem_cons.1 h with rfl | h
          · exact hall r (by simp)
          · exact hall x (by simp [h])

theorem decos_kept {f : Nat} : ∀ (ds : List Deco) {x y : State × Option Mark}, (∀ p m dr od, Deco.route p m dr od ∈ ds → dr = false ∧ od = false) →
    (∀ k, x.2 = some k → k.debugRoute = false) → (∀ r ∈ x.1.routes, Kept r) → decos false f x ds = some y → ∀ r ∈ y.1.routes, Kept r
  | [], x, y, _, _, h0, h => by
    simp only [decos, Option.some.injEq] at h
    subst h
    exact h0
  | d :: ds, x, y, hp, hk, h0, h => by
    rw [decos] at h
    cases hs : step false f x d with
    | none => rw [hs] at h; simp at h
    | some z =>
      rw [hs] at h
      have hz : (∀ k, z.2 = some k → k.debugRoute = false) ∧ ∀ r ∈ z.1.routes, Kept r := by
        obtain ⟨st, mk⟩ := x
        cases d with
        | route path method dr od =>
          obtain ⟨rfl, rfl⟩ := hp path method dr od (by simp)
          simp only [step] at hs
          cases ha : appRoute false st.routes path method (2 * f) false false with
          | none => rw [ha] at hs; simp at hs
          | some rs =>
            rw [ha] at hs
            simp only [Option.some.injEq] at hs
            subst hs
            obtain ⟨u, _, _, rfl⟩ := appRoute_some (Or.inr rfl) ha
            refine ⟨by intro k hk; simp only [Option.some.injEq] at hk; rw [← hk], fun r hr => ?_⟩
            rcases List.mem_append.1 hr with h | h
            · exact h0 r h
            · rw [List.mem_singleton.1 h]; exact ⟨rfl, rfl⟩
        | allow s =>
          cases mk with
          | none => simp [step] at hs
          | some k =>
            simp only [step] at hs
            split at hs
            · simp only [Option.some.injEq] at hs
              subst hs
              exact ⟨hk, h0⟩
            · next hn =>
              cases hd : decorate false s k st with
              | none => rw [hd] at hs; simp at hs
              | some st' =>
                rw [hd] at hs
                simp only [Option.map_some, Option.some.injEq] at hs
                subst hs
                exact ⟨hk, decorate_kept (by simpa using hn) (hk k rfl) h0 hd⟩
        | allowAll =>
          cases mk with
          | none => simp [step] at hs
          | some k =>
            simp only [step] at hs
            cases hd : decorate false allSettings k st with
            | none => rw [hd] at hs; simp at hs
            | some st' =>
              rw [hd] at hs
              simp only [Option.map_some, Option.some.injEq] at hs
              subst hs
              exact ⟨hk, decorate_kept rfl (hk k rfl) h0 hd⟩
      exact decos_kept ds (fun p m dr od hm => hp p m dr od (by simp [hm])) hz.1 hz.2 h

theorem load_kept : ∀ (prog : List (List Deco)) {n : Nat} {st st' : State}, AllServed prog → (∀ r ∈ st.routes, Kept r) → loadFrom false n st prog = some st' → ∀ r ∈ st'.routes, Kept r
  | [], n, st, st', _, h0, h => by
    simp only [loadFrom, Option.some.injEq] at h
    subst h
    exact h0
  | ds :: l, n, st, st', hp, h0, h => by
    rw [loadFrom] at h
    cases hs : decos false n (st, none) ds with
    | none => rw [hs] at h; simp at h
    | some x =>
      rw [hs] at h
      exact load_kept l (fun d hd => hp d (by simp [hd])) (decos_kept ds (x := (st, none)) (hp ds (by simp)) (by simp) h0 hs) h

theorem start_production {prog : List (List Deco)} {st : State} (h : load false prog = some st) (hp : AllServed prog) : start false none st.routes = some (st.routes.map strip) := by
  have hk := load_kept prog hp (by simp) h
  have hf : st.routes.filter (fun r => !r.debugRoute) = st.routes := List.filter_eq_self.2 fun r hr => by simp [(hk r hr).1]
  simp only [start, productionRoutes, hf, Bool.false_eq_true, if_false]
  rw [sweep_none_debug _ fun r hr => (hk r hr).2]

/-- **C175 (partial).**  An application made for production: the path of a route with CORS in production is served for `OPTIONS`, once, and a preflight request gets every configured field. -/
theorem C175_preflight_partial (prog : List (List Deco)) (st : State) (h : load false prog = some st) (hp : AllServed prog) (i : Nat) (ds : List Deco) (hi : prog[i]? = some ds) (s : Settings)
    (path method : Str) (dr : Bool) (ha : Asks ds s path method dr) (ho : s.onlyDebug = false) :
    ∃ out ms, start false none st.routes = some out ∧ s.methods = ms.map .str ∧
      ∃ o ∈ out, o.uri = path ∧ o.method = b!"OPTIONS" ∧ (∀ o' ∈ out, o'.uri = path → o'.method = b!"OPTIONS" → o' = o) ∧
        ∀ fns te, ∃ hs, answer st fns te o = .response 200 hs [] ∧ PreflightFields s ms (pairs hs) := by
  obtain ⟨hinv, hst, ms, n, hms, hpn, _, hopt⟩ := asked_loaded h hp.calm hi ha (Or.inr ho)
  refine ⟨_, ms, start_production h hp, hms, ⟨path, options, 2 * n + 1, dr, s.onlyDebug, false, [], []⟩, List.mem_map.2 ⟨_, hopt, rfl⟩, rfl, rfl, ?_, ?_⟩
  · intro o' ho' h1 h2
    obtain ⟨o0, hm, rfl⟩ := List.mem_map.1 ho'
    have := hinv.unique hm hopt h1 h2
    rw [this]; rfl
  · intro fns te
    obtain ⟨hs, h1, h2⟩ := preflight_ok s ms hms
    refine ⟨hs, ?_, h2⟩
    unfold answer
    have : (2 * n + 1) % 2 = 1 ∧ (2 * n + 1) / 2 = n := by omega
    simp only [this.1, this.2, if_true, hpn, h1, handler, bodyOf, List.length_nil, gt_iff_lt, Nat.lt_irrefl, if_false]

/-- **C175 (refuted).**  In every application made for production, a route with CORS in production (`only_debug=False`) answers without `Access-Control-Allow-Origin`: the
preflight succeeds, the response to the request itself is then refused by the browser.  (`Access-Control-Allow-Origin` is always noted as a field for debugging only.) -/
theorem C175_origin_refuted (prog : List (List Deco)) (st : State) (h : load false prog = some st) (hp : AllServed prog) (i : Nat) (ds : List Deco) (hi : prog[i]? = some ds) (s : Settings)
    (path method : Str) (dr : Bool) (ha : Asks ds s path method dr) (ho : s.onlyDebug = false) :
    ∃ out, start false none st.routes = some out ∧ ∃ r ∈ out, r.uri = path ∧ r.method = method ∧ (∀ r' ∈ out, r'.uri = path → r'.method = method → r' = r) ∧
      ∀ fns te code body, fns i = .response code [] body → ∃ hs, (answer st fns te r = .response code hs body) ∧ ∀ h ∈ hs, h.name ≠ b!"Access-Control-Allow-Origin" := by
  obtain ⟨hinv, hst, ms, n, hms, hpn, ⟨r, hr, r1, r2, r3, r4, r5⟩, hopt⟩ := asked_loaded h hp.calm hi ha (Or.inr ho)
  refine ⟨_, start_production h hp, strip r, List.mem_map.2 ⟨_, hr, rfl⟩, r1, r2, ?_, ?_⟩
  · intro r' hr' h1 h2
    obtain ⟨r0, hm, rfl⟩ := List.mem_map.1 hr'
    have := hinv.unique hm hr (h1.trans r1.symm) (h2.trans r2.symm)
    rw [this]
  · intro fns te code body hf
    have hsh : (strip r).headers = corsRest ⟨s.origin, ms, s.allow, s.expose, s.credentials, s.onlyDebug⟩ := by
      have := strip_withCors ⟨s.origin, ms, s.allow, s.expose, s.credentials, s.onlyDebug⟩ { r with headers := [], debugNames := [] } ⟨rfl, rfl⟩ ho
      rw [← this]
      congr 1
      cases r
      simp only at r4 r5
      subst r4 r5
      rfl
    have hfn : (strip r).func % 2 ≠ 1 ∧ (strip r).func / 2 = i := by
      have : (strip r).func = 2 * i := r3
      omega
    unfold answer
    rw [if_neg hfn.1, hfn.2, hf]
    simp only [handler, bodyOf]
    have hrest := corsRest_names ⟨s.origin, ms, s.allow, s.expose, s.credentials, s.onlyDebug⟩
    split
    · refine ⟨_, rfl, ?_⟩
      rw [hsh]
      have hd := corsHeaders_distinct ⟨s.origin, ms, s.allow, s.expose, s.credentials, s.onlyDebug⟩
      have hd' : (corsRest ⟨s.origin, ms, s.allow, s.expose, s.credentials, s.onlyDebug⟩).Pairwise (fun a b => lower a.name ≠ lower b.name) := hd.sublist (List.tail_sublist _)
      rw [addDefaults_fresh _ _ hd' (by simp), List.nil_append]
      exact fun x hx e => hrest x hx e.symm
    · exact ⟨_, rfl, by simp⟩

def prodSample : List (List Deco) := [[.route b!"/a" b!"GET" false false, .allow ⟨b!"http://x", [.str b!"GET"], [], [], true, none, false⟩]]

example : AllServed prodSample := by
  intro ds hds p m dr od hm
  rcases List.mem_singleton.1 hds with rfl
  simp at hm
  exact ⟨hm.2.2.1, hm.2.2.2⟩

example : ∃ st, load false prodSample = some st ∧ st.routes.length = 2 := ⟨_, rfl, by decide⟩

/-! ### `--production` -/

/-- Definitions with one route and CORS for debugging only. -/
structure Def where
  path : Str
  method : Str
  s : Settings
  ms : List Str

def Def.ok (d : Def) : Prop := StoredPath d.path ∧ d.method ≠ options ∧ d.s.methods = d.ms.map .str ∧ d.s.onlyDebug = true

def Def.decos (d : Def) : List Deco := [.route d.path d.method false false, .allow d.s]

def Def.cors (d : Def) : Cors := ⟨d.s.origin, d.ms, d.s.allow, d.s.expose, d.s.credentials, d.s.onlyDebug⟩

/-- The two routes of the `n`-th definition, with the preflight function `k`. -/
def Def.get (d : Def) (n : Nat) : Route := ⟨d.path, d.method, 2 * n, false, false, true, corsHeaders d.cors, corsDebugNames d.cors⟩
def Def.opt (d : Def) (k : Nat) : Route := ⟨d.path, options, 2 * k + 1, false, true, true, [], []⟩

def twos : Nat → Nat → List Def → List Route
  | _, _, [] => []
  | n, k, d :: l => d.get n :: d.opt k :: twos (n + 1) (k + 1) l

theorem giveLast_skip (c : Cors) (u m : Str) : ∀ (pre rs rs' : List Route), giveLast c u m rs = some rs' → giveLast c u m (pre ++ rs) = some (pre ++ rs')
  | [], rs, rs', h => h
  | r :: pre, rs, rs', h => by
    rw [List.cons_append, giveLast, giveLast_skip c u m pre rs rs' h]
    rfl

/-- A fresh definition loads. -/
theorem decos_fresh (debug : Bool) (n : Nat) (st : State) (p m : Str) (dr od : Bool) (s : Settings) (ms : List Str) (hst : StoredPath p) (hm : m ≠ options) (hms : s.methods = ms.map .str)
    (hd : debug = true ∨ dr = false) (hact : debug = true ∨ s.onlyDebug = false) (hn : ∀ r ∈ st.routes, r.uri = p → r.method ≠ m ∧ r.method ≠ options) :
    decos debug n (st, none) [.route p m dr od, .allow s] = some (⟨st.routes ++
      [⟨p, m, 2 * n, dr, od, debug, corsHeaders ⟨s.origin, ms, s.allow, s.expose, s.credentials, s.onlyDebug⟩, corsDebugNames ⟨s.origin, ms, s.allow, s.expose, s.credentials, s.onlyDebug⟩⟩,
       ⟨p, options, 2 * st.pre.length + 1, dr, s.onlyDebug, debug, [], []⟩], st.pre ++ [s]⟩, some ⟨p, m, dr⟩) := by
  have h1 := appRoute_ok (rs := st.routes) (f := 2 * n) (od := od) (method := m) hd (stored_self hst) (fun r hr h => (hn r hr h.2).1 h.1)
  have h2 := appRoute_ok (rs := st.routes ++ [⟨p, m, 2 * n, dr, od, debug, [], []⟩]) (f := 2 * st.pre.length + 1) (od := s.onlyDebug) (method := options) hd (stored_self hst) (by
    intro r hr h
    rcases List.mem_append.1 hr with hr | hr
    · exact (hn r hr h.2).2 h.1
    · rw [List.mem_singleton.1 hr] at h
      exact hm h.1)
  have hact' : (s.onlyDebug && !debug) = false := by rcases hact with h | h <;> simp [h]
  have hg : giveLast ⟨s.origin, ms, s.allow, s.expose, s.credentials, s.onlyDebug⟩ p m
      ((st.routes ++ [⟨p, m, 2 * n, dr, od, debug, [], []⟩]) ++ [⟨p, options, 2 * st.pre.length + 1, dr, s.onlyDebug, debug, [], []⟩]) = some (st.routes ++
      [⟨p, m, 2 * n, dr, od, debug, corsHeaders ⟨s.origin, ms, s.allow, s.expose, s.credentials, s.onlyDebug⟩, corsDebugNames ⟨s.origin, ms, s.allow, s.expose, s.credentials, s.onlyDebug⟩⟩,
       ⟨p, options, 2 * st.pre.length + 1, dr, s.onlyDebug, debug, [], []⟩]) := by
    rw [List.append_assoc]
    apply giveLast_skip
    simp [giveLast, Ne.symm hm]
  simp only [decos, step, h1, hact', Bool.false_eq_true, if_false, decorate, h2, (texts_some _ _).2 hms, hg, Option.map_some]

theorem load_twos : ∀ (l : List Def) (n : Nat) (st : State), (∀ d ∈ l, d.ok) → l.Pairwise (fun a b => a.path ≠ b.path) → (∀ d ∈ l, ∀ r ∈ st.routes, r.uri ≠ d.path) →
    loadFrom true n st (l.map Def.decos) = some ⟨st.routes ++ twos n st.pre.length l, st.pre ++ l.map (·.s)⟩
  | [], n, st, _, _, _ => by simp [loadFrom, twos]
  | d :: l, n, st, hok, hp, hn => by
    obtain ⟨h1, h2, h3, h4⟩ := hok d (by simp)
    obtain ⟨p1, p2⟩ := List.pairwise_cons.1 hp
    rw [List.map_cons, loadFrom, Def.decos, decos_fresh true n st d.path d.method false false d.s d.ms h1 h2 h3 (Or.inl rfl) (Or.inl rfl) (fun r hr e => absurd e (hn d (by simp) r hr))]
    simp only
    rw [load_twos l (n + 1) _ (fun x hx => hok x (by simp [hx])) p2 (by
      intro x hx r hr
      rcases List.mem_append.1 hr with hr | hr
      · exact hn x (by simp [hx]) r hr
      · simp only [List.mem_cons, List.not_mem_nil, or_false] at hr
        rcases hr with rfl | rfl <;> exact p1 x hx)]
    simp only [List.length_append, List.length_cons, List.length_nil, Nat.zero_add, twos, Def.get, Def.opt, Def.cors, h4, List.append_assoc, List.map_cons, List.cons_append, List.nil_append]

theorem twos_served : ∀ (l : List Def) (n k : Nat), ∀ r ∈ twos n k l, r.debugRoute = false
  | [], n, k, r, h => by simp [twos] at h
  | d :: l, n, k, r, h => by
    simp only [twos, List.mem_cons] at h
    rcases h with rfl | rfl | h
    · rfl
    · rfl
    · exact twos_served l _ _ r h

def gets : Nat → List Def → List Route
  | _, [] => []
  | n, d :: l => d.get n :: gets (n + 1) l

/-- The walk takes out each `OPTIONS` route and skips the route behind it. -/
theorem sweep_twos : ∀ (l : List Def) (n k fuel : Nat) (done : List Route) (o : Route), o.onlyDebug = true → 2 * l.length + 1 < fuel →
    sweep fuel (done ++ o :: twos n k l) done.length = done ++ gets n l
  | [], n, k, fuel, done, o, ho, hf => by
    match fuel, hf with
    | fuel + 2, _ =>
      rw [sweep]
      simp only [twos, List.getElem?_append_right (Nat.le_refl _), Nat.sub_self, List.getElem?_cons_zero, ho, if_true]
      rw [List.eraseIdx_append_of_length_le (Nat.le_refl _), Nat.sub_self, List.eraseIdx_cons_zero, sweep]
      have : (done ++ [] : List Route)[done.length + 1]? = none := by rw [List.append_nil]; exact List.getElem?_eq_none (by omega)
      rw [this]
      rfl
  | d :: l, n, k, fuel, done, o, ho, hf => by
    match fuel, hf with
    | fuel + 1, hf =>
      rw [sweep]
      simp only [List.getElem?_append_right (Nat.le_refl _), Nat.sub_self, List.getElem?_cons_zero, ho, if_true]
      rw [List.eraseIdx_append_of_length_le (Nat.le_refl _), Nat.sub_self, List.eraseIdx_cons_zero]
      have := sweep_twos l (n + 1) (k + 1) fuel (done ++ [d.get n]) (d.opt k) rfl (by simp only [List.length_cons] at hf; omega)
      simp only [List.append_assoc, List.singleton_append, List.length_append, List.length_cons, List.length_nil, Nat.zero_add] at this
      simp only [twos, gets]
      exact this

theorem gets_mem : ∀ (l : List Def) (n i : Nat) (d : Def), l[i]? = some d → d.get (n + i) ∈ gets n l
  | [], n, i, d, h => by simp at h
  | x :: l, n, 0, d, h => by
    simp only [List.getElem?_cons_zero, Option.some.injEq] at h
    subst h
    simp [gets]
  | x :: l, n, i + 1, d, h => by
    rw [List.getElem?_cons_succ] at h
    have := gets_mem l (n + 1) i d h
    rw [show n + (i + 1) = n + 1 + i by omega]
    simp [gets, this]

/-- **C175 (refuted).**  An application of definitions with one route and CORS for debugging only each, run with `--production`: from the second one on every route keeps all its CORS
fields, although no path has a preflight answer any more.  (The application is put together in debug mode; the walk that takes out what is for debugging skips the route behind every route it removes.) -/
theorem C175_production_refuted (d : Def) (l : List Def) (hok : ∀ x ∈ d :: l, x.ok) (hp : (d :: l).Pairwise (fun a b => a.path ≠ b.path)) :
    ∃ st out, load true ((d :: l).map Def.decos) = some st ∧ start (runCommand true ⟨true, st.routes⟩).debug none st.routes = some out ∧
      (∀ r ∈ out, r.method ≠ b!"OPTIONS") ∧
      ∀ (i : Nat) (x : Def), l[i]? = some x → ∃ r ∈ out, r.uri = x.path ∧ r.method = x.method ∧ pairs r.headers = fields x.s x.ms := by
  have hl := load_twos (d :: l) 0 ⟨[], []⟩ hok hp (by simp)
  simp only [List.nil_append, List.length_nil] at hl
  have hf : (twos 0 0 (d :: l)).filter (fun r => !r.debugRoute) = twos 0 0 (d :: l) := List.filter_eq_self.2 fun r hr => by simp [twos_served _ _ _ r hr]
  have hlen : ∀ (l : List Def) (n k : Nat), (twos n k l).length = 2 * l.length := by
    intro l
    induction l with
    | nil => intro n k; rfl
    | cons x l ih => intro n k; simp only [twos, List.length_cons, ih]; omega
  have hsw : sweep ((twos 0 0 (d :: l)).length + 1) (twos 0 0 (d :: l)) 0 = [strip (d.get 0)] ++ gets 1 l := by
    have h0 := sweep_twos l 1 1 (twos 0 0 (d :: l)).length [strip (d.get 0)] (d.opt 0) rfl (by rw [hlen]; simp only [List.length_cons]; omega)
    rw [← h0, sweep]
    rfl
  refine ⟨_, [strip (d.get 0)] ++ gets 1 l, hl, ?_, ?_, ?_⟩
  · simp only [runCommand, if_true, start, productionRoutes, removeOnlyDebug, Bool.false_eq_true, if_false, hf, hsw]
  · have hg : ∀ (l : List Def) (n : Nat), (∀ x ∈ l, x.ok) → ∀ r ∈ gets n l, r.method ≠ options := by
      intro l
      induction l with
      | nil => intro n _ r hr; simp [gets] at hr
      | cons x l ih =>
        intro n hx r hr
        simp only [gets, List.mem_cons] at hr
        rcases hr with rfl | hr
        · exact (hx x (by simp)).2.1
        · exact ih _ (fun y hy => hx y (by simp [hy])) r hr
    intro r hr
    rcases List.mem_append.1 hr with hr | hr
    · rw [List.mem_singleton.1 hr]; exact (hok d (by simp)).2.1
    · exact hg l 1 (fun y hy => hok y (by simp [hy])) r hr
  · intro i x hx
    exact ⟨_, List.mem_append_right _ (gets_mem l 1 i x hx), rfl, rfl, corsHeaders_wanted _⟩

/-! ## C176 -/

theorem load_append (debug : Bool) : ∀ (prog l : List (List Deco)) (n : Nat) (st : State),
    loadFrom debug n st (prog ++ l) = (loadFrom debug n st prog).bind fun st' => loadFrom debug (n + prog.length) st' l
  | [], l, n, st => by simp [loadFrom]
  | ds :: prog, l, n, st => by
    rw [List.cons_append, loadFrom, loadFrom]
    cases decos debug n (st, none) ds with
    | none => rfl
    | some x =>
      simp only
      rw [load_append debug prog l (n + 1) x.1, List.length_cons, show n + 1 + prog.length = n + (prog.length + 1) by omega]

/-- One more definition. -/
theorem load_one (debug : Bool) (prog : List (List Deco)) (ds : List Deco) :
    load debug (prog ++ [ds]) = (load debug prog).bind fun st => (decos debug prog.length (st, none) ds).map (·.1) := by
  unfold load
  rw [load_append]
  cases loadFrom debug 0 ⟨[], []⟩ prog with
  | none => rfl
  | some st =>
    simp only [Option.bind_some, Nat.zero_add, loadFrom]
    cases decos debug prog.length (st, none) ds with
    | none => rfl
    | some x => rfl

/-- **C176 (partial).**  A definition with one route and an active CORS decorator can be added to every application that loads, if its path is written the way it is stored, its method is not `OPTIONS`,
the path is not routed for that method or `OPTIONS` yet, the methods allowed are given as texts, and outside debug mode it is not a debug route. -/
theorem C176_loads_partial (debug : Bool) (prog : List (List Deco)) (st : State) (h : load debug prog = some st) (p m : Str) (dr od : Bool) (s : Settings) (ms : List Str)
    (hst : StoredPath p) (hm : m ≠ b!"OPTIONS") (hms : s.methods = ms.map .str) (hd : debug = true ∨ dr = false) (hact : debug = true ∨ s.onlyDebug = false)
    (hn : ∀ r ∈ st.routes, r.uri = p → r.method ≠ m ∧ r.method ≠ b!"OPTIONS") :
    ∃ st', load debug (prog ++ [[.route p m dr od, .allow s]]) = some st' := by
  rw [load_one, h, Option.bind_some, decos_fresh debug prog.length st p m dr od s ms hst hm hms hd hact hn]
  exact ⟨_, rfl⟩

theorem decorate_none_of {debug : Bool} {s : Settings} {k : Mark} {st : State} (h : ∀ st', decorate debug s k st ≠ some st') : decorate debug s k st = none := by
  cases hd : decorate debug s k st with
  | none => rfl
  | some x => exact absurd hd (h x)

theorem appRoute_stored {debug : Bool} {rs rs' : List Route} {path method : Str} {f : Nat} {dr od : Bool} (h0 : ∀ r ∈ rs, StoredPath r.uri)
    (h : appRoute debug rs path method f dr od = some rs') : ∀ r ∈ rs', StoredPath r.uri := by
  by_cases hd : debug = true ∨ dr = false
  · obtain ⟨u, hu, _, rfl⟩ := appRoute_some hd h
    intro r hr
    rcases List.mem_append.1 hr with hr | hr
    · exact h0 r hr
    · rw [List.mem_singleton.1 hr]; exact pathOf_stored hu
  · have : debug = false ∧ dr = true := by cases debug <;> cases dr <;> simp at hd ⊢
    obtain ⟨rfl, rfl⟩ := this
    simp only [appRoute, Bool.not_false, Bool.true_and, if_true, Option.some.injEq] at h
    rw [← h]; exact h0

theorem decorate_stored {debug : Bool} {s : Settings} {k : Mark} {st st' : State} (h0 : ∀ r ∈ st.routes, StoredPath r.uri) (h : decorate debug s k st = some st') :
    ∀ r ∈ st'.routes, StoredPath r.uri := by
  unfold decorate at h
  cases ha : appRoute debug st.routes k.path options (2 * st.pre.length + 1) k.debugRoute s.onlyDebug with
  | none => rw [ha] at h; simp at h
  | some rs1 =>
    rw [ha] at h
    simp only at h
    have h1 := appRoute_stored h0 ha
    cases ht : texts s.methods with
    | none => rw [ht] at h; simp at h
    | some ms =>
      rw [ht] at h
      simp only at h
      cases hg : giveLast ⟨s.origin, ms, s.allow, s.expose, s.credentials, s.onlyDebug⟩ k.path k.method rs1 with
      | none => rw [hg] at h; simp at h
      | some rs2 =>
        rw [hg] at h
        simp only [Option.some.injEq] at h
        subst h
        obtain ⟨pre, r, post, e1, e2, _, _⟩ := giveLast_some _ _ _ _ _ hg
        rw [e1] at h1
        intro x hx
        simp only [e2] at hx
        rcases List.mem_append.1 hx with h | h
        · exact h1 x (List.mem_append_left _ h)
        · rcases List.mem_cons.1 h with rfl | h
          · exact h1 r (by simp)
          · exact h1 x (by simp [h])

theorem decos_stored {debug : Bool} {f : Nat} : ∀ (ds : List Deco) {x y : State × Option Mark}, (∀ r ∈ x.1.routes, StoredPath r.uri) → decos debug f x ds = some y →
    ∀ r ∈ y.1.routes, StoredPath r.uri
  | [], x, y, h0, h => by
    simp only [decos, Option.some.injEq] at h
    rw [← h]; exact h0
  | d :: ds, x, y, h0, h => by
    rw [decos] at h
    cases hs : step debug f x d with
    | none => rw [hs] at h; simp at h
    | some z =>
      rw [hs] at h
      refine decos_stored ds ?_ h
      obtain ⟨st, mk⟩ := x
      cases d with
      | route p m a b =>
        simp only [step] at hs
        cases ha : appRoute debug st.routes p m (2 * f) a b with
        | none => rw [ha] at hs; simp at hs
        | some rs =>
          rw [ha] at hs
          simp only [Option.some.injEq] at hs
          rw [← hs]
          exact appRoute_stored h0 ha
      | allow s =>
        cases mk with
        | none => simp [step] at hs
        | some k =>
          simp only [step] at hs
          split at hs
          · simp only [Option.some.injEq] at hs; rw [← hs]; exact h0
          · cases hd : decorate debug s k st with
            | none => rw [hd] at hs; simp at hs
            | some st' => rw [hd] at hs; simp only [Option.map_some, Option.some.injEq] at hs; rw [← hs]; exact decorate_stored h0 hd
      | allowAll =>
        cases mk with
        | none => simp [step] at hs
        | some k =>
          simp only [step] at hs
          cases hd : decorate debug allSettings k st with
          | none => rw [hd] at hs; simp at hs
          | some st' => rw [hd] at hs; simp only [Option.map_some, Option.some.injEq] at hs; rw [← hs]; exact decorate_stored h0 hd

theorem load_stored {debug : Bool} : ∀ (prog : List (List Deco)) {n : Nat} {st st' : State}, (∀ r ∈ st.routes, StoredPath r.uri) → loadFrom debug n st prog = some st' →
    ∀ r ∈ st'.routes, StoredPath r.uri
  | [], n, st, st', h0, h => by
    simp only [loadFrom, Option.some.injEq] at h
    rw [← h]; exact h0
  | ds :: l, n, st, st', h0, h => by
    rw [loadFrom] at h
    cases hs : decos debug n (st, none) ds with
    | none => rw [hs] at h; simp at h
    | some x =>
      rw [hs] at h
      exact load_stored l (decos_stored ds (x := (st, none)) h0 hs) h

/-- **C176 (refuted).**  A path that is not written the way it is stored: repeated slashes or a newline at the end.  The route alone loads and is served;
with CORS on it the application never starts (the decorator looks for the path as written and fails). -/
theorem C176_path_refuted (debug : Bool) (prog : List (List Deco)) (st : State) (h : load debug prog = some st) (p u m : Str) (dr od : Bool) (s : Settings) (hu : PathOf p u) (hne : u ≠ p)
    (hd : debug = true ∨ dr = false) (hact : debug = true ∨ s.onlyDebug = false) (hn : ∀ r ∈ st.routes, r.uri = u → r.method ≠ m) :
    (∃ st', load debug (prog ++ [[.route p m dr od]]) = some st') ∧ load debug (prog ++ [[.route p m dr od, .allow s]]) = none := by
  have h1 := appRoute_ok (rs := st.routes) (f := 2 * prog.length) (od := od) (method := m) hd hu (fun r hr e => hn r hr e.2 e.1)
  have hact' : (s.onlyDebug && !debug) = false := by rcases hact with h | h <;> simp [h]
  have hstored := load_stored prog (n := 0) (st := ⟨[], []⟩) (by simp) h
  refine ⟨?_, ?_⟩
  · rw [load_one, h, Option.bind_some]
    simp only [decos, step, h1]
    exact ⟨_, rfl⟩
  · rw [load_one, h, Option.bind_some]
    simp only [decos, step, h1, hact', Bool.false_eq_true, if_false]
    rw [decorate_none_of]
    · rfl
    · intro st' hdec
      unfold decorate at hdec
      simp only at hdec
      cases ha : appRoute debug (st.routes ++ [⟨u, m, 2 * prog.length, dr, od, debug, [], []⟩]) p options (2 * st.pre.length + 1) dr s.onlyDebug with
      | none => rw [ha] at hdec; simp at hdec
      | some rs1 =>
        rw [ha] at hdec
        obtain ⟨u', hu', _, rfl⟩ := appRoute_some hd ha
        have : u' = u := by
          obtain ⟨t, ht, rfl⟩ := (pathOf_iff _ _).1 hu'
          obtain ⟨t', ht', rfl⟩ := (pathOf_iff _ _).1 hu
          rw [ht] at ht'
          cases ht'
          rfl
        subst this
        cases ht : texts s.methods with
        | none => rw [ht] at hdec; simp at hdec
        | some ms =>
          rw [ht] at hdec
          simp only at hdec
          rw [(giveLast_none _ _ _ _).2] at hdec
          · simp at hdec
          · intro r hr e
            have hst : StoredPath r.uri := by
              rcases List.mem_append.1 hr with hr | hr
              · rcases List.mem_append.1 hr with hr | hr
                · exact hstored r hr
                · rw [List.mem_singleton.1 hr]; exact pathOf_stored hu
              · rw [List.mem_singleton.1 hr]; exact pathOf_stored hu
            rw [e.1] at hst
            obtain ⟨t, ht, rfl⟩ := (pathOf_iff _ _).1 hu
            obtain ⟨t', ht', he⟩ := (pathOf_iff _ _).1 (stored_self hst)
            rw [ht] at ht'
            cases ht'
            exact hne he.symm

/-- An active decorator leaves its path with an `OPTIONS` route, or fails. -/
theorem decorate_opt {debug : Bool} {s : Settings} {k : Mark} {st st' : State} (hd : debug = true ∨ k.debugRoute = false) (h : decorate debug s k st = some st') :
    ∃ u, PathOf k.path u ∧ (∀ r ∈ st.routes, ¬ (r.method = options ∧ r.uri = u)) ∧ HasOpt st'.routes u := by
  unfold decorate at h
  cases ha : appRoute debug st.routes k.path options (2 * st.pre.length + 1) k.debugRoute s.onlyDebug with
  | none => rw [ha] at h; simp at h
  | some rs1 =>
    rw [ha] at h
    simp only at h
    obtain ⟨u, hu, hn, rfl⟩ := appRoute_some hd ha
    cases ht : texts s.methods with
    | none => rw [ht] at h; simp at h
    | some ms =>
      rw [ht] at h
      simp only at h
      cases hg : giveLast ⟨s.origin, ms, s.allow, s.expose, s.credentials, s.onlyDebug⟩ k.path k.method
          (st.routes ++ [⟨u, options, 2 * st.pre.length + 1, k.debugRoute, s.onlyDebug, debug, [], []⟩]) with
      | none => rw [hg] at h; simp at h
      | some rs2 =>
        rw [hg] at h
        simp only [Option.some.injEq] at h
        subst h
        refine ⟨u, hu, hn, ?_⟩
        obtain ⟨pre, r, post, e1, e2, _, _⟩ := giveLast_some _ _ _ _ _ hg
        have : (⟨u, options, 2 * st.pre.length + 1, k.debugRoute, s.onlyDebug, debug, [], []⟩ : Route) ∈ pre ++ r :: post := by rw [← e1]; simp
        show HasOpt rs2 u
        rw [e2]
        rcases List.mem_append.1 this with h | h
        · exact ⟨_, List.mem_append_left _ h, rfl, rfl⟩
        · rcases List.mem_cons.1 h with h | h
          · exact ⟨withCors ⟨s.origin, ms, s.allow, s.expose, s.credentials, s.onlyDebug⟩ r, by simp [withCors], by rw [← h]; rfl, by rw [← h]; rfl⟩
          · exact ⟨_, List.mem_append_right _ (List.mem_cons_of_mem _ h), rfl, rfl⟩

/-- **C176 (refuted).**  Two routes with the same path and different methods, both with CORS, never load, whatever else the application has: both decorators register the path for `OPTIONS`. -/
theorem C176_second_method_refuted (debug : Bool) (prog : List (List Deco)) (p m m' : Str) (dr od dr' od' : Bool) (s s' : Settings) (hd : debug = true ∨ (dr = false ∧ dr' = false))
    (hact : debug = true ∨ (s.onlyDebug = false ∧ s'.onlyDebug = false)) :
    load debug (prog ++ [[.route p m dr od, .allow s], [.route p m' dr' od', .allow s']]) = none := by
  have hact1 : (s.onlyDebug && !debug) = false := by rcases hact with h | h <;> simp [h]
  have hact2 : (s'.onlyDebug && !debug) = false := by rcases hact with h | h <;> simp [h]
  have hd1 : debug = true ∨ dr = false := hd.imp_right And.left
  have hd2 : debug = true ∨ dr' = false := hd.imp_right And.right
  rw [show prog ++ [[Deco.route p m dr od, .allow s], [.route p m' dr' od', .allow s']] = (prog ++ [[.route p m dr od, .allow s]]) ++ [[.route p m' dr' od', .allow s']] by simp,
    load_one, load_one]
  cases load debug prog with
  | none => rfl
  | some st =>
    simp only [Option.bind_some, decos, step, hact1, hact2, Bool.false_eq_true, if_false]
    cases ha : appRoute debug st.routes p m (2 * prog.length) dr od with
    | none => rfl
    | some rs =>
      simp only
      cases hdec : decorate debug s ⟨p, m, dr⟩ ⟨rs, st.pre⟩ with
      | none => rfl
      | some st1 =>
        simp only [Option.map_some, Option.bind_some]
        obtain ⟨u, hu, _, ho⟩ := decorate_opt hd1 hdec
        cases ha2 : appRoute debug st1.routes p m' (2 * (prog ++ [[Deco.route p m dr od, .allow s]]).length) dr' od' with
        | none => rfl
        | some rs2 =>
          simp only
          rw [decorate_none_of]
          · rfl
          · intro st' hdec2
            obtain ⟨u', hu', hn', _⟩ := decorate_opt hd2 hdec2
            have : u' = u := by
              obtain ⟨t, ht, rfl⟩ := (pathOf_iff _ _).1 hu'
              obtain ⟨t', ht', rfl⟩ := (pathOf_iff _ _).1 hu
              simp only at ht ht'
              rw [ht] at ht'
              cases ht'
              rfl
            subst this
            obtain ⟨v, _, _, rfl⟩ := appRoute_some hd2 ha2
            obtain ⟨o, ho, h1, h2⟩ := ho
            exact hn' o (List.mem_append_left _ ho) ⟨h2, h1⟩

/-- **C176 (refuted).**  A member of `Method` among `allow_methods`, which the check of the arguments accepts, never loads. -/
theorem C176_method_member_refuted (debug : Bool) (prog : List (List Deco)) (p m : Str) (dr od : Bool) (s : Settings) (v : Str) (hv : .member v ∈ s.methods)
    (hact : debug = true ∨ s.onlyDebug = false) : load debug (prog ++ [[.route p m dr od, .allow s]]) = none := by
  have hact1 : (s.onlyDebug && !debug) = false := by rcases hact with h | h <;> simp [h]
  have ht : texts s.methods = none := by
    cases ht : texts s.methods with
    | none => rfl
    | some ms =>
      rw [(texts_some _ _).1 ht] at hv
      simp at hv
  rw [load_one]
  cases load debug prog with
  | none => rfl
  | some st =>
    simp only [Option.bind_some, decos, step, hact1, Bool.false_eq_true, if_false]
    cases ha : appRoute debug st.routes p m (2 * prog.length) dr od with
    | none => rfl
    | some rs =>
      simp only [decorate, ht]
      cases appRoute debug rs p options (2 * st.pre.length + 1) dr s.onlyDebug <;> rfl

/-- **C176 (refuted).**  A debug route with CORS also in production (`@all_allow_cors` or `only_debug=False`) makes every application made for production fail to load, where
without CORS the route is just left out. -/
theorem C176_debug_route_refuted (prog : List (List Deco)) (st : State) (h : load false prog = some st) (p m : Str) (od : Bool) (s : Settings) (ho : s.onlyDebug = false)
    (hn : ∀ r ∈ st.routes, r.uri = p → r.method ≠ m) :
    load false (prog ++ [[.route p m true od]]) = some st ∧ load false (prog ++ [[.route p m true od, .allow s]]) = none ∧
    load false (prog ++ [[.route p m true od, .allowAll]]) = none := by
  have ha : ∀ f od, appRoute false st.routes p m f true od = some st.routes := by intro f od; simp [appRoute]
  have ha' : ∀ f od, appRoute false st.routes p options f true od = some st.routes := by intro f od; simp [appRoute]
  have hg : ∀ c, giveLast c p m st.routes = none := fun c => (giveLast_none c p m _).2 fun r hr e => hn r hr e.1 e.2
  refine ⟨?_, ?_, ?_⟩
  · rw [load_one, h, Option.bind_some]
    simp only [decos, step, ha]
    rfl
  · rw [load_one, h, Option.bind_some]
    simp only [decos, step, ha, ho, Bool.false_and, Bool.false_eq_true, if_false, decorate, ha', hg]
    cases texts s.methods <;> rfl
  · rw [load_one, h, Option.bind_some]
    simp only [decos, step, ha, decorate, ha', hg]
    cases texts allSettings.methods <;> rfl

/-- The hypotheses meet: on top of `sample`. -/
example : PathOf b!"/x//y" b!"/x/y" ∧ (load true (sample ++ [[.route b!"/x//y" b!"GET" false false]])).isSome = true ∧
    load true (sample ++ [[.route b!"/x//y" b!"GET" false false, .allowAll]]) = none := by
  refine ⟨(pathOf_iff _ _).2 ?_, by decide +kernel, by decide +kernel⟩
  exact ⟨_, rfl, rfl⟩

end Fly.PyCors
