import Verif.PyCors.Spec
import Verif.PyRoute.Lemmas
import Verif.Response.Props

/-! # Lemmas about loading an application file -/

namespace Fly.PyCors
open PyRoute
open PyRoute.Spec

/-! ## Registration -/

theorem appRoute_some {debug : Bool} {rs rs' : List Route} {path method : Str} {f : Nat} {dr od : Bool} (hd : debug = true ∨ dr = false)
    (h : appRoute debug rs path method f dr od = some rs') :
    ∃ u, PathOf path u ∧ (∀ r ∈ rs, ¬ (r.method = method ∧ r.uri = u)) ∧ rs' = rs ++ [⟨u, method, f, dr, od, debug, [], []⟩] := by
  unfold appRoute at h
  rw [if_neg (by rcases hd with rfl | rfl <;> simp)] at h
  rcases register_cases rs ⟨path, method, some f, debug, dr, od⟩ with ⟨u, f', h1, h2, h3, h4⟩ | ⟨h1, _⟩
  · rw [h4] at h
    simp only [Option.some.injEq] at h h2
    subst h2
    exact ⟨u, h1, h3, h.symm⟩
  · rw [h1] at h
    simp at h

theorem appRoute_ok {debug : Bool} {rs : List Route} {path u method : Str} {f : Nat} {dr od : Bool} (hd : debug = true ∨ dr = false) (hp : PathOf path u)
    (hn : ∀ r ∈ rs, ¬ (r.method = method ∧ r.uri = u)) :
    appRoute debug rs path method f dr od = some (rs ++ [⟨u, method, f, dr, od, debug, [], []⟩]) := by
  unfold appRoute
  rw [if_neg (by rcases hd with rfl | rfl <;> simp)]
  rcases register_cases rs ⟨path, method, some f, debug, dr, od⟩ with ⟨u', f', h1, h2, h3, h4⟩ | ⟨_, h⟩
  · rw [h4]
    simp only [Option.some.injEq] at h2
    subst h2
    have : u' = u := by
      obtain ⟨t, ht, rfl⟩ := (pathOf_iff _ _).1 h1
      obtain ⟨t', ht', rfl⟩ := (pathOf_iff _ _).1 hp
      rw [ht] at ht'
      cases ht'
      rfl
    subst this
    rfl
  · rcases h with h | h | ⟨u', h1, r, hr, h2, h3⟩
    · exact absurd ⟨u, hp⟩ h
    · simp at h
    · have : u' = u := by
        obtain ⟨t, ht, rfl⟩ := (pathOf_iff _ _).1 h1
        obtain ⟨t', ht', rfl⟩ := (pathOf_iff _ _).1 hp
        rw [ht] at ht'
        cases ht'
        rfl
      subst this
      exact absurd ⟨h2, h3⟩ (hn r hr)

/-! ## The headers -/

theorem giveLast_some (c : Cors) (u m : Str) : ∀ (rs rs' : List Route), giveLast c u m rs = some rs' →
    ∃ pre r post, rs = pre ++ r :: post ∧ rs' = pre ++ withCors c r :: post ∧ r.uri = u ∧ r.method = m
  | [], rs', h => by simp [giveLast] at h
  | r :: l, rs', h => by
    rw [giveLast] at h
    cases hg : giveLast c u m l with
    | some l' =>
      rw [hg] at h
      simp only [Option.some.injEq] at h
      obtain ⟨pre, x, post, e1, e2, e3⟩ := giveLast_some c u m l l' hg
      exact ⟨r :: pre, x, post, by rw [e1]; rfl, by rw [← h, e2]; rfl, e3⟩
    | none =>
      rw [hg] at h
      simp only at h
      split at h
      · next hm =>
        simp only [Option.some.injEq] at h
        exact ⟨[], r, l, rfl, h.symm, hm⟩
      · simp at h

theorem giveLast_none (c : Cors) (u m : Str) : ∀ rs : List Route, giveLast c u m rs = none ↔ ∀ r ∈ rs, ¬ (r.uri = u ∧ r.method = m)
  | [] => by simp [giveLast]
  | r :: l => by
    have ih := giveLast_none c u m l
    rw [giveLast]
    cases hg : giveLast c u m l with
    | some l' =>
      simp only [reduceCtorEq, false_iff]
      intro h
      have := ih.2 fun x hx => h x (by simp [hx])
      rw [hg] at this
      simp at this
    | none =>
      simp only
      have h1 := ih.1 hg
      split
      · next hm => simp only [reduceCtorEq, false_iff]; intro h; exact h r (by simp) hm
      · next hm =>
        simp only [true_iff]
        intro x hx
        rcases List.mem_cons.1 hx with rfl | hx
        · exact hm
        · exact h1 x hx

theorem texts_some : ∀ (l : List Item) (ms : List Str), texts l = some ms ↔ l = ms.map .str
  | [], ms => by
    rw [texts]
    constructor
    · intro h; simp only [Option.some.injEq] at h; rw [← h]; rfl
    · intro h; cases ms with
      | nil => rfl
      | cons a b => simp at h
  | .member v :: l, ms => by
    rw [texts]
    constructor
    · intro h; simp at h
    · intro h; cases ms with
      | nil => simp at h
      | cons a b => simp at h
  | .str s :: l, ms => by
    rw [texts]
    have ih := texts_some l
    constructor
    · intro h
      cases ht : texts l with
      | none => rw [ht] at h; simp at h
      | some ms' =>
        rw [ht] at h
        simp only [Option.map_some, Option.some.injEq] at h
        rw [← h, (ih ms').1 ht]
        rfl
    · intro h; cases ms with
      | nil => simp at h
      | cons a b =>
        simp only [List.map_cons, List.cons.injEq, Item.str.injEq] at h
        rw [(ih b).2 h.2, h.1]
        rfl

/-! ## Invariant -/

/-- A path with an `OPTIONS` route. -/
def HasOpt (rs : List Route) (u : Str) : Prop := ∃ o ∈ rs, o.uri = u ∧ o.method = options

structure Inv (st : State) : Prop where
  uniq : st.routes.Pairwise (fun r s => ¬ (r.uri = s.uri ∧ r.method = s.method))
  stored : ∀ r ∈ st.routes, StoredPath r.uri
  hdr : ∀ r ∈ st.routes, r.headers ≠ [] ∨ r.debugNames ≠ [] → HasOpt st.routes r.uri

/-- Everything about a route but its headers. -/
def key (r : Route) : Str × Str × Nat × Bool × Bool × Bool := (r.uri, r.method, r.func, r.debugRoute, r.onlyDebug, r.baseDebug)

/-- Routes only get more; those of a path with an `OPTIONS` route stay as they are. -/
structure Ext (st st' : State) : Prop where
  routes : ∀ r ∈ st.routes, ∃ r' ∈ st'.routes, key r' = key r ∧ (HasOpt st.routes r.uri → r' = r)
  pre : st.pre <+: st'.pre

theorem Ext.refl (st : State) : Ext st st := ⟨fun r hr => ⟨r, hr, rfl, fun _ => rfl⟩, List.prefix_refl _⟩

theorem Ext.opt {st st' : State} (h : Ext st st') {u : Str} (ho : HasOpt st.routes u) : HasOpt st'.routes u := by
  obtain ⟨o, ho, h1, h2⟩ := ho
  obtain ⟨o', ho', hk, _⟩ := h.routes o ho
  simp only [key, Prod.mk.injEq] at hk
  exact ⟨o', ho', by rw [hk.1, h1], by rw [hk.2.1, h2]⟩

theorem Ext.trans {a b c : State} (h : Ext a b) (h' : Ext b c) : Ext a c where
  routes r hr := by
    obtain ⟨r1, h1, k1, e1⟩ := h.routes r hr
    obtain ⟨r2, h2, k2, e2⟩ := h'.routes r1 h1
    refine ⟨r2, h2, k2.trans k1, fun ho => ?_⟩
    have := e1 ho
    subst this
    exact e2 (h.opt ho)
  pre := h.pre.trans h'.pre

/-- The function's mark names one of its own routes. -/
def MarkOk (st : State) (f : Nat) : Option Mark → Prop
  | none => True
  | some k => ∃ r ∈ st.routes, PathOf k.path r.uri ∧ r.method = k.method ∧ r.func = 2 * f

theorem MarkOk.ext {st st' : State} (h : Ext st st') {f : Nat} : ∀ {mk : Option Mark}, MarkOk st f mk → MarkOk st' f mk
  | none, _ => trivial
  | some k, hm => by
    obtain ⟨r, hr, h1, h2, h3⟩ := hm
    obtain ⟨r', hr', hk, _⟩ := h.routes r hr
    simp only [key, Prod.mk.injEq] at hk
    exact ⟨r', hr', by rw [hk.1]; exact h1, by rw [hk.2.1]; exact h2, by rw [hk.2.2.1]; exact h3⟩

theorem add_ok {st : State} (hi : Inv st) {u : Str} (hu : StoredPath u) (method : Str) (f : Nat) (dr od bd : Bool)
    (hn : ∀ r ∈ st.routes, ¬ (r.method = method ∧ r.uri = u)) (l : List Settings) :
    Inv ⟨st.routes ++ [⟨u, method, f, dr, od, bd, [], []⟩], st.pre ++ l⟩ ∧ Ext st ⟨st.routes ++ [⟨u, method, f, dr, od, bd, [], []⟩], st.pre ++ l⟩ := by
  refine ⟨⟨?_, ?_, ?_⟩, ⟨?_, List.prefix_append _ _⟩⟩
  · show List.Pairwise _ (_ ++ _)
    rw [List.pairwise_append]
    refine ⟨hi.uniq, by simp, ?_⟩
    intro a ha b hb
    rcases List.mem_singleton.1 hb with rfl
    rintro ⟨h1, h2⟩
    exact hn a ha ⟨h2, h1⟩
  · intro r hr
    rcases List.mem_append.1 hr with hr | hr
    · exact hi.stored r hr
    · rcases List.mem_singleton.1 hr with rfl
      exact hu
  · intro r hr h
    rcases List.mem_append.1 hr with hr | hr
    · obtain ⟨o, ho, e⟩ := hi.hdr r hr h
      exact ⟨o, List.mem_append_left _ ho, e⟩
    · rcases List.mem_singleton.1 hr with rfl
      simp at h
  · intro r hr
    exact ⟨r, List.mem_append_left _ hr, rfl, fun _ => rfl⟩

/-- What a decorator that takes effect does. -/
theorem decorate_ok {debug : Bool} {s : Settings} {k : Mark} {st st' : State} {f : Nat} (hi : Inv st) (hm : MarkOk st f (some k)) (hd : debug = true ∨ k.debugRoute = false)
    (h : decorate debug s k st = some st') :
    Inv st' ∧ Ext st st' ∧ StoredPath k.path ∧ ∃ ms, s.methods = ms.map .str ∧
      (∃ r ∈ st'.routes, r.uri = k.path ∧ r.method = k.method ∧ r.func = 2 * f ∧
        r.headers = corsHeaders ⟨s.origin, ms, s.allow, s.expose, s.credentials, s.onlyDebug⟩ ∧
        r.debugNames = corsDebugNames ⟨s.origin, ms, s.allow, s.expose, s.credentials, s.onlyDebug⟩) ∧
      (⟨k.path, options, 2 * st.pre.length + 1, k.debugRoute, s.onlyDebug, debug, [], []⟩ : Route) ∈ st'.routes ∧ st'.pre[st.pre.length]? = some s ∧
      (∀ r ∈ st'.routes, r ∈ st.routes ∨ r = ⟨k.path, options, 2 * st.pre.length + 1, k.debugRoute, s.onlyDebug, debug, [], []⟩ ∨
        (r.uri = k.path ∧ r.method = k.method ∧ ∃ r0 ∈ st.routes, key r0 = key r)) := by
  unfold decorate at h
  cases ha : appRoute debug st.routes k.path options (2 * st.pre.length + 1) k.debugRoute s.onlyDebug with
  | none => rw [ha] at h; simp at h
  | some rs1 =>
    rw [ha] at h
    simp only at h
    obtain ⟨u, hu, hn, rfl⟩ := appRoute_some hd ha
    cases ht : texts s.methods with
    | none => rw [ht] at h; simp at h
    | some ms =>
      rw [ht] at h
      simp only at h
      cases hg : giveLast ⟨s.origin, ms, s.allow, s.expose, s.credentials, s.onlyDebug⟩ k.path k.method
          (st.routes ++ [⟨u, options, 2 * st.pre.length + 1, k.debugRoute, s.onlyDebug, debug, [], []⟩]) with
      | none => rw [hg] at h; simp at h
      | some rs2 =>
        rw [hg] at h
        simp only [Option.some.injEq] at h
        subst h
        obtain ⟨pre, r, post, e1, e2, e3, e4⟩ := giveLast_some _ _ _ _ _ hg
        obtain ⟨mr, hmr, m1, m2, m3⟩ := hm
        -- the path is stored as it is written
        obtain ⟨i1, x1⟩ := add_ok hi (pathOf_stored hu) options (2 * st.pre.length + 1) k.debugRoute s.onlyDebug debug hn [s]
        have hrm : r ∈ st.routes ++ [⟨u, options, 2 * st.pre.length + 1, k.debugRoute, s.onlyDebug, debug, [], []⟩] := by rw [e1]; simp
        have hst : StoredPath k.path := by rw [← e3]; exact i1.stored r hrm
        have huniqP : ∀ v, PathOf k.path v → v = k.path := by
          intro v hv
          obtain ⟨t, h1, rfl⟩ := (pathOf_iff _ _).1 hv
          obtain ⟨t', h1', h2'⟩ := (pathOf_iff _ _).1 (stored_self hst)
          rw [h1] at h1'
          cases h1'
          exact h2'.symm
        have hu' : u = k.path := huniqP u hu
        have hmu : mr.uri = k.path := huniqP _ m1
        subst hu'
        have hmne : k.method ≠ options := fun e => hn mr hmr ⟨by rw [m2, e], hmu⟩
        have hro : r ∈ st.routes := by
          rcases List.mem_append.1 hrm with h | h
          · exact h
          · rcases List.mem_singleton.1 h with rfl
            exact absurd e4.symm hmne
        -- the route found is the marked one
        have hreq : ∀ x ∈ st.routes, x.uri = k.path → x.method = k.method → x = r := by
          intro x hx h1 h2
          exact Classical.byContradiction fun hne => by
            have hp := hi.uniq
            rw [List.pairwise_iff_getElem] at hp
            obtain ⟨i, hi1, hi2⟩ := List.getElem_of_mem hx
            obtain ⟨j, hj1, hj2⟩ := List.getElem_of_mem hro
            rcases Nat.lt_trichotomy i j with hl | hl | hl
            · exact hp i j hi1 hj1 hl ⟨by rw [hi2, hj2, h1, e3], by rw [hi2, hj2, h2, e4]⟩
            · subst hl; exact hne (by rw [← hi2, ← hj2])
            · exact hp j i hj1 hi1 hl ⟨by rw [hi2, hj2, h1, e3], by rw [hi2, hj2, h2, e4]⟩
        have hmr' := hreq mr hmr hmu m2
        have hplain : r.headers = [] ∧ r.debugNames = [] := by
          have hno : ¬ HasOpt st.routes r.uri := by
            rintro ⟨o, ho, h1, h2⟩
            exact hn o ho ⟨h2, by rw [h1, e3]⟩
          refine ⟨?_, ?_⟩
          · exact Classical.byContradiction fun hne => hno (hi.hdr r hro (Or.inl hne))
          · exact Classical.byContradiction fun hne => hno (hi.hdr r hro (Or.inr hne))
        have hopt : (⟨k.path, options, 2 * st.pre.length + 1, k.debugRoute, s.onlyDebug, debug, [], []⟩ : Route) ∈ rs2 := by
          have hin : (⟨k.path, options, 2 * st.pre.length + 1, k.debugRoute, s.onlyDebug, debug, [], []⟩ : Route) ∈ pre ++ r :: post := by rw [← e1]; simp
          rw [e2]
          rcases List.mem_append.1 hin with h | h
          · exact List.mem_append_left _ h
          · rcases List.mem_cons.1 h with h | h
            · exact absurd (by rw [← e4, ← h]) hmne
            · exact List.mem_append_right _ (List.mem_cons_of_mem _ h)
        have hmem : ∀ x ∈ rs2, x = withCors ⟨s.origin, ms, s.allow, s.expose, s.credentials, s.onlyDebug⟩ r ∨
            x ∈ st.routes ++ [⟨k.path, options, 2 * st.pre.length + 1, k.debugRoute, s.onlyDebug, debug, [], []⟩] := by
          intro x hx
          rw [e2] at hx
          rcases List.mem_append.1 hx with h | h
          · right; rw [e1]; exact List.mem_append_left _ h
          · rcases List.mem_cons.1 h with h | h
            · exact Or.inl h
            · right; rw [e1]; exact List.mem_append_right _ (List.mem_cons_of_mem _ h)
        refine ⟨⟨?_, ?_, ?_⟩, ⟨?_, List.prefix_append _ _⟩, hst, ms, (texts_some _ _).1 ht,
          ⟨withCors ⟨s.origin, ms, s.allow, s.expose, s.credentials, s.onlyDebug⟩ r, ?_, e3, e4, ?_, ?_, ?_⟩, hopt, by simp, ?_⟩
        · show rs2.Pairwise _
          have := i1.uniq
          rw [show (State.routes _) = _ from rfl, e1, List.pairwise_append, List.pairwise_cons] at this
          obtain ⟨p1, ⟨p2, p3⟩, p4⟩ := this
          rw [e2, List.pairwise_append, List.pairwise_cons]
          refine ⟨p1, ⟨p2, p3⟩, ?_⟩
          intro a ha b hb
          rcases List.mem_cons.1 hb with rfl | hb
          · exact p4 a ha r (by simp)
          · exact p4 a ha b (by simp [hb])
        · intro x hx
          rcases hmem x hx with rfl | h
          · exact i1.stored r hrm
          · exact i1.stored x h
        · intro x hx hh
          rcases hmem x hx with rfl | h
          · exact ⟨_, hopt, e3.symm, rfl⟩
          · obtain ⟨o, ho, h1, h2⟩ := i1.hdr x h hh
            rw [show (State.routes _) = _ from rfl, e1] at ho
            show HasOpt rs2 x.uri
            rcases List.mem_append.1 ho with h' | h'
            · exact ⟨o, by rw [e2]; exact List.mem_append_left _ h', h1, h2⟩
            · rcases List.mem_cons.1 h' with rfl | h'
              · exact absurd (e4.symm.trans h2) hmne
              · exact ⟨o, by rw [e2]; exact List.mem_append_right _ (List.mem_cons_of_mem _ h'), h1, h2⟩
        · intro x hx
          by_cases hxr : x = r
          · subst hxr
            refine ⟨withCors ⟨s.origin, ms, s.allow, s.expose, s.credentials, s.onlyDebug⟩ x, by rw [e2]; exact List.mem_append_right _ (List.mem_cons_self ..), rfl, fun ho => ?_⟩
            obtain ⟨o, ho, h1, h2⟩ := ho
            exact absurd ⟨h2, by rw [h1, e3]⟩ (hn o ho)
          · refine ⟨x, ?_, rfl, fun _ => rfl⟩
            have hin : x ∈ pre ++ r :: post := by rw [← e1]; exact List.mem_append_left _ hx
            rw [e2]
            rcases List.mem_append.1 hin with h | h
            · exact List.mem_append_left _ h
            · rcases List.mem_cons.1 h with h | h
              · exact absurd h hxr
              · exact List.mem_append_right _ (List.mem_cons_of_mem _ h)
        · rw [e2]; exact List.mem_append_right _ (List.mem_cons_self ..)
        · show r.func = _; rw [← hmr']; exact m3
        · show r.headers ++ _ = _; rw [hplain.1]; rfl
        · show r.debugNames ++ _ = _; rw [hplain.2]; rfl
        · intro x hx
          rcases hmem x hx with rfl | h
          · exact Or.inr (Or.inr ⟨e3, e4, r, hro, rfl⟩)
          · rcases List.mem_append.1 h with h | h
            · exact Or.inl h
            · rcases List.mem_singleton.1 h with rfl
              exact Or.inr (Or.inl rfl)

/-! ## Loading -/

/-- Outside debug mode debug routes are left out of account. -/
def Calm (debug : Bool) (ds : List Deco) : Prop := debug = true ∨ ∀ p m od, Deco.route p m true od ∉ ds

def MarkGood (debug : Bool) (st : State) (f : Nat) (mk : Option Mark) : Prop := MarkOk st f mk ∧ ∀ k, mk = some k → debug = true ∨ k.debugRoute = false

theorem everything_eq : everything = allSettings := rfl

theorem step_ok {debug : Bool} {f : Nat} {x y : State × Option Mark} {d : Deco} (hi : Inv x.1) (hm : MarkGood debug x.1 f x.2) (hc : Calm debug [d])
    (h : step debug f x d = some y) : Inv y.1 ∧ MarkGood debug y.1 f y.2 ∧ Ext x.1 y.1 := by
  obtain ⟨st, mk⟩ := x
  cases d with
  | route path method dr od =>
    have hd : debug = true ∨ dr = false := by
      rcases hc with h | h
      · exact Or.inl h
      · cases dr with
        | false => exact Or.inr rfl
        | true => exact absurd (List.mem_singleton.2 rfl) (h path method od)
    simp only [step] at h
    cases ha : appRoute debug st.routes path method (2 * f) dr od with
    | none => rw [ha] at h; simp at h
    | some rs =>
      rw [ha] at h
      simp only [Option.some.injEq] at h
      subst h
      obtain ⟨u, hu, hn, rfl⟩ := appRoute_some hd ha
      obtain ⟨i1, x1⟩ := add_ok hi (pathOf_stored hu) method (2 * f) dr od debug hn []
      rw [List.append_nil] at i1 x1
      refine ⟨i1, ⟨⟨_, List.mem_append_right _ (List.mem_singleton.2 rfl), hu, rfl, rfl⟩, ?_⟩, x1⟩
      intro k hk
      simp only [Option.some.injEq] at hk
      subst hk
      exact hd
  | allow s =>
    cases mk with
    | none => simp [step] at h
    | some k =>
      simp only [step] at h
      split at h
      · simp only [Option.some.injEq] at h
        subst h
        exact ⟨hi, hm, .refl _⟩
      · cases hd : decorate debug s k st with
        | none => rw [hd] at h; simp at h
        | some st' =>
          rw [hd] at h
          simp only [Option.map_some, Option.some.injEq] at h
          subst h
          obtain ⟨h1, h2, _⟩ := decorate_ok hi hm.1 (hm.2 k rfl) hd
          exact ⟨h1, ⟨MarkOk.ext h2 hm.1, hm.2⟩, h2⟩
  | allowAll =>
    cases mk with
    | none => simp [step] at h
    | some k =>
      simp only [step] at h
      cases hd : decorate debug allSettings k st with
      | none => rw [hd] at h; simp at h
      | some st' =>
        rw [hd] at h
        simp only [Option.map_some, Option.some.injEq] at h
        subst h
        obtain ⟨h1, h2, _⟩ := decorate_ok hi hm.1 (hm.2 k rfl) hd
        exact ⟨h1, ⟨MarkOk.ext h2 hm.1, hm.2⟩, h2⟩

theorem Calm.head {debug : Bool} {d : Deco} {ds : List Deco} (h : Calm debug (d :: ds)) : Calm debug [d] :=
  h.imp_right fun h p m od hm => h p m od (by rw [List.mem_singleton.1 hm]; simp)

theorem Calm.tail {debug : Bool} {d : Deco} {ds : List Deco} (h : Calm debug (d :: ds)) : Calm debug ds :=
  h.imp_right fun h p m od hm => h p m od (List.mem_cons_of_mem _ hm)

theorem Calm.left {debug : Bool} {l l' : List Deco} (h : Calm debug (l ++ l')) : Calm debug l :=
  h.imp_right fun h p m od hm => h p m od (List.mem_append_left _ hm)

theorem Calm.right {debug : Bool} {l l' : List Deco} (h : Calm debug (l ++ l')) : Calm debug l' :=
  h.imp_right fun h p m od hm => h p m od (List.mem_append_right _ hm)

theorem decos_ok {debug : Bool} {f : Nat} : ∀ (ds : List Deco) {x y : State × Option Mark}, Inv x.1 → MarkGood debug x.1 f x.2 → Calm debug ds →
    decos debug f x ds = some y → Inv y.1 ∧ MarkGood debug y.1 f y.2 ∧ Ext x.1 y.1
  | [], x, y, hi, hm, _, h => by
    simp only [decos, Option.some.injEq] at h
    subst h
    exact ⟨hi, hm, .refl _⟩
  | d :: ds, x, y, hi, hm, hc, h => by
    rw [decos] at h
    cases hs : step debug f x d with
    | none => rw [hs] at h; simp at h
    | some z =>
      rw [hs] at h
      obtain ⟨h1, h2, h3⟩ := step_ok hi hm hc.head hs
      obtain ⟨h4, h5, h6⟩ := decos_ok ds h1 h2 hc.tail h
      exact ⟨h4, h5, h3.trans h6⟩

theorem decos_append (debug : Bool) (f : Nat) : ∀ (l l' : List Deco) (x : State × Option Mark),
    decos debug f x (l ++ l') = (decos debug f x l).bind (decos debug f · l')
  | [], l', x => by simp [decos]
  | d :: l, l', x => by
    rw [List.cons_append, decos, decos]
    cases step debug f x d with
    | none => rfl
    | some y => exact decos_append debug f l l' y

/-- Only a route decorator changes the mark. -/
theorem decos_mark {debug : Bool} {f : Nat} : ∀ (ds : List Deco) {x y : State × Option Mark}, (∀ p m a b, Deco.route p m a b ∉ ds) →
    decos debug f x ds = some y → y.2 = x.2
  | [], x, y, _, h => by
    simp only [decos, Option.some.injEq] at h
    rw [h]
  | d :: ds, x, y, hn, h => by
    rw [decos] at h
    cases hs : step debug f x d with
    | none => rw [hs] at h; simp at h
    | some z =>
      rw [hs] at h
      have := decos_mark ds (fun p m a b hm => hn p m a b (List.mem_cons_of_mem _ hm)) h
      rw [this]
      obtain ⟨st, mk⟩ := x
      cases d with
      | route p m a b => exact absurd (List.mem_cons_self ..) (hn p m a b)
      | allow s =>
        cases mk with
        | none => simp [step] at hs
        | some k =>
          simp only [step] at hs
          split at hs
          · simp only [Option.some.injEq] at hs; rw [← hs]
          · cases hd : decorate debug s k st with
            | none => rw [hd] at hs; simp at hs
            | some st' => rw [hd] at hs; simp only [Option.map_some, Option.some.injEq] at hs; rw [← hs]
      | allowAll =>
        cases mk with
        | none => simp [step] at hs
        | some k =>
          simp only [step] at hs
          cases hd : decorate debug allSettings k st with
          | none => rw [hd] at hs; simp at hs
          | some st' => rw [hd] at hs; simp only [Option.map_some, Option.some.injEq] at hs; rw [← hs]

/-- A definition that asks for CORS, when the request takes effect: the state right after it. -/
theorem asked {debug : Bool} {f : Nat} {ds : List Deco} {s : Settings} {path method : Str} {dr : Bool} {st : State} {y : State × Option Mark} (hi : Inv st)
    (hc : Calm debug ds) (ha : Asks ds s path method dr) (hact : debug = true ∨ s.onlyDebug = false) (h : decos debug f (st, none) ds = some y) :
    ∃ st0 st1, Inv st0 ∧ MarkGood debug st0 f (some ⟨path, method, dr⟩) ∧ decorate debug s ⟨path, method, dr⟩ st0 = some st1 ∧ Ext st1 y.1 := by
  obtain ⟨below, od, between, d, above, rfl, hb, hd⟩ := ha
  rw [List.append_assoc, decos_append] at h
  have hc1 := hc.left.left
  have hc2 := (hc.left.right).head
  have hc3 := (hc.left.right).tail
  have hc4 := hc.right.tail
  cases h1 : decos debug f (st, none) below with
  | none => rw [h1] at h; simp at h
  | some x1 =>
    rw [h1] at h
    simp only [Option.bind_some, List.cons_append, decos] at h
    obtain ⟨i1, m1, _⟩ := decos_ok below (x := (st, none)) hi ⟨trivial, by simp⟩ hc1 h1
    cases h2 : step debug f x1 (.route path method dr od) with
    | none => rw [h2] at h; simp at h
    | some x2 =>
      rw [h2] at h
      obtain ⟨i2, m2, _⟩ := step_ok i1 m1 hc2 h2
      have hmk2 : x2.2 = some ⟨path, method, dr⟩ := by
        simp only [step] at h2
        cases hq : appRoute debug x1.1.routes path method (2 * f) dr od with
        | none => rw [hq] at h2; simp at h2
        | some rs => rw [hq] at h2; simp only [Option.some.injEq] at h2; rw [← h2]
      simp only [decos_append] at h
      cases h3 : decos debug f x2 between with
      | none => rw [h3] at h; simp at h
      | some x3 =>
        rw [h3] at h
        obtain ⟨i3, m3, _⟩ := decos_ok between i2 m2 hc3 h3
        have hmk3 := decos_mark between hb h3
        rw [hmk2] at hmk3
        simp only [Option.bind_some, decos] at h
        cases h4 : step debug f x3 d with
        | none => rw [h4] at h; simp at h
        | some x4 =>
          rw [h4] at h
          have hc5 : Calm debug [d] := hc.right.head
          obtain ⟨i4, m4, _⟩ := step_ok i3 m3 hc5 h4
          obtain ⟨_, _, e5⟩ := decos_ok above i4 m4 hc4 h
          obtain ⟨st3, mk3⟩ := x3
          simp only at hmk3
          subst hmk3
          refine ⟨st3, x4.1, i3, m3, ?_, e5⟩
          rcases hd with rfl | ⟨rfl, rfl⟩
          · simp only [step] at h4
            rw [if_neg (by rcases hact with h | h <;> simp [h])] at h4
            cases hdd : decorate debug s ⟨path, method, dr⟩ st3 with
            | none => rw [hdd] at h4; simp at h4
            | some st' => rw [hdd] at h4; simp only [Option.map_some, Option.some.injEq] at h4; rw [← h4]
          · simp only [step] at h4
            rw [everything_eq]
            cases hdd : decorate debug allSettings ⟨path, method, dr⟩ st3 with
            | none => rw [hdd] at h4; simp at h4
            | some st' => rw [hdd] at h4; simp only [Option.map_some, Option.some.injEq] at h4; rw [← h4]

theorem load_ok {debug : Bool} : ∀ (prog : List (List Deco)) {n : Nat} {st st' : State}, Inv st → (∀ ds ∈ prog, Calm debug ds) →
    loadFrom debug n st prog = some st' → Inv st' ∧ Ext st st'
  | [], n, st, st', hi, _, h => by
    simp only [loadFrom, Option.some.injEq] at h
    subst h
    exact ⟨hi, .refl _⟩
  | ds :: l, n, st, st', hi, hc, h => by
    rw [loadFrom] at h
    cases hs : decos debug n (st, none) ds with
    | none => rw [hs] at h; simp at h
    | some x =>
      rw [hs] at h
      obtain ⟨h1, _, h3⟩ := decos_ok ds (x := (st, none)) hi ⟨trivial, by simp⟩ (hc ds (by simp)) hs
      obtain ⟨h4, h5⟩ := load_ok l h1 (fun d hd => hc d (by simp [hd])) h
      exact ⟨h4, h3.trans h5⟩

theorem load_at {debug : Bool} : ∀ (prog : List (List Deco)) {n i : Nat} {ds : List Deco} {st st' : State}, Inv st → (∀ ds ∈ prog, Calm debug ds) →
    loadFrom debug n st prog = some st' → prog[i]? = some ds → ∃ st0 y, Inv st0 ∧ decos debug (n + i) (st0, none) ds = some y ∧ Ext y.1 st'
  | [], n, i, ds, st, st', _, _, _, h => by simp at h
  | d :: l, n, i, ds, st, st', hi, hc, h, hg => by
    rw [loadFrom] at h
    cases hs : decos debug n (st, none) d with
    | none => rw [hs] at h; simp at h
    | some x =>
      rw [hs] at h
      obtain ⟨h1, _, h3⟩ := decos_ok d (x := (st, none)) hi ⟨trivial, by simp⟩ (hc d (by simp)) hs
      cases i with
      | zero =>
        simp only [List.getElem?_cons_zero, Option.some.injEq] at hg
        subst hg
        obtain ⟨_, h5⟩ := load_ok l h1 (fun d hd => hc d (by simp [hd])) h
        exact ⟨st, x, hi, hs, h5⟩
      | succ i =>
        simp only [List.getElem?_cons_succ] at hg
        obtain ⟨st0, y, a, b, c⟩ := load_at l h1 (fun d hd => hc d (by simp [hd])) h hg
        exact ⟨st0, y, a, by rw [show n + (i + 1) = n + 1 + i by omega]; exact b, c⟩

theorem inv_nil : Inv ⟨[], []⟩ := ⟨by simp, by simp, by simp⟩

/-- A request for CORS that took effect, in the finished application. -/
theorem asked_loaded {debug : Bool} {prog : List (List Deco)} {st : State} (h : load debug prog = some st) (hc : ∀ ds ∈ prog, Calm debug ds) {i : Nat} {ds : List Deco}
    (hi : prog[i]? = some ds) {s : Settings} {path method : Str} {dr : Bool} (ha : Asks ds s path method dr) (hact : debug = true ∨ s.onlyDebug = false) :
    Inv st ∧ StoredPath path ∧ ∃ ms n, s.methods = ms.map .str ∧ st.pre[n]? = some s ∧
      (∃ r ∈ st.routes, r.uri = path ∧ r.method = method ∧ r.func = 2 * i ∧
        r.headers = corsHeaders ⟨s.origin, ms, s.allow, s.expose, s.credentials, s.onlyDebug⟩ ∧
        r.debugNames = corsDebugNames ⟨s.origin, ms, s.allow, s.expose, s.credentials, s.onlyDebug⟩) ∧
      (⟨path, options, 2 * n + 1, dr, s.onlyDebug, debug, [], []⟩ : Route) ∈ st.routes := by
  obtain ⟨hinv, _⟩ := load_ok prog inv_nil hc h
  obtain ⟨st0, y, h1, h2, h3⟩ := load_at prog inv_nil hc h hi
  rw [Nat.zero_add] at h2
  have hcd : Calm debug ds := hc ds (List.mem_of_getElem? hi)
  obtain ⟨s0, s1, i0, m0, d0, e0⟩ := asked h1 hcd ha hact h2
  have ex := e0.trans h3
  obtain ⟨_, _, hst, ms, hms, ⟨r, hr, r1, r2, r3, r4, r5⟩, ho, hp, _⟩ := decorate_ok i0 m0.1 (m0.2 _ rfl) d0
  have hopt : HasOpt s1.routes path := ⟨_, ho, rfl, rfl⟩
  obtain ⟨r', hr', _, er⟩ := ex.routes r hr
  have := er (by rw [r1]; exact hopt)
  subst this
  obtain ⟨o', ho', _, eo⟩ := ex.routes _ ho
  have := eo hopt
  subst this
  refine ⟨hinv, hst, ms, s0.pre.length, hms, ?_, ⟨r', hr', r1, r2, r3, r4, r5⟩, ho'⟩
  obtain ⟨t, ht⟩ := ex.pre
  have hl : s0.pre.length < s1.pre.length := by
    rcases Nat.lt_or_ge s0.pre.length s1.pre.length with h | h
    · exact h
    · rw [List.getElem?_eq_none h] at hp; simp at hp
  rw [← ht, List.getElem?_append_left hl, hp]

theorem Inv.unique {st : State} (hi : Inv st) {r r' : Route} (hr : r ∈ st.routes) (hr' : r' ∈ st.routes) (h1 : r.uri = r'.uri) (h2 : r.method = r'.method) : r = r' := by
  refine Classical.byContradiction fun hne => ?_
  have hp := hi.uniq
  rw [List.pairwise_iff_getElem] at hp
  obtain ⟨i, hi1, hi2⟩ := List.getElem_of_mem hr
  obtain ⟨j, hj1, hj2⟩ := List.getElem_of_mem hr'
  rcases Nat.lt_trichotomy i j with hl | hl | hl
  · exact hp i j hi1 hj1 hl ⟨by rw [hi2, hj2, h1], by rw [hi2, hj2, h2]⟩
  · subst hl; exact hne (by rw [← hi2, ← hj2])
  · exact hp j i hj1 hi1 hl ⟨by rw [hi2, hj2, h1], by rw [hi2, hj2, h2]⟩

end Fly.PyCors
