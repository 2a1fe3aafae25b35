import Verif.PyRoute.Model
import Verif.PyRoute.Spec
set_option linter.all false

namespace Fly.PyRoute
open Spec

/-! ## Paths -/

theorem dropWhile_nil_iff (r : Str) : r.dropWhile (· ≠ 10) = [] ↔ 10 ∉ r := by
  induction r with
  | nil => simp
  | cons c r ih =>
    by_cases hc : c = 10
    · subst hc; simp
    · have : 10 ≠ c := fun h => hc h.symm
      simp [List.dropWhile, hc, this] at ih ⊢
      exact ih

theorem not_mem_takeWhile (r : Str) : 10 ∉ r.takeWhile (· ≠ 10) := by
  induction r with
  | nil => simp
  | cons c r ih =>
    by_cases hc : c = 10
    · subst hc; simp
    · have : 10 ≠ c := fun h => hc h.symm
      simp [List.takeWhile, hc, this] at ih ⊢
      exact ih

theorem dropWhile_one (r : Str) (h : r.dropWhile (· ≠ 10) = [10]) :
    r = r.takeWhile (· ≠ 10) ++ [10] ∧ 10 ∉ r.takeWhile (· ≠ 10) := by
  constructor
  · conv => lhs; rw [← List.takeWhile_append_dropWhile (p := (· ≠ 10)) (l := r)]
    rw [h]
  · exact not_mem_takeWhile r

theorem takeWhile_of_not_mem (t : Str) (x : Str) (h : 10 ∉ t) :
    (t ++ 10 :: x).takeWhile (· ≠ 10) = t ∧ (t ++ 10 :: x).dropWhile (· ≠ 10) = 10 :: x := by
  induction t with
  | nil => simp
  | cons c t ih =>
    have hc : c ≠ 10 := fun e => h (by simp [e])
    have ht : 10 ∉ t := fun e => h (by simp [e])
    have := ih ht
    simp [List.takeWhile, List.dropWhile, hc] at this ⊢
    exact this

theorem matchUri_some {g t : Str} (h : matchUri g = some t) :
    (g = t ∨ g = t ++ [10]) ∧ (∃ r, t = 47 :: r) ∧ 10 ∉ t := by
  unfold matchUri at h
  split at h
  · rename_i r
    split at h
    · rename_i hd
      have e : 47 :: r = t := by simpa using h
      subst e
      have := (dropWhile_nil_iff r).1 hd
      refine ⟨Or.inl rfl, ⟨r, rfl⟩, ?_⟩
      simp [this]
    · split at h
      · rename_i hd
        have e : 47 :: r.takeWhile (· ≠ 10) = t := by simpa using h
        have := dropWhile_one r hd
        refine ⟨Or.inr ?_, ⟨_, e.symm⟩, ?_⟩
        · rw [← e]
          conv => lhs; rw [this.1]
          rfl
        · rw [← e]; simp only [List.mem_cons, not_or]; exact ⟨by decide, this.2⟩
      · exact absurd h (by simp)
  · exact absurd h (by simp)

theorem matchUri_of {g t : Str} (h1 : g = t ∨ g = t ++ [10]) (h2 : ∃ r, t = 47 :: r)
    (h3 : 10 ∉ t) : matchUri g = some t := by
  obtain ⟨r, rfl⟩ := h2
  have hr : 10 ∉ r := fun e => h3 (by simp [e])
  rcases h1 with rfl | rfl
  · have := (dropWhile_nil_iff r).2 hr
    simp only [matchUri, this, if_true]
  · have := takeWhile_of_not_mem r [] hr
    simp only [matchUri, List.cons_append, this.1, this.2]
    simp

theorem matchUri_none {g : Str} (h : matchUri g = none) (t : Str) :
    ¬ ((g = t ∨ g = t ++ [10]) ∧ (∃ r, t = 47 :: r) ∧ 10 ∉ t) := by
  rintro ⟨a, b, c⟩
  rw [matchUri_of a b c] at h
  cases h

theorem collapse_append (p : Bool) (a x y : Str)
    (h : ∀ q, collapse q x = collapse q y) : collapse p (a ++ x) = collapse p (a ++ y) := by
  induction a generalizing p with
  | nil => exact h p
  | cons c a ih =>
    simp only [List.cons_append, collapse]
    split
    · split
      · exact ih _
      · rw [ih]
    · rw [ih]

theorem collapse_squeeze1 {a b : Str} (p : Bool) (h : Squeeze1 a b) :
    collapse p a = collapse p b := by
  cases h with
  | mk u v =>
    apply collapse_append
    intro q
    cases q <;> simp [collapse]

theorem collapse_squeezes {a b : Str} (p : Bool) (h : Squeezes a b) :
    collapse p a = collapse p b := by
  induction h with
  | refl => rfl
  | step h1 _ ih => rw [collapse_squeeze1 p h1, ih]

theorem noDouble_tail {c : Nat} {s : Str} (h : NoDouble (c :: s)) : NoDouble s := by
  rintro ⟨a, b, rfl⟩
  exact h ⟨c :: a, b, rfl⟩

theorem collapse_id (p : Bool) (s : Str) (h : NoDouble s) (hp : p = true → s.head? ≠ some 47) :
    collapse p s = s := by
  induction s generalizing p with
  | nil => rfl
  | cons c s ih =>
    simp only [collapse]
    split
    · rename_i hc
      subst hc
      split
      · rename_i hp'
        exact absurd rfl (hp hp')
      · rw [ih true (noDouble_tail h)]
        intro _ hh
        cases s with
        | nil => simp at hh
        | cons d s =>
          simp at hh
          subst hh
          exact h ⟨[], s, rfl⟩
    · rw [ih false (noDouble_tail h) (by simp)]

theorem squeezes_cons (c : Nat) {a b : Str} (h : Squeezes a b) : Squeezes (c :: a) (c :: b) := by
  induction h with
  | refl => exact .refl _
  | step h1 _ ih =>
    refine .step ?_ ih
    cases h1 with
    | mk u v => exact .mk (c :: u) v

theorem squeezes_trans {a b c : Str} (h : Squeezes a b) (h' : Squeezes b c) : Squeezes a c := by
  induction h with
  | refl => exact h'
  | step h1 _ ih => exact .step h1 (ih h')

theorem collapse_reaches (s : Str) :
    Squeezes s (collapse false s) ∧ Squeezes (47 :: s) (47 :: collapse true s) := by
  induction s with
  | nil => exact ⟨.refl _, .refl _⟩
  | cons c s ih =>
    by_cases hc : c = 47
    · subst hc
      simp only [collapse, if_true, Bool.false_eq_true, if_false]
      exact ⟨ih.2, .step (.mk [] s) ih.2⟩
    · simp only [collapse, if_neg hc]
      exact ⟨squeezes_cons c ih.1, squeezes_cons 47 (squeezes_cons c ih.1)⟩

theorem noDouble_cons {c : Nat} {s : Str} (h : NoDouble s) (hc : c = 47 → s.head? ≠ some 47) :
    NoDouble (c :: s) := by
  rintro ⟨a, b, e⟩
  cases a with
  | nil =>
    simp only [List.nil_append, List.cons.injEq] at e
    obtain ⟨rfl, rfl⟩ := e
    exact hc rfl rfl
  | cons d a =>
    simp only [List.cons_append, List.cons.injEq] at e
    exact h ⟨a, b, e.2⟩

theorem collapse_noDouble (s : Str) :
    NoDouble (collapse false s) ∧ NoDouble (collapse true s) ∧ (collapse true s).head? ≠ some 47 := by
  induction s with
  | nil => refine ⟨?_, ?_, by simp [collapse]⟩ <;> · rintro ⟨a, b, e⟩; simp [collapse] at e
  | cons c s ih =>
    by_cases hc : c = 47
    · subst hc
      simp only [collapse, if_true, Bool.false_eq_true, if_false]
      exact ⟨noDouble_cons ih.2.1 (fun _ => ih.2.2), ih.2⟩
    · simp only [collapse, if_neg hc]
      have := noDouble_cons (c := c) ih.1 (fun e => absurd e hc)
      exact ⟨this, this, by simpa using hc⟩

theorem collapse_mem {x : Nat} (p : Bool) (s : Str) (h : x ∈ collapse p s) : x ∈ s := by
  induction s generalizing p with
  | nil => exact h
  | cons c s ih =>
    simp only [collapse] at h
    split at h
    · rename_i hc
      split at h
      · exact List.mem_cons_of_mem _ (ih _ h)
      · rcases List.mem_cons.1 h with rfl | h
        · simp [hc]
        · exact List.mem_cons_of_mem _ (ih _ h)
    · rcases List.mem_cons.1 h with rfl | h
      · simp
      · exact List.mem_cons_of_mem _ (ih _ h)

theorem pathOf_iff (g u : Str) : PathOf g u ↔ ∃ t, matchUri g = some t ∧ u = collapse false t := by
  constructor
  · rintro ⟨t, h1, h2, h3, h4, h5⟩
    refine ⟨t, matchUri_of h1 h2 h3, ?_⟩
    rw [collapse_squeezes false h4, collapse_id false u h5 (by simp)]
  · rintro ⟨t, h, rfl⟩
    have := matchUri_some h
    exact ⟨t, this.1, this.2.1, this.2.2, (collapse_reaches t).1, (collapse_noDouble t).1⟩

theorem pathOf_stored {g u : Str} (h : PathOf g u) : StoredPath u := by
  obtain ⟨t, hm, rfl⟩ := (pathOf_iff g u).1 h
  obtain ⟨_, ⟨r, rfl⟩, h3⟩ := matchUri_some hm
  refine ⟨⟨collapse true r, by simp [collapse]⟩, fun hx => h3 (collapse_mem _ _ hx),
    (collapse_noDouble _).1⟩

theorem stored_self {u : Str} (h : StoredPath u) : PathOf u u :=
  ⟨u, Or.inl rfl, h.1, h.2.1, .refl u, h.2.2⟩

/-! ## The table -/

/-- The route a successful registration adds. -/
def newRoute (q : Reg) (u : Str) (f : Nat) : Route :=
  { uri := u, method := q.method, func := f, debugRoute := q.debugRoute,
    onlyDebug := q.onlyDebug, baseDebug := q.debug, headers := [], debugNames := [] }

theorem register_cases (rs : List Route) (q : Reg) :
    (∃ u f, PathOf q.uri u ∧ q.func = some f ∧ (∀ r ∈ rs, ¬ (r.method = q.method ∧ r.uri = u)) ∧
      register rs q = some (rs ++ [newRoute q u f])) ∨
    (register rs q = none ∧
      ((¬ ∃ u, PathOf q.uri u) ∨ q.func = none ∨
        ∃ u, PathOf q.uri u ∧ ∃ r ∈ rs, r.method = q.method ∧ r.uri = u)) := by
  unfold register
  cases hm : matchUri q.uri with
  | none =>
    right
    refine ⟨rfl, Or.inl ?_⟩
    rintro ⟨u, hu⟩
    obtain ⟨t, ht, _⟩ := (pathOf_iff _ _).1 hu
    rw [hm] at ht; cases ht
  | some t =>
    cases hf : q.func with
    | none => right; exact ⟨rfl, Or.inr (Or.inl rfl)⟩
    | some f =>
      have hp : PathOf q.uri (collapse false t) := (pathOf_iff _ _).2 ⟨t, hm, rfl⟩
      simp only
      split
      · rename_i ha
        right
        refine ⟨rfl, Or.inr (Or.inr ⟨_, hp, ?_⟩)⟩
        simpa using ha
      · rename_i ha
        left
        refine ⟨_, f, hp, rfl, ?_, rfl⟩
        simpa using ha

/-- What is true of every table made by registrations. -/
structure Good (rs : List Route) : Prop where
  uniq : rs.Pairwise (fun r s => ¬ (r.uri = s.uri ∧ r.method = s.method))
  stored : ∀ r ∈ rs, StoredPath r.uri
  plain : ∀ r ∈ rs, r.headers = [] ∧ r.debugNames = []

theorem good_attempt {rs : List Route} (q : Reg) (h : Good rs) : Good (attempt rs q) := by
  unfold attempt
  rcases register_cases rs q with ⟨u, f, hu, hf, hn, he⟩ | ⟨he, _⟩
  · rw [he]
    simp only [Option.getD_some]
    refine ⟨?_, ?_, ?_⟩
    · rw [List.pairwise_append]
      refine ⟨h.uniq, by simp, ?_⟩
      intro a ha b hb
      simp only [List.mem_singleton] at hb
      subst hb
      intro hh
      exact hn a ha ⟨hh.2, hh.1⟩
    · intro r hr
      rcases List.mem_append.1 hr with hr | hr
      · exact h.stored r hr
      · simp only [List.mem_singleton] at hr
        subst hr
        exact pathOf_stored hu
    · intro r hr
      rcases List.mem_append.1 hr with hr | hr
      · exact h.plain r hr
      · simp only [List.mem_singleton] at hr
        subst hr
        exact ⟨rfl, rfl⟩
  · rw [he]; exact h

theorem good_foldl (qs : List Reg) : ∀ {rs : List Route}, Good rs → Good (qs.foldl attempt rs) := by
  induction qs with
  | nil => intro rs h; exact h
  | cons q qs ih => intro rs h; exact ih (good_attempt q h)

theorem good_history (qs : List Reg) : Good (history qs) :=
  good_foldl qs ⟨by simp, by simp, by simp⟩

theorem attempt_mem {rs : List Route} {q : Reg} {r : Route} (h : r ∈ attempt rs q) :
    r ∈ rs ∨ ∃ u f, r = newRoute q u f := by
  unfold attempt at h
  rcases register_cases rs q with ⟨u, f, hu, hf, hn, he⟩ | ⟨he, _⟩
  · rw [he] at h
    simp only [Option.getD_some, List.mem_append, List.mem_singleton] at h
    rcases h with h | h
    · exact Or.inl h
    · exact Or.inr ⟨u, f, h⟩
  · rw [he] at h; exact Or.inl h

theorem foldl_mem (qs : List Reg) : ∀ {rs : List Route} {r : Route}, r ∈ qs.foldl attempt rs →
    r ∈ rs ∨ ∃ q ∈ qs, ∃ u f, r = newRoute q u f := by
  induction qs with
  | nil => intro rs r h; exact Or.inl h
  | cons q qs ih =>
    intro rs r h
    rcases ih h with h | ⟨q', hq', u, f, e⟩
    · rcases attempt_mem h with h | ⟨u, f, e⟩
      · exact Or.inl h
      · exact Or.inr ⟨q, by simp, u, f, e⟩
    · exact Or.inr ⟨q', by simp [hq'], u, f, e⟩

theorem history_mem {qs : List Reg} {r : Route} (h : r ∈ history qs) :
    ∃ q ∈ qs, ∃ u f, r = newRoute q u f := by
  rcases foldl_mem qs h with h | h
  · simp at h
  · exact h

/-! ## CORS -/

/-- A route with the CORS headers added. -/
def withCors (c : Cors) (r : Route) : Route :=
  { r with headers := r.headers ++ corsHeaders c, debugNames := r.debugNames ++ corsDebugNames c }

/-- The `OPTIONS` route made for a route. -/
def optRoute (appDebug : Bool) (c : Cors) (r : Route) : Route :=
  { uri := r.uri, method := options, func := optionOf r.func, debugRoute := r.debugRoute,
    onlyDebug := c.onlyDebug, baseDebug := appDebug, headers := [], debugNames := [] }

/-- The whole effect: the routes with their headers, and the added ones; `seen` are the paths that
have an `OPTIONS` route already. -/
def corsRes (d : Bool) (c : Cors) (seen : List Str) : List Route → List Route × List Route
  | [] => ([], [])
  | r :: t =>
    if r.method = options ∨ r.uri ∈ seen then
      (r :: (corsRes d c seen t).1, (corsRes d c seen t).2)
    else
      (withCors c r :: (corsRes d c (r.uri :: seen) t).1,
       optRoute d c r :: (corsRes d c (r.uri :: seen) t).2)

theorem corsLoop_tail (d : Bool) (c : Cors) (opts : List Route) (ho : ∀ r ∈ opts, r.method = options) :
    ∀ (fuel : Nat) (pre : List Route), opts.length < fuel →
      corsLoop d c fuel (pre ++ opts) pre.length = some (pre ++ opts) := by
  induction opts with
  | nil =>
    intro fuel pre hf
    cases fuel with
    | zero => simp at hf
    | succ fuel => simp [corsLoop]
  | cons r opts ih =>
    intro fuel pre hf
    cases fuel with
    | zero => simp at hf
    | succ fuel =>
      have hr := ho r (by simp)
      have hx : (pre ++ r :: opts)[pre.length]? = some r := by simp
      have := ih (fun s hs => ho s (by simp [hs])) fuel (pre ++ [r]) (by simp at hf; omega)
      simp only [List.append_assoc, List.singleton_append, List.length_append, List.length_cons,
        List.length_nil, Nat.zero_add] at this
      rw [corsLoop, hx]
      simp only [hr, if_true]
      exact this

theorem appRoute_opt (d : Bool) (c : Cors) (rs : List Route) (r : Route)
    (hs : StoredPath r.uri) (hd : d = true ∨ r.debugRoute = false)
    (hn : rs.any (fun j => j.uri == r.uri && j.method == options) = false) :
    appRoute d rs r.uri options (optionOf r.func) r.debugRoute c.onlyDebug =
      some (rs ++ [optRoute d c r]) := by
  unfold appRoute
  have : (!d && r.debugRoute) = false := by
    rcases hd with rfl | h
    · rfl
    · simp [h]
  rw [this]
  simp only [Bool.false_eq_true, if_false]
  have hp := stored_self hs
  obtain ⟨t, ht, hc⟩ := (pathOf_iff _ _).1 hp
  unfold register
  simp only [ht]
  rw [← hc]
  rw [if_neg]
  · rfl
  · simp only [Bool.not_eq_true]
    rw [← hn]
    congr 1
    funext j
    exact Bool.and_comm _ _

theorem corsLoop_eq (d : Bool) (c : Cors) :
    ∀ (todo done opts : List Route) (seen : List Str) (fuel : Nat),
      (∀ r ∈ opts, r.method = options) →
      (∀ r ∈ todo, StoredPath r.uri ∧ (d = true ∨ r.debugRoute = false)) →
      (∀ u, u ∈ seen ↔ ∃ r ∈ done ++ todo ++ opts, r.uri = u ∧ r.method = options) →
      2 * todo.length + opts.length < fuel →
      corsLoop d c fuel (done ++ (todo ++ opts)) done.length =
        some (done ++ ((corsRes d c seen todo).1 ++ (opts ++ (corsRes d c seen todo).2))) := by
  intro todo
  induction todo with
  | nil =>
    intro done opts seen fuel ho _ _ hf
    simp only [List.nil_append, corsRes, List.append_nil]
    exact corsLoop_tail d c opts ho fuel done (by simpa using hf)
  | cons r todo ih =>
    intro done opts seen fuel ho ht hs hf
    simp only [List.length_cons] at hf
    cases fuel with
    | zero => omega
    | succ fuel =>
      have hx : (done ++ (r :: todo ++ opts))[done.length]? = some r := by simp
      rw [corsLoop, hx]
      simp only
      have hskip : ∀ (P : r.method = options ∨ r.uri ∈ seen),
          corsLoop d c fuel (done ++ (r :: todo ++ opts)) (done.length + 1) =
          some (done ++ ((corsRes d c seen (r :: todo)).1 ++
            (opts ++ (corsRes d c seen (r :: todo)).2))) := by
        intro P
        have := ih (done ++ [r]) opts seen fuel ho (fun s hs => ht s (by simp [hs]))
          (by simpa using hs) (by omega)
        simp only [List.append_assoc, List.singleton_append, List.length_append, List.length_cons,
          List.length_nil, Nat.zero_add] at this
        simp only [corsRes, if_pos P, List.cons_append]
        exact this
      have hany : (done ++ (r :: todo ++ opts)).any (fun j => j.uri == r.uri && j.method == options)
          = true ↔ r.uri ∈ seen := by
        rw [hs r.uri]
        simp only [List.any_eq_true, Bool.and_eq_true, beq_iff_eq, List.append_assoc,
          List.cons_append]
      split
      · rename_i hm
        exact hskip (Or.inl hm)
      · rename_i hm
        split
        · rename_i ha
          exact hskip (Or.inr (hany.1 ha))
        · rename_i ha
          have hns : r.uri ∉ seen := fun hh => ha (hany.2 hh)
          have ha' : (done ++ (r :: todo ++ opts)).any
              (fun j => j.uri == r.uri && j.method == options) = false := by
            simpa using ha
          have hr := ht r (by simp)
          unfold applyRoute
          rw [appRoute_opt d c _ r hr.1 hr.2 ha']
          simp only
          have hset : (done ++ (r :: todo ++ opts) ++ [optRoute d c r]).set done.length (withCors c r)
              = done ++ (withCors c r :: todo ++ (opts ++ [optRoute d c r])) := by
            simp
          have hset' : (done ++ (r :: todo ++ opts) ++ [optRoute d c r]).set done.length
              { r with headers := r.headers ++ corsHeaders c,
                       debugNames := r.debugNames ++ corsDebugNames c }
              = done ++ (withCors c r :: todo ++ (opts ++ [optRoute d c r])) := hset
          rw [hset']
          have := ih (done ++ [withCors c r]) (opts ++ [optRoute d c r]) (r.uri :: seen) fuel
            (by
              intro s hs'
              rcases List.mem_append.1 hs' with h | h
              · exact ho s h
              · simp only [List.mem_singleton] at h; subst h; rfl)
            (fun s hs' => ht s (by simp [hs']))
            (by
              intro u
              simp only [List.mem_cons, hs u, List.mem_append, List.mem_singleton]
              constructor
              · rintro (rfl | ⟨s, hsm, h1, h2⟩)
                · exact ⟨optRoute d c r, by simp, rfl, rfl⟩
                · rcases hsm with (hsm | rfl | hsm) | hsm
                  · exact ⟨s, by simp [hsm], h1, h2⟩
                  · exact absurd h2 hm
                  · exact ⟨s, by simp [hsm], h1, h2⟩
                  · exact ⟨s, by simp [hsm], h1, h2⟩
              · rintro ⟨s, hsm, h1, h2⟩
                rcases hsm with ((hsm | rfl | hsm) | hsm) | (hsm | rfl | hsm)
                · exact Or.inr ⟨s, by simp [hsm], h1, h2⟩
                · exact absurd h2 hm
                · simp at hsm
                · exact Or.inr ⟨s, by simp [hsm], h1, h2⟩
                · exact Or.inr ⟨s, by simp [hsm], h1, h2⟩
                · exact Or.inl h1.symm
                · simp at hsm)
            (by simp; omega)
          simp only [List.append_assoc, List.singleton_append, List.length_append, List.length_cons,
            List.length_nil, Nat.zero_add] at this
          have hP : ¬ (r.method = options ∨ r.uri ∈ seen) := by
            rintro (h | h)
            · exact hm h
            · exact hns h
          simp only [corsRes, if_neg hP]
          simpa using this

/-- The paths that have an `OPTIONS` route. -/
def optUris (rs : List Route) : List Str := (rs.filter (fun r => r.method == options)).map (·.uri)

theorem mem_optUris (rs : List Route) (u : Str) :
    u ∈ optUris rs ↔ ∃ r ∈ rs, r.uri = u ∧ r.method = options := by
  unfold optUris
  simp only [List.mem_map, List.mem_filter, beq_iff_eq]
  constructor
  · rintro ⟨r, ⟨h1, h2⟩, h3⟩; exact ⟨r, h1, h3, h2⟩
  · rintro ⟨r, h1, h2, h3⟩; exact ⟨r, ⟨h1, h3⟩, h2⟩

theorem applyCors_eq (d : Bool) (c : Cors) (rs : List Route)
    (hg : ∀ r ∈ rs, StoredPath r.uri ∧ (d = true ∨ r.debugRoute = false)) :
    applyCors d c rs = some ((corsRes d c (optUris rs) rs).1 ++ (corsRes d c (optUris rs) rs).2) := by
  have := corsLoop_eq d c rs [] [] (optUris rs) (2 * rs.length + 1) (by simp) hg
    (by intro u; rw [mem_optUris]; simp) (by simp)
  simpa [applyCors] using this

theorem corsRes_length (d : Bool) (c : Cors) (rs : List Route) : ∀ seen,
    (corsRes d c seen rs).1.length = rs.length := by
  induction rs with
  | nil => intro seen; rfl
  | cons r t ih =>
    intro seen
    simp only [corsRes]
    split <;> simp [ih]

open Classical in
/-- Position by position. -/
theorem corsRes_get (d : Bool) (c : Cors) (rs : List Route) : ∀ (seen : List Str) (k : Nat) (r : Route),
    rs[k]? = some r →
    (corsRes d c seen rs).1[k]? =
      some (if r.method = options ∨ r.uri ∈ seen ∨
              (∃ j s, j < k ∧ rs[j]? = some s ∧ s.uri = r.uri ∧ s.method ≠ options)
            then r else withCors c r) := by
  induction rs with
  | nil => intro seen k r h; simp at h
  | cons a t ih =>
    intro seen k r h
    cases k with
    | zero =>
      simp only [List.getElem?_cons_zero, Option.some.injEq] at h
      subst h
      simp only [corsRes]
      by_cases hP : a.method = options ∨ a.uri ∈ seen
      · rw [if_pos hP]
        rw [if_pos (hP.elim Or.inl (fun h => Or.inr (Or.inl h)))]
        simp
      · rw [if_neg hP, if_neg]
        · simp
        · rintro (h | h | ⟨j, s, hj, _⟩)
          · exact hP (Or.inl h)
          · exact hP (Or.inr h)
          · omega
    | succ k =>
      simp only [List.getElem?_cons_succ] at h
      simp only [corsRes]
      by_cases hP : a.method = options ∨ a.uri ∈ seen
      · rw [if_pos hP]
        simp only [List.getElem?_cons_succ]
        rw [ih seen k r h]
        congr 1
        apply ite_congr _ (fun _ => rfl) (fun _ => rfl)
        apply propext
        constructor
        · rintro (h | h | ⟨j, s, hj, hs, h1, h2⟩)
          · exact Or.inl h
          · exact Or.inr (Or.inl h)
          · exact Or.inr (Or.inr ⟨j + 1, s, by omega, by simpa using hs, h1, h2⟩)
        · rintro (h | h | ⟨j, s, hj, hs, h1, h2⟩)
          · exact Or.inl h
          · exact Or.inr (Or.inl h)
          · cases j with
            | zero =>
              simp only [List.getElem?_cons_zero, Option.some.injEq] at hs
              subst hs
              rcases hP with h | h
              · exact absurd h h2
              · exact Or.inr (Or.inl (h1 ▸ h))
            | succ j =>
              exact Or.inr (Or.inr ⟨j, s, by omega, by simpa using hs, h1, h2⟩)
      · rw [if_neg hP]
        simp only [List.getElem?_cons_succ]
        rw [ih (a.uri :: seen) k r h]
        congr 1
        apply ite_congr _ (fun _ => rfl) (fun _ => rfl)
        apply propext
        constructor
        · rintro (h | h | ⟨j, s, hj, hs, h1, h2⟩)
          · exact Or.inl h
          · rcases List.mem_cons.1 h with h | h
            · exact Or.inr (Or.inr ⟨0, a, by omega, by simp, h.symm, fun e => hP (Or.inl e)⟩)
            · exact Or.inr (Or.inl h)
          · exact Or.inr (Or.inr ⟨j + 1, s, by omega, by simpa using hs, h1, h2⟩)
        · rintro (h | h | ⟨j, s, hj, hs, h1, h2⟩)
          · exact Or.inl h
          · exact Or.inr (Or.inl (by simp [h]))
          · cases j with
            | zero =>
              simp only [List.getElem?_cons_zero, Option.some.injEq] at hs
              subst hs
              exact Or.inr (Or.inl (by simp [h1]))
            | succ j =>
              exact Or.inr (Or.inr ⟨j, s, by omega, by simpa using hs, h1, h2⟩)

theorem corsRes_covers (d : Bool) (c : Cors) (rs : List Route) : ∀ (seen : List Str) (r : Route),
    r ∈ rs → r.method ≠ options → r.uri ∈ seen ∨
      ∃ o ∈ (corsRes d c seen rs).2, o.uri = r.uri ∧ o.method = options := by
  induction rs with
  | nil => intro seen r h; simp at h
  | cons a t ih =>
    intro seen r h hm
    simp only [corsRes]
    by_cases hP : a.method = options ∨ a.uri ∈ seen
    · rw [if_pos hP]
      rcases List.mem_cons.1 h with rfl | h
      · rcases hP with h | h
        · exact absurd h hm
        · exact Or.inl h
      · exact ih seen r h hm
    · rw [if_neg hP]
      simp only [List.mem_cons]
      rcases List.mem_cons.1 h with rfl | h
      · exact Or.inr ⟨_, Or.inl rfl, rfl, rfl⟩
      · rcases ih (a.uri :: seen) r h hm with h | ⟨o, ho, h1, h2⟩
        · rcases List.mem_cons.1 h with h | h
          · exact Or.inr ⟨_, Or.inl rfl, h.symm, rfl⟩
          · exact Or.inl h
        · exact Or.inr ⟨o, Or.inr ho, h1, h2⟩

theorem corsRes_new (d : Bool) (c : Cors) (rs : List Route) : ∀ (seen : List Str) (o : Route),
    o ∈ (corsRes d c seen rs).2 →
      ∃ r ∈ rs, r.method ≠ options ∧ r.uri ∉ seen ∧ o = optRoute d c r := by
  induction rs with
  | nil => intro seen o h; simp [corsRes] at h
  | cons a t ih =>
    intro seen o h
    simp only [corsRes] at h
    by_cases hP : a.method = options ∨ a.uri ∈ seen
    · rw [if_pos hP] at h
      obtain ⟨r, h1, h2⟩ := ih seen o h
      exact ⟨r, by simp [h1], h2⟩
    · rw [if_neg hP] at h
      rcases List.mem_cons.1 h with h | h
      · exact ⟨a, by simp, fun e => hP (Or.inl e), fun e => hP (Or.inr e), h⟩
      · obtain ⟨r, h1, h2, h3, h4⟩ := ih _ o h
        exact ⟨r, by simp [h1], h2, fun e => h3 (by simp [e]), h4⟩

theorem corsRes_new_uniq (d : Bool) (c : Cors) (rs : List Route) : ∀ (seen : List Str),
    (corsRes d c seen rs).2.Pairwise (fun a b => a.uri ≠ b.uri) ∧
    ∀ o ∈ (corsRes d c seen rs).2, o.uri ∉ seen := by
  induction rs with
  | nil => intro seen; simp [corsRes]
  | cons a t ih =>
    intro seen
    simp only [corsRes]
    by_cases hP : a.method = options ∨ a.uri ∈ seen
    · rw [if_pos hP]; exact ih seen
    · rw [if_neg hP]
      have := ih (a.uri :: seen)
      refine ⟨List.pairwise_cons.2 ⟨?_, this.1⟩, ?_⟩
      · intro b hb e
        exact this.2 b hb (by simp [← e, optRoute])
      · intro o ho hs
        rcases List.mem_cons.1 ho with rfl | ho
        · exact hP (Or.inr hs)
        · exact this.2 o ho (by simp [hs])

theorem corsRes_old (d : Bool) (c : Cors) (rs : List Route) : ∀ (seen : List Str) (o : Route),
    o ∈ (corsRes d c seen rs).1 → ∃ r ∈ rs, o = r ∨ o = withCors c r := by
  induction rs with
  | nil => intro seen o h; simp [corsRes] at h
  | cons a t ih =>
    intro seen o h
    simp only [corsRes] at h
    split at h
    · rcases List.mem_cons.1 h with h | h
      · exact ⟨a, by simp, Or.inl h⟩
      · obtain ⟨r, h1, h2⟩ := ih _ o h
        exact ⟨r, by simp [h1], h2⟩
    · rcases List.mem_cons.1 h with h | h
      · exact ⟨a, by simp, Or.inr h⟩
      · obtain ⟨r, h1, h2⟩ := ih _ o h
        exact ⟨r, by simp [h1], h2⟩

theorem commaJoin_eq (l : List Str) : commaJoin l = [44].intercalate l := by
  induction l with
  | nil => rfl
  | cons a l ih =>
    cases l with
    | nil => simp [commaJoin, List.intercalate, List.intersperse]
    | cons b l =>
      rw [commaJoin, ih]
      · simp [List.intercalate, List.intersperse]
      · simp

theorem corsHeaders_wanted (c : Cors) :
    (corsHeaders c).map (fun h => (h.name, h.value)) =
      corsWanted c.origin c.methods c.allow c.expose c.credentials := by
  obtain ⟨o, m, a, e, cr, od⟩ := c
  simp only [corsHeaders, corsWanted, commaJoin_eq]
  cases m <;> cases a <;> cases e <;> cases cr <;> rfl

/-- A table of routes of different paths without `OPTIONS` routes. -/
theorem corsRes_distinct (d : Bool) (c : Cors) (rs : List Route) : ∀ seen : List Str,
    (∀ r ∈ rs, r.method ≠ options ∧ r.uri ∉ seen) → rs.Pairwise (fun a b => a.uri ≠ b.uri) →
    corsRes d c seen rs = (rs.map (withCors c), rs.map (optRoute d c)) := by
  induction rs with
  | nil => intro _ _ _; rfl
  | cons a t ih =>
    intro seen h hp
    have ha := h a (by simp)
    rw [List.pairwise_cons] at hp
    have hP : ¬ (a.method = options ∨ a.uri ∈ seen) := fun e => e.elim ha.1 ha.2
    have := ih (a.uri :: seen) (fun r hr => ⟨(h r (by simp [hr])).1, by
      simp only [List.mem_cons, not_or]
      exact ⟨fun e => hp.1 r hr e.symm, (h r (by simp [hr])).2⟩⟩) hp.2
    simp only [corsRes, if_neg hP, this, List.map_cons]

/-! ## The sweep -/

theorem sweep_keep (suf : List Route) : ∀ (fuel : Nat) (pre : List Route),
    suf.length < fuel → (∀ r ∈ suf, r.onlyDebug = false) →
    ∀ tail, (∀ fuel', fuel' + suf.length = fuel →
      sweep fuel (pre ++ (suf ++ tail)) pre.length =
      sweep fuel' (pre ++ (suf.map strip ++ tail)) (pre.length + suf.length)) := by
  induction suf with
  | nil => intro fuel pre _ _ tail fuel' hf; simp at hf; subst hf; rfl
  | cons r suf ih =>
    intro fuel pre hf ho tail fuel' he
    cases fuel with
    | zero => simp at hf
    | succ fuel =>
      have hx : (pre ++ (r :: suf ++ tail))[pre.length]? = some r := by simp
      have hr := ho r (by simp)
      rw [sweep, hx]
      simp only [hr, Bool.false_eq_true, if_false]
      have hset : (pre ++ (r :: suf ++ tail)).set pre.length (strip r) =
          pre ++ [strip r] ++ (suf ++ tail) := by simp
      rw [hset]
      have := ih fuel (pre ++ [strip r]) (by simp at hf; omega) (fun s hs => ho s (by simp [hs])) tail
        fuel' (by simp at he; omega)
      simp only [List.length_append, List.length_cons, List.length_nil, Nat.zero_add] at this
      rw [this]
      have e1 : pre.length + 1 + suf.length = pre.length + (suf.length + 1) := by omega
      simp [e1]

theorem sweep_drop (n : Nat) : ∀ (suf : List Route), suf.length ≤ n → ∀ (fuel : Nat) (pre : List Route),
    suf.length < fuel → (∀ r ∈ suf, r.onlyDebug = true) →
      sweep fuel (pre ++ suf) pre.length = pre ++ everySecond suf := by
  induction n with
  | zero =>
    intro suf hn fuel pre hf ho
    have : suf = [] := List.length_eq_zero_iff.1 (by omega)
    subst this
    cases fuel with
    | zero => simp at hf
    | succ fuel => simp [sweep, everySecond]
  | succ n ih =>
    intro suf hn fuel pre hf ho
    cases suf with
    | nil =>
      cases fuel with
      | zero => simp at hf
      | succ fuel => simp [sweep, everySecond]
    | cons a suf =>
      cases fuel with
      | zero => simp at hf
      | succ fuel =>
        have hx : (pre ++ a :: suf)[pre.length]? = some a := by simp
        rw [sweep, hx]
        simp only [ho a (by simp), if_true]
        have he : (pre ++ a :: suf).eraseIdx pre.length = pre ++ suf := by
          rw [List.eraseIdx_append_of_length_le (by omega)]; simp
        rw [he]
        cases suf with
        | nil =>
          cases fuel with
          | zero => simp at hf
          | succ fuel => simp [sweep, everySecond]
        | cons b suf =>
          have := ih suf (by simp at hn; omega) fuel (pre ++ [b]) (by simp at hf; omega)
            (fun s hs => ho s (by simp [hs]))
          simpa [everySecond] using this

/-- Everything the sweep leaves comes from the table, possibly with fewer headers. -/
theorem sweep_mem (fuel : Nat) : ∀ (rs : List Route) (i : Nat) (o : Route), o ∈ sweep fuel rs i →
    ∃ r ∈ rs, o = r ∨ ∃ hs, o = { r with headers := hs } := by
  induction fuel with
  | zero => intro rs i o h; exact ⟨o, h, Or.inl rfl⟩
  | succ fuel ih =>
    intro rs i o h
    rw [sweep] at h
    split at h
    · exact ⟨o, h, Or.inl rfl⟩
    · rename_i r hr
      split at h
      · obtain ⟨s, h1, h2⟩ := ih _ _ _ h
        exact ⟨s, List.mem_of_mem_eraseIdx h1, h2⟩
      · obtain ⟨s, h1, h2⟩ := ih _ _ _ h
        rcases List.mem_or_eq_of_mem_set h1 with h1 | h1
        · exact ⟨s, h1, h2⟩
        · subst h1
          refine ⟨r, List.mem_of_getElem? hr, Or.inr ?_⟩
          rcases h2 with rfl | ⟨hs, rfl⟩
          · exact ⟨_, rfl⟩
          · exact ⟨hs, rfl⟩

/-- A route that is not for debugging only stays, possibly with fewer headers. -/
theorem sweep_stays (fuel : Nat) : ∀ (rs : List Route) (i : Nat) (r : Route), r ∈ rs →
    r.onlyDebug = false → ∃ hs, ({ r with headers := hs } : Route) ∈ sweep fuel rs i := by
  induction fuel with
  | zero => intro rs i r h _; exact ⟨r.headers, h⟩
  | succ fuel ih =>
    intro rs i r h ho
    rw [sweep]
    split
    · exact ⟨r.headers, h⟩
    · rename_i x hx
      split
      · rename_i hox
        refine ih _ _ r ?_ ho
        rw [List.mem_eraseIdx_iff_getElem?]
        obtain ⟨k, hk⟩ := List.mem_iff_getElem?.1 h
        refine ⟨k, ?_, hk⟩
        rintro rfl
        rw [hx] at hk
        cases hk
        rw [ho] at hox
        cases hox
      · obtain ⟨k, hk⟩ := List.mem_iff_getElem?.1 h
        by_cases hki : k = i
        · subst hki
          rw [hx] at hk
          cases hk
          have hm : strip r ∈ rs.set k (strip r) := by
            have hlt : k < rs.length := by
              rcases Nat.lt_or_ge k rs.length with hl | hl
              · exact hl
              · rw [List.getElem?_eq_none hl] at hx; cases hx
            exact List.mem_set hlt _
          exact ih _ _ (strip r) hm ho
        · exact ih _ _ r (by
            rw [List.mem_iff_getElem?]
            exact ⟨k, by rw [List.getElem?_set_ne (fun e => hki e.symm)]; exact hk⟩) ho

theorem stripName_absent (n : Str) (fuel : Nat) : ∀ (hs : List Hdr) (k : Nat),
    (∀ h ∈ hs, n ≠ h.name) → stripName n fuel hs k = hs := by
  induction fuel with
  | zero => intro hs k _; rfl
  | succ fuel ih =>
    intro hs k h
    rw [stripName]
    split
    · rfl
    · rename_i x hx
      rw [if_neg (h x (List.mem_of_getElem? hx))]
      exact ih hs _ h

theorem stripName_head (n : Str) (h : Hdr) (hs : List Hdr) (fuel : Nat) (hn : n = h.name)
    (ha : ∀ x ∈ hs, n ≠ x.name) : stripName n (fuel + 1) (h :: hs) 0 = hs := by
  rw [stripName]
  simp only [List.getElem?_cons_zero, if_pos hn, List.erase_cons_head]
  exact stripName_absent n fuel hs _ ha

/-- The CORS headers after the first one. -/
def corsRest (c : Cors) : List Hdr := (corsHeaders c).tail

theorem corsRest_names (c : Cors) : ∀ h ∈ corsRest c, acao ≠ h.name := by
  intro h hh
  simp only [corsRest, corsHeaders, List.singleton_append, List.cons_append, List.tail_cons,
    List.mem_append] at hh
  have e : h.name = acam ∨ h.name = acah ∨ h.name = aceh ∨ h.name = acac := by
    rcases hh with ((hh | hh) | hh) | hh
    · split at hh
      · simp at hh; simp [hh]
      · simp at hh
    · split at hh
      · simp at hh; simp [hh]
      · simp at hh
    · split at hh
      · simp at hh; simp [hh]
      · simp at hh
    · split at hh
      · simp at hh; simp [hh]
      · simp at hh
  rcases e with e | e | e | e <;> rw [e] <;> decide

theorem strip_plain (r : Route) (h : r.debugNames = []) : strip r = r := by
  cases r
  simp only at h
  subst h
  rfl

theorem strip_withCors (c : Cors) (r : Route) (hr : r.headers = [] ∧ r.debugNames = [])
    (hc : c.onlyDebug = false) : (strip (withCors c r)).headers = corsRest c := by
  have e : corsHeaders c = ⟨acao, c.origin⟩ :: corsRest c := by
    simp [corsRest, corsHeaders]
  have e2 : corsDebugNames c = [acao] := by simp [corsDebugNames, hc]
  simp only [strip, withCors, hr.1, hr.2, List.nil_append, e2, List.foldl_cons, List.foldl_nil]
  rw [e]
  exact stripName_head acao _ _ _ rfl (corsRest_names c)

/-! ## Default headers -/

theorem lower_eq_iff (a b : Str) : lower a = lower b ↔ SameName a b := by
  have h1 : ∀ c, up (lowerC c) = up c := by
    intro c; unfold up lowerC; split <;> (repeat' split) <;> omega
  have h2 : ∀ c, lowerC (up c) = lowerC c := by
    intro c; unfold up lowerC; split <;> (repeat' split) <;> omega
  unfold lower SameName
  constructor
  · intro h
    have := congrArg (List.map up) h
    simpa [List.map_map, Function.comp_def, h1] using this
  · intro h
    have := congrArg (List.map lowerC) h
    simpa [List.map_map, Function.comp_def, h2] using this

theorem addDefaults_spec (ds : List Hdr) : ∀ hs : List Hdr,
    ∃ added, addDefaults hs ds = hs ++ added ∧ added.Sublist ds ∧
      (∀ d ∈ added, ∀ h ∈ hs, ¬ SameName h.name d.name) ∧
      added.Pairwise (fun a b => ¬ SameName a.name b.name) ∧
      (∀ d ∈ ds, ∃ h ∈ hs ++ added, SameName h.name d.name) := by
  induction ds with
  | nil => intro hs; exact ⟨[], by simp [addDefaults], by simp, by simp, by simp, by simp⟩
  | cons d ds ih =>
    intro hs
    have hstep : addDefaults hs (d :: ds) =
        addDefaults (if hs.any (fun j => lower j.name == lower d.name) then hs else hs ++ [d]) ds := rfl
    rw [hstep]
    have hany : hs.any (fun j => lower j.name == lower d.name) = true ↔
        ∃ h ∈ hs, SameName h.name d.name := by
      simp [List.any_eq_true, lower_eq_iff]
    by_cases hex : ∃ h ∈ hs, SameName h.name d.name
    · rw [if_pos (hany.2 hex)]
      obtain ⟨added, e, h1, h2, h3, h4⟩ := ih hs
      refine ⟨added, e, h1.cons d, h2, h3, ?_⟩
      intro x hx
      rcases List.mem_cons.1 hx with rfl | hx
      · obtain ⟨h, hh, hs'⟩ := hex
        exact ⟨h, by simp [hh], hs'⟩
      · exact h4 x hx
    · rw [if_neg (fun h => hex (hany.1 h))]
      obtain ⟨added, e, h1, h2, h3, h4⟩ := ih (hs ++ [d])
      refine ⟨d :: added, by rw [e]; simp, h1.cons_cons d, ?_, ?_, ?_⟩
      · intro x hx h hh
        rcases List.mem_cons.1 hx with rfl | hx
        · exact fun hn => hex ⟨h, hh, hn⟩
        · exact h2 x hx h (by simp [hh])
      · refine List.pairwise_cons.2 ⟨?_, h3⟩
        intro x hx
        exact h2 x hx d (by simp)
      · intro x hx
        rcases List.mem_cons.1 hx with rfl | hx
        · exact ⟨x, by simp, rfl⟩
        · obtain ⟨h, hh, hs'⟩ := h4 x hx
          exact ⟨h, by simpa using hh, hs'⟩

end Fly.PyRoute
