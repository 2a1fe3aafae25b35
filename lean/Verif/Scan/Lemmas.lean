import Verif.Scan.Spec

set_option linter.all false

namespace Fly.Scan

open Fly.Mount
open Fly.RB (Item)

theorem entries_has (f : Forest) : ∀ (pre p : Bytes) (d : Bool),
    (p, d) ∈ entries pre f ↔ ∃ q, p = pre ++ q ∧ Has f q d := by
  induction f with
  | nil => intro pre p d; simp [entries, Has]
  | file n r rest ih =>
    intro pre p d
    simp only [entries, List.mem_cons, Has, ih, Prod.mk.injEq]
    constructor
    · rintro (⟨h1, h2⟩ | ⟨q, h1, h2⟩)
      · exact ⟨n, h1, Or.inl ⟨rfl, h2⟩⟩
      · exact ⟨q, h1, Or.inr h2⟩
    · rintro ⟨q, h1, ⟨h2, h3⟩ | h2⟩
      · exact Or.inl ⟨by rw [h1, h2], h3⟩
      · exact Or.inr ⟨q, h1, h2⟩
  | dangling n rest ih => intro pre p d; simp only [entries, Has, ih]
  | dir n r ch rest ih1 ih2 =>
    intro pre p d
    simp only [entries, List.mem_append, List.mem_singleton, Has, ih1, ih2, Prod.mk.injEq]
    constructor
    · rintro ((⟨q, h1, h2⟩ | ⟨h1, h2⟩) | ⟨q, h1, h2⟩)
      · exact ⟨n ++ 47 :: q, by rw [h1]; simp, Or.inr (Or.inl ⟨q, rfl, h2⟩)⟩
      · exact ⟨n, h1, Or.inl ⟨rfl, h2⟩⟩
      · exact ⟨q, h1, Or.inr (Or.inr h2)⟩
    · rintro ⟨q, h1, ⟨h2, h3⟩ | ⟨q', h2, h3⟩ | h2⟩
      · exact Or.inl (Or.inr ⟨by rw [h1, h2], h3⟩)
      · exact Or.inl (Or.inl ⟨q', by rw [h1, h2]; simp, h3⟩)
      · exact Or.inr ⟨q, h1, h2⟩

theorem takeWhile_no {n : Bytes} (h : 47 ∉ n) (r : Bytes) :
    (n ++ 47 :: r).takeWhile (· ≠ 47) = n := by
  induction n with
  | nil => simp
  | cons a n ih =>
    simp only [List.mem_cons, not_or] at h
    rw [List.cons_append, List.takeWhile_cons_of_pos (by simp; exact fun e => h.1 e.symm), ih h.2]

theorem takeWhile_no' {n : Bytes} (h : 47 ∉ n) : n.takeWhile (· ≠ 47) = n := by
  induction n with
  | nil => rfl
  | cons a n ih =>
    simp only [List.mem_cons, not_or] at h
    rw [List.takeWhile_cons_of_pos (by simp; exact fun e => h.1 e.symm), ih h.2]

/-- The first component of an entry's path is the name of an entry of the directory. -/
theorem first_name (f : Forest) : ∀ {q : Bytes} {d : Bool}, Proper f → Has f q d →
    q.takeWhile (· ≠ 47) ∈ names f := by
  induction f with
  | nil => intro q d _ h; exact absurd h (by simp [Has])
  | file n r rest ih =>
    intro q d hp h
    rcases h with ⟨h1, _⟩ | h
    · rw [h1, takeWhile_no' hp.1.2.2]; simp [names]
    · simp only [names, List.mem_cons]; exact Or.inr (ih hp.2.2 h)
  | dangling n rest ih =>
    intro q d hp h
    simp only [names, List.mem_cons]; exact Or.inr (ih hp.2.2 h)
  | dir n r ch rest ih1 ih2 =>
    intro q d hp h
    rcases h with ⟨h1, _⟩ | ⟨q', h1, _⟩ | h
    · rw [h1, takeWhile_no' hp.1.2.2]; simp [names]
    · rw [h1, takeWhile_no hp.1.2.2]; simp [names]
    · simp only [names, List.mem_cons]; exact Or.inr (ih2 hp.2.2.2 h)

/-- Paths of entries are not empty, have no NUL and no leading slash. -/
theorem has_ok (f : Forest) : ∀ {q : Bytes} {d : Bool}, Proper f → Has f q d →
    q ≠ [] ∧ 0 ∉ q ∧ q.head? ≠ some 47 := by
  have hn : ∀ n : Bytes, NameOk n → n ≠ [] ∧ 0 ∉ n ∧ n.head? ≠ some 47 := by
    intro n ⟨h1, h2, h3⟩
    refine ⟨h1, h2, ?_⟩
    cases n with
    | nil => simp
    | cons a n =>
      simp only [List.mem_cons, not_or] at h3
      simp only [List.head?_cons, ne_eq, Option.some.injEq]
      exact fun h => h3.1 h.symm
  induction f with
  | nil => intro q d _ h; exact absurd h (by simp [Has])
  | file n r rest ih =>
    intro q d hp h
    rcases h with ⟨h1, _⟩ | h
    · rw [h1]; exact hn n hp.1
    · exact ih hp.2.2 h
  | dangling n rest ih => intro q d hp h; exact ih hp.2.2 h
  | dir n r ch rest ih1 ih2 =>
    intro q d hp h
    rcases h with ⟨h1, _⟩ | ⟨q', h1, h2⟩ | h
    · rw [h1]; exact hn n hp.1
    · obtain ⟨a1, a2, a3⟩ := hn n hp.1
      obtain ⟨b1, b2, b3⟩ := ih1 hp.2.2.1 h2
      rw [h1]
      refine ⟨by simp, by simp [a2, b2], ?_⟩
      cases n with
      | nil => exact absurd rfl a1
      | cons a n => simpa using a3
    · exact ih2 hp.2.2.2 h

theorem entries_nodup (f : Forest) : ∀ (pre : Bytes), Proper f → ((entries pre f).map (·.1)).Nodup := by
  induction f with
  | nil => intro pre _; simp [entries]
  | file n r rest ih =>
    intro pre hp
    simp only [entries, List.map_cons, List.nodup_cons]
    refine ⟨?_, ih pre hp.2.2⟩
    rw [List.mem_map]
    rintro ⟨⟨p, d⟩, h1, h2⟩
    obtain ⟨q, h3, h4⟩ := (entries_has rest pre p d).1 h1
    simp only at h2
    rw [h2] at h3
    have hq := List.append_cancel_left h3
    have := first_name rest hp.2.2 h4
    rw [← hq, takeWhile_no' hp.1.2.2] at this
    exact hp.2.1 this
  | dangling n rest ih => intro pre hp; exact ih pre hp.2.2
  | dir n r ch rest ih1 ih2 =>
    intro pre hp
    obtain ⟨p1, p2, p3, p4⟩ := hp
    simp only [entries, List.map_append, List.map_cons, List.map_nil]
    rw [List.nodup_append]
    refine ⟨?_, ih2 pre p4, ?_⟩
    · rw [List.nodup_append]
      refine ⟨ih1 _ p3, by simp, ?_⟩
      intro a ha b hb
      simp only [List.mem_singleton] at hb
      subst hb
      rw [List.mem_map] at ha
      obtain ⟨⟨p, d⟩, h1, h2⟩ := ha
      obtain ⟨q, h3, h4⟩ := (entries_has ch _ p d).1 h1
      simp only at h2
      rw [← h2, h3]
      intro h
      have := congrArg List.length h
      simp at this
    · intro a ha b hb
      rw [List.mem_map] at hb
      obtain ⟨⟨p, d⟩, h1, h2⟩ := hb
      obtain ⟨q, h3, h4⟩ := (entries_has rest _ p d).1 h1
      simp only at h2
      have hfirst := first_name rest p4 h4
      intro hab
      subst hab
      rw [← h2, h3] at ha
      rw [List.mem_append] at ha
      apply p2
      rcases ha with ha | ha
      · rw [List.mem_map] at ha
        obtain ⟨⟨p', d'⟩, g1, g2⟩ := ha
        obtain ⟨q', g3, _⟩ := (entries_has ch _ p' d').1 g1
        simp only at g2
        rw [g2] at g3
        have : pre ++ q = pre ++ (n ++ 47 :: q') := by rw [g3]; simp
        have := List.append_cancel_left this
        rw [this, takeWhile_no p1.2.2] at hfirst
        exact hfirst
      · simp only [List.mem_singleton] at ha
        have := List.append_cancel_left ha
        rw [this, takeWhile_no' p1.2.2] at hfirst
        exact hfirst

theorem entry_inj {es : List (Bytes × Bool)} (hn : (es.map (·.1)).Nodup) {x y : Bytes × Bool} (hx : x ∈ es)
    (hy : y ∈ es) (h : x.1 = y.1) : x = y := by
  induction es with
  | nil => cases hx
  | cons e es ih =>
    simp only [List.map_cons, List.nodup_cons] at hn
    rcases List.mem_cons.1 hx with hx' | hx'
    · rcases List.mem_cons.1 hy with hy' | hy'
      · rw [hx', hy']
      · exact absurd (by rw [← hx', h]; exact List.mem_map_of_mem hy') hn.1
    · rcases List.mem_cons.1 hy with hy' | hy'
      · exact absurd (by rw [← hy', ← h]; exact List.mem_map_of_mem hx') hn.1
      · exact ih hn.2 hx' hy'

theorem entries_length (f : Forest) : ∀ (pre : Bytes), (entries pre f).length = size f := by
  induction f with
  | nil => intro pre; rfl
  | file n r rest ih => intro pre; simp only [entries, List.length_cons, size, ih]; omega
  | dangling n rest ih => intro pre; exact ih pre
  | dir n r ch rest ih1 ih2 =>
    intro pre; simp only [entries, List.length_append, List.length_cons, List.length_nil, size, ih1, ih2]; omega

theorem skipMount_spec (mp rel : Bytes) : skipMount (mp ++ 47 :: rel) mp = some rel := by
  induction mp with
  | nil => rfl
  | cons a mp ih => simp only [List.cons_append, skipMount, if_true, ih]

theorem relName_spec (mp rel : Bytes) (h : rel.head? ≠ some 47) : relName (mp ++ 47 :: rel) mp = some rel := by
  unfold relName
  rw [skipMount_spec]
  cases rel with
  | nil => rfl
  | cons c s =>
    simp only [List.head?_cons, ne_eq, Option.some.injEq] at h
    simp only [if_neg h]

theorem register_new (mp rel : Bytes) (d : Bool) (acc : Acc) (h : rel.head? ≠ some 47)
    (hn : rel ∉ acc.out.map (·.1)) :
    register mp (mp ++ 47 :: rel) d acc = .ok ⟨acc.count + 1, acc.out ++ [(rel, d)]⟩ := by
  unfold register
  rw [if_neg, relName_spec mp rel h]
  rw [List.any_eq_true]
  rintro ⟨e, h1, h2⟩
  simp only [decide_eq_true_eq] at h2
  have := List.append_cancel_left h2
  injection this with _ h3
  exact hn (by rw [← h3]; exact List.mem_map_of_mem h1)

theorem head_append {pre x : Bytes} (h1 : pre.head? ≠ some 47) (h2 : x.head? ≠ some 47) :
    (pre ++ x).head? ≠ some 47 := by
  cases pre with
  | nil => exact h2
  | cons a pre => simpa using h1

theorem scan_spec (mp : Bytes) (max : Nat) (f : Forest) : ∀ (path pre : Bytes) (acc : Acc),
    (∀ x, path ++ 47 :: x = mp ++ 47 :: (pre ++ x)) → pre.head? ≠ some 47 → Proper f → DirsOpen f →
    Fits path.length f → acc.count + size f ≤ max →
    (∀ e ∈ entries pre f, e.1 ∉ acc.out.map (·.1)) →
    scan mp max path f acc = .ok ⟨acc.count + size f, acc.out ++ entries pre f⟩ := by
  induction f with
  | nil => intro path pre acc _ _ _ _ _ _ _; simp [scan, size, entries]
  | dangling n rest ih =>
    intro path pre acc hpath hpre hp ho hf hc hd
    have hlen : ¬ pathMax < (path ++ 47 :: n).length := by
      simp only [List.length_append, List.length_cons, pathMax]; have := hf.2.1; omega
    unfold scan
    rw [if_neg hlen]
    exact ih path pre acc hpath hpre hp.2.2 ho hf.2.2 hc hd
  | file n r rest ih =>
    intro path pre acc hpath hpre hp ho hf hc hd
    have hl : (path ++ 47 :: n).length < 4096 := by
      simp only [List.length_append, List.length_cons]; have := hf.2.1; omega
    have hhead : (pre ++ n).head? ≠ some 47 :=
      head_append hpre ((has_ok (.file n r .nil) ⟨hp.1, by simp [names], trivial⟩ (Or.inl ⟨rfl, rfl⟩)).2.2)
    have hnd := entries_nodup (.file n r rest) pre hp
    simp only [entries, List.map_cons, List.nodup_cons] at hnd
    unfold scan
    rw [if_neg (by unfold pathMax; omega), if_neg (by unfold pathMax nameMax; have := hf.1; omega), hpath,
      register_new mp _ false acc hhead (hd (pre ++ n, false) (by simp [entries]))]
    simp only
    rw [ih path pre _ hpath hpre hp.2.2 ho hf.2.2 (by simp only [size] at hc ⊢; omega)]
    · simp only [size, entries, List.append_assoc, List.singleton_append]
      rw [Nat.add_assoc]
    · intro e he
      simp only [List.map_append, List.map_cons, List.map_nil, List.mem_append, List.mem_singleton, not_or]
      refine ⟨hd e (by simp [entries, he]), ?_⟩
      intro h
      exact hnd.1 (by rw [← h]; exact List.mem_map_of_mem he)
  | dir n r ch rest ih1 ih2 =>
    intro path pre acc hpath hpre hp ho hf hc hd
    have hl : (path ++ 47 :: n).length < 4096 := by
      simp only [List.length_append, List.length_cons]; have := hf.2.1; omega
    have hhead : (pre ++ n).head? ≠ some 47 :=
      head_append hpre ((has_ok (.file n r .nil) ⟨hp.1, by simp [names], trivial⟩ (Or.inl ⟨rfl, rfl⟩)).2.2)
    have hnd := entries_nodup (.dir n r ch rest) pre hp
    simp only [entries, List.map_append, List.map_cons, List.map_nil] at hnd
    rw [List.nodup_append, List.nodup_append] at hnd
    obtain ⟨⟨d1, _, d2⟩, d3, d4⟩ := hnd
    simp only [size] at hc
    unfold scan
    rw [if_neg (by unfold pathMax; omega), if_neg (by unfold pathMax nameMax; have := hf.1; omega),
      if_neg (by rw [ho.1]; simp; omega)]
    rw [ih1 (path ++ 47 :: n) (pre ++ n ++ [47]) acc]
    · simp only
      rw [hpath n, register_new mp _ true _ hhead]
      · simp only
        rw [ih2 path pre _ hpath hpre hp.2.2.2 ho.2.2 hf.2.2.2]
        · simp only [size, entries, List.append_assoc, List.singleton_append]
          congr 2
          omega
        · simp only; omega
        · intro e he
          simp only [List.map_append, List.map_cons, List.map_nil, List.mem_append, List.mem_singleton, not_or]
          refine ⟨⟨hd e (by simp [entries, he]), ?_⟩, ?_⟩
          · intro h
            exact d4 e.1 (List.mem_append_left _ h) e.1 (List.mem_map_of_mem he) rfl
          · intro h
            exact d4 e.1 (by simp [h]) e.1 (List.mem_map_of_mem he) rfl
      · simp only [List.map_append, List.mem_append, not_or]
        refine ⟨hd (pre ++ n, true) (by simp [entries]), ?_⟩
        intro h
        exact d2 _ h _ (by simp) rfl
    · intro x
      rw [hpath n]
      have := hpath (n ++ 47 :: x)
      simp
    · cases hpn : pre with
      | nil =>
        cases hnn : n with
        | nil => exact absurd hnn hp.1.1
        | cons a n' =>
          have := hp.1.2.2
          rw [hnn] at this
          simp only [List.mem_cons, not_or] at this
          simpa using fun h => this.1 h.symm
      | cons a pre' => rw [hpn] at hpre; simpa using hpre
    · exact hp.2.2.1
    · exact ho.2.1
    · have := hf.2.2.1
      have e : (path ++ 47 :: n).length = path.length + 1 + n.length := by
        simp only [List.length_append, List.length_cons]; omega
      rw [e]; exact this
    · omega
    · intro e he
      exact hd e (List.mem_append_left _ (List.mem_append_left _ he))

theorem mountDir_spec (max count : Nat) (mp : Bytes) (f : Forest) (hp : Proper f) (ho : DirsOpen f)
    (hf : Fits mp.length f) (hc : count + size f ≤ max) :
    mountDir max count mp f = .ok (entries [] f) := by
  unfold mountDir
  rw [if_neg (by omega), scan_spec mp max f mp [] ⟨count, []⟩ (fun x => rfl) (by simp) hp ho hf hc (by simp)]
  simp

/-- Registering a list of distinct names. -/
theorem registers_noDup (m : Nat) : ∀ (es : List (Bytes × Bool)) (ops : List Change) (live : List (Bytes × Nat)),
    Registers m es ops → (es.map (·.1)).Nodup → (∀ e ∈ es, ∀ x ∈ live, x.1 ≠ e.1) → NoDup live ops := by
  intro es
  induction es with
  | nil => intro ops live h _ _; cases h; trivial
  | cons e es ih =>
    obtain ⟨n, d⟩ := e
    intro ops live h hn hl
    obtain ⟨pf, a, ops', h1, h2, h3, h4, h5, h6⟩ := h
    subst h1
    simp only [List.map_cons, List.nodup_cons] at hn
    refine ⟨fun x hx => by rw [h2]; exact hl (n, d) (by simp) x hx, ih ops' _ h6 hn.2 ?_⟩
    intro e he x hx
    rw [List.mem_append, List.mem_singleton] at hx
    rcases hx with hx | hx
    · exact hl e (by simp [he]) x hx
    · subst hx
      simp only
      rw [h2]
      intro h
      exact hn.1 (by rw [h]; exact List.mem_map_of_mem he)

theorem registers_mounted (m : Nat) : ∀ (es : List (Bytes × Bool)) (ops : List Change) (fs : List PF),
    Registers m es ops → ∃ new, mounted fs ops = fs ++ new ∧ new.map (fun f => (f.name.1, f.dir)) = es ∧
      ∀ f ∈ new, f.mount = m := by
  intro es
  induction es with
  | nil => intro ops fs h; cases h; exact ⟨[], by simp [mounted], rfl, by simp⟩
  | cons e es ih =>
    obtain ⟨n, d⟩ := e
    intro ops fs h
    obtain ⟨pf, a, ops', h1, h2, h3, h4, h5, h6⟩ := h
    subst h1
    obtain ⟨new, g1, g2, g3⟩ := ih ops' (fs ++ [pf]) h6
    refine ⟨pf :: new, ?_, ?_, ?_⟩
    · simp only [mounted, g1, List.append_assoc, List.singleton_append]
    · simp only [List.map_cons, g2, h2, h3]
    · intro f hf
      rcases List.mem_cons.1 hf with rfl | hf
      · exact h4
      · exact g3 f hf

/-! ## The update -/

theorem skipSlashes_self {p : Bytes} (h : p.head? ≠ some 47) : skipSlashes p = p := by
  cases p with
  | nil => rfl
  | cons c r =>
    simp only [List.head?_cons, ne_eq, Option.some.injEq] at h
    simp only [skipSlashes, if_neg h]

theorem behind_spec (mp rel : Bytes) (h : rel.head? ≠ some 47) : behindMount (mp ++ 47 :: rel) mp = rel := by
  unfold behindMount
  rw [List.drop_left]
  simp only [skipSlashes, if_true]
  exact skipSlashes_self h

/-- A name is found exactly if a file has it. -/
theorem findKey_none {w : World} {m : List (Item Name Nat)} (hg : Good w m) (k : Bytes) :
    findKey w k = none ↔ ∀ f ∈ w.files, f.name.1 ≠ k := by
  constructor
  · intro h f hf e
    have := hg.find hf
    rw [e, h] at this
    cases this
  · intro h
    cases hk : findKey w k with
    | none => rfl
    | some q =>
      obtain ⟨f, f1, _, f3⟩ := hg.sound.found hk
      exact absurd f3 (h f f1)

/-- What one step of the walk guarantees. -/
structure Adds (v : Env) (es : List (Bytes × Bool)) (w w' : World) : Prop where
  grow : ∃ new, w'.files = w.files ++ new ∧
    ∀ g ∈ new, g.mount = v.mount ∧ (g.name.1, g.dir) ∈ es ∧ g.deleted = false
  all : ∀ e ∈ es, ∃ g ∈ w'.files, g.mount = v.mount ∧ g.name.1 = e.1

theorem addEntry_spec (v : Env) (rel n : Bytes) (d : Bool) (w : World) (m : List (Item Name Nat))
    (hg : Good w m) (ha : FreshAlloc v.alloc) (hn : n.length < 255) (hr : rel.length < 255)
    (hh : rel.head? ≠ some 47) (h0 : 0 ∉ rel)
    (ho : ∀ g ∈ w.files, g.name.1 = rel → g.mount = v.mount) :
    ∃ w' m', addEntry v (v.mp ++ 47 :: rel) n d true w = .ok w' ∧ Good w' m' ∧ Adds v [(rel, d)] w w' := by
  unfold addEntry
  rw [if_neg (by unfold nameMax; omega), behind_spec _ _ hh]
  by_cases hex : ∃ g ∈ w.files, g.name.1 = rel
  · obtain ⟨g, g1, g2⟩ := hex
    have hm := ho g g1 g2
    have hne : mountFiles w v.mount ≠ [] := by
      intro h
      have : g ∈ mountFiles w v.mount := by
        unfold mountFiles
        rw [List.mem_filter]
        exact ⟨g1, by simpa using hm⟩
      rw [h] at this
      cases this
    have hfk : findKey w rel ≠ none := by
      rw [ne_eq, findKey_none hg]
      intro h
      exact h g g1 g2
    rw [if_pos ⟨hne, hfk⟩]
    refine ⟨w, m, rfl, hg, ⟨[], by simp, by simp⟩, ?_⟩
    intro e he
    simp only [List.mem_singleton] at he
    subst he
    exact ⟨g, g1, hm, g2⟩
  · have hno : ∀ g ∈ w.files, g.name.1 ≠ rel := fun g h1 h2 => hex ⟨g, h1, h2⟩
    have hfk : findKey w rel = none := (findKey_none hg rel).2 hno
    rw [if_neg (by rw [hfk]; simp), if_neg (by simp), relName_spec _ _ hh]
    have hnn : newName v.junk rel = rel := by unfold newName; rw [if_pos (by unfold nameMax; omega)]
    simp only [hnn]
    rw [dif_neg h0]
    obtain ⟨f1, f2⟩ := ha w
    obtain ⟨w', m', a1, a2, a3⟩ := add_good w m hg ⟨(v.alloc w).1, v.mount, ⟨rel, h0⟩, d, false⟩ (v.alloc w).2 f1 f2
      (fun g h1 h2 => hno g h1 (congrArg Subtype.val h2))
    refine ⟨w', m', by rw [a1], a3, ⟨[_], a2, ?_⟩, ?_⟩
    · intro g hgin
      simp only [List.mem_singleton] at hgin
      subst hgin
      exact ⟨rfl, by simp, rfl⟩
    · intro e he
      simp only [List.mem_singleton] at he
      subst he
      exact ⟨⟨(v.alloc w).1, v.mount, ⟨rel, h0⟩, d, false⟩, by rw [a2]; simp, rfl, rfl⟩

theorem Adds.append {v : Env} {es es' : List (Bytes × Bool)} {w w1 w2 : World} (h1 : Adds v es w w1)
    (h2 : Adds v es' w1 w2) : Adds v (es ++ es') w w2 := by
  obtain ⟨⟨n1, a1, a2⟩, a3⟩ := h1
  obtain ⟨⟨n2, b1, b2⟩, b3⟩ := h2
  refine ⟨⟨n1 ++ n2, by rw [b1, a1, List.append_assoc], ?_⟩, ?_⟩
  · intro g hg
    rcases List.mem_append.1 hg with h | h
    · exact ⟨(a2 g h).1, by simp [(a2 g h).2.1], (a2 g h).2.2⟩
    · exact ⟨(b2 g h).1, by simp [(b2 g h).2.1], (b2 g h).2.2⟩
  · intro e he
    rcases List.mem_append.1 he with h | h
    · obtain ⟨g, g1, g2⟩ := a3 e h
      exact ⟨g, by rw [b1]; simp [g1], g2⟩
    · exact b3 e h

/-- Names of other mount points stay what they were. -/
theorem Adds.others {v : Env} {es : List (Bytes × Bool)} {w w1 : World} (h : Adds v es w w1) {rel : Bytes}
    (ho : ∀ g ∈ w.files, g.name.1 = rel → g.mount = v.mount) :
    ∀ g ∈ w1.files, g.name.1 = rel → g.mount = v.mount := by
  intro g hg hr
  obtain ⟨⟨n1, a1, a2⟩, _⟩ := h
  rw [a1, List.mem_append] at hg
  rcases hg with hg | hg
  · exact ho g hg hr
  · exact (a2 g hg).1

theorem addWalk_spec (v : Env) (ha : FreshAlloc v.alloc) (f : Forest) : ∀ (path pre : Bytes) (w : World)
    (m : List (Item Name Nat)), Good w m →
    (∀ x, path ++ 47 :: x = v.mp ++ 47 :: (pre ++ x)) → pre.head? ≠ some 47 → 0 ∉ pre → Proper f → AllOpen f →
    Fits path.length f → (∀ e ∈ entries pre f, e.1.length < 255) →
    (∀ e ∈ entries pre f, ∀ g ∈ w.files, g.name.1 = e.1 → g.mount = v.mount) →
    ∃ w' m', addWalk v path f w = .ok w' ∧ Good w' m' ∧ Adds v (entries pre f) w w' := by
  induction f with
  | nil => intro path pre w m hg _ _ _ _ _ _ _ _; exact ⟨w, m, rfl, hg, ⟨[], by simp, by simp⟩, by simp [entries]⟩
  | dangling n rest ih => intro path pre w m _ _ _ _ _ ho; exact absurd ho (by simp [AllOpen])
  | file n r rest ih =>
    intro path pre w m hg hpath hpre h0 hp ho hf hl hm
    have hok := has_ok (.file n r .nil) ⟨hp.1, by simp [names], trivial⟩ (Or.inl ⟨rfl, rfl⟩)
    have hhead : (pre ++ n).head? ≠ some 47 := head_append hpre hok.2.2
    obtain ⟨w1, m1, a1, a2, a3⟩ := addEntry_spec v (pre ++ n) n false w m hg ha hf.1
      (hl (pre ++ n, false) (by simp [entries])) hhead (by simp [h0, hok.2.1]) (hm (pre ++ n, false) (by simp [entries]))
    obtain ⟨w2, m2, b1, b2, b3⟩ := ih path pre w1 m1 a2 hpath hpre h0 hp.2.2 ho.2 hf.2.2
      (fun e he => hl e (by simp [entries, he]))
      (fun e he => a3.others (hm e (by simp [entries, he])))
    refine ⟨w2, m2, ?_, b2, ?_⟩
    · unfold addWalk
      rw [if_neg (by unfold pathMax; have := hf.2.1; omega), hpath, ho.1, a1]
      exact b1
    · exact Adds.append a3 b3
  | dir n r ch rest ih1 ih2 =>
    intro path pre w m hg hpath hpre h0 hp ho hf hl hm
    have hok := has_ok (.file n r .nil) ⟨hp.1, by simp [names], trivial⟩ (Or.inl ⟨rfl, rfl⟩)
    have hhead : (pre ++ n).head? ≠ some 47 := head_append hpre hok.2.2
    obtain ⟨w1, m1, a1, a2, a3⟩ := ih1 (path ++ 47 :: n) (pre ++ n ++ [47]) w m hg
      (by intro x; rw [hpath n]; simp)
      (by
        rw [List.append_assoc]
        cases hpn : pre with
        | nil =>
          cases hnn : n with
          | nil => exact absurd hnn hok.1
          | cons a n' => rw [hnn] at hok; simpa using hok.2.2
        | cons a pre' => rw [hpn] at hpre; simpa using hpre)
      (by simp [h0, hok.2.1]) hp.2.2.1 ho.2.1
      (by
        have := hf.2.2.1
        have e : (path ++ 47 :: n).length = path.length + 1 + n.length := by
          simp only [List.length_append, List.length_cons]; omega
        rw [e]; exact this)
      (fun e he => hl e (List.mem_append_left _ (List.mem_append_left _ he))) (fun e he => hm e (List.mem_append_left _ (List.mem_append_left _ he)))
    obtain ⟨w2, m2, b1, b2, b3⟩ := addEntry_spec v (pre ++ n) n true w1 m1 a2 ha hf.1
      (hl (pre ++ n, true) (by simp [entries])) hhead (by simp [h0, hok.2.1])
      (a3.others (hm (pre ++ n, true) (by simp [entries])))
    obtain ⟨w3, m3, c1, c2, c3⟩ := ih2 path pre w2 m2 b2 hpath hpre h0 hp.2.2.2 ho.2.2 hf.2.2.2
      (fun e he => hl e (by simp [entries, he]))
      (fun e he => b3.others (a3.others (hm e (by simp [entries, he]))))
    refine ⟨w3, m3, ?_, c2, ?_⟩
    · unfold addWalk
      rw [if_neg (by unfold pathMax; have := hf.2.1; omega), if_neg (by rw [ho.1]; simp), a1]
      simp only
      rw [hpath, ho.1, b1]
      exact c1
    · exact Adds.append (Adds.append a3 b3) c3

/-- The removal loop, started at the suffix `R` of the files of the mount point. -/
theorem delWalk_spec (mt : Nat) (f : Forest) : ∀ (R : List PF) (A : List PF) (w : World)
    (m : List (Item Name Nat)) (n : Nat), Good w m → mountFiles w mt = A ++ R → R.length < n →
    ∃ w' m', delWalk mt f n w (R.head?.map (·.addr)) = .ok w' ∧ Good w' m' ∧
      w'.files = w.files.filter (fun x => !(R.contains x && decide (statName f x.name.1 = .noent))) := by
  intro R
  induction R with
  | nil =>
    intro A w m n hg _ hn
    cases n with
    | zero => simp at hn
    | succ n =>
      refine ⟨w, m, rfl, hg, ?_⟩
      symm
      rw [List.filter_eq_self]
      intro x _
      simp
  | cons g R ih =>
    intro A w m n hg hm hn
    cases n with
    | zero => simp at hn
    | succ n =>
      have hgin : g ∈ w.files := by
        have : g ∈ mountFiles w mt := by rw [hm]; simp
        unfold mountFiles at this
        exact (List.mem_filter.1 this).1
      have hgm : g.mount = mt := by
        have : g ∈ mountFiles w mt := by rw [hm]; simp
        unfold mountFiles at this
        simpa using (List.mem_filter.1 this).2
      have hnd : ((mountFiles w mt).map (·.addr)).Nodup :=
        List.Nodup.sublist (List.Sublist.map _ List.filter_sublist) hg.sound.addrs
      have hnext : nextOf (mountFiles w mt) g.addr = R.head?.map (·.addr) := by
        rw [hm] at hnd ⊢
        exact nextOf_split A g R hnd
      simp only [List.head?_cons, Option.map_some]
      unfold delWalk
      rw [find_pf hg.sound.addrs hgin]
      simp only [hnext]
      by_cases hsd : statName f g.name.1 = .noent
      · rw [if_pos hsd]
        obtain ⟨w2, m2, r1, r2, r3⟩ := remove_good w m hg g hgin
        rw [r1]
        simp only
        have hm2 : mountFiles w2 mt = A ++ R := by
          have := mountFiles_remove (d := g) (w2 := w2) hg (by rw [hgm]; exact hm) hgin r2
          rw [hgm] at this
          exact this
        obtain ⟨w3, m3, e1, e2, e3⟩ := ih A w2 m2 n r3 hm2 (by simpa using hn)
        refine ⟨w3, m3, e1, e2, ?_⟩
        rw [e3, r2, List.filter_filter]
        apply List.filter_congr
        intro x hx
        by_cases hxf : x = g
        · subst hxf
          simp [hsd]
        · have : x.addr ≠ g.addr := fun h => hxf (pf_inj hg.sound.addrs hx hgin h)
          simp [this, hxf]
      · rw [if_neg hsd]
        obtain ⟨w3, m3, e1, e2, e3⟩ := ih (A ++ [g]) w m n hg (by rw [hm]; simp) (by simpa using hn)
        refine ⟨w3, m3, e1, e2, ?_⟩
        rw [e3]
        apply List.filter_congr
        intro x hx
        by_cases hxf : x = g
        · subst hxf
          simp [hsd]
        · simp [hxf]

/-- The removal loop adds nothing. -/
theorem delWalk_sub (mt : Nat) (f : Forest) : ∀ (n : Nat) (w : World) (c : Option Nat) (w' : World),
    delWalk mt f n w c = .ok w' → ∀ g ∈ w'.files, g ∈ w.files := by
  intro n
  induction n with
  | zero => intro w c w' h; cases h
  | succ n ih =>
    intro w c w' h g hg
    cases c with
    | none => unfold delWalk at h; cases h; exact hg
    | some a =>
      unfold delWalk at h
      cases hf : w.files.find? (fun x => x.addr == a) with
      | none => rw [hf] at h; cases h
      | some pf =>
        rw [hf] at h
        simp only at h
        split at h
        · cases hr : removeFile w pf with
          | none => rw [hr] at h; cases h
          | some w1 =>
            rw [hr] at h
            simp only at h
            have h1 := ih w1 _ w' h g hg
            unfold removeFile at hr
            split at hr
            · split at hr
              · cases hr; exact (List.mem_filter.1 h1).1
              · split at hr
                · cases hr
                · cases hr; exact (List.mem_filter.1 h1).1
            · cases hr
        · exact ih w _ w' h g hg

theorem stat_ok (f : Forest) (p : Bytes) : statName f p = .ok ↔ ∃ d, Has f p d := by
  have h : (entries [] f).any (fun e => decide (e.1 = p)) = true ↔ ∃ d, Has f p d := by
    rw [List.any_eq_true]
    constructor
    · rintro ⟨⟨q, d⟩, h1, h2⟩
      simp only [decide_eq_true_eq] at h2
      subst h2
      obtain ⟨q', h3, h4⟩ := (entries_has f [] q d).1 h1
      simp at h3
      subst h3
      exact ⟨d, h4⟩
    · rintro ⟨d, hd⟩
      exact ⟨(p, d), (entries_has f [] p d).2 ⟨p, by simp, hd⟩, by simp⟩
  unfold statName
  by_cases hc : (entries [] f).any (fun e => decide (e.1 = p)) = true
  · rw [if_pos hc]; exact ⟨fun _ => h.1 hc, fun _ => rfl⟩
  · rw [if_neg hc]
    constructor
    · intro hh; split at hh <;> cases hh
    · intro hh; exact absurd (h.2 hh) hc

theorem stat_notdir (f : Forest) (p : Bytes) : statName f p = .notdir ↔
    (¬ ∃ d, Has f p d) ∧ ∃ q r, Has f q false ∧ p = q ++ 47 :: r := by
  have h : (entries [] f).any (fun e => !e.2 && decide (p.take (e.1.length + 1) = e.1 ++ [47])) = true ↔
      ∃ q r, Has f q false ∧ p = q ++ 47 :: r := by
    rw [List.any_eq_true]
    constructor
    · rintro ⟨⟨q, d⟩, h1, h2⟩
      simp only [Bool.and_eq_true, Bool.not_eq_true', decide_eq_true_eq] at h2
      obtain ⟨h2, h3⟩ := h2
      subst h2
      obtain ⟨q', h4, h5⟩ := (entries_has f [] q false).1 h1
      simp at h4
      subst h4
      refine ⟨q, p.drop (q.length + 1), h5, ?_⟩
      have := List.take_append_drop (q.length + 1) p
      rw [h3] at this
      rw [← this]
      simp
    · rintro ⟨q, r, h1, h2⟩
      refine ⟨(q, false), (entries_has f [] q false).2 ⟨q, by simp, h1⟩, ?_⟩
      subst h2
      simp [List.take_append, List.take_of_length_le]
  have h' := stat_ok f p
  constructor
  · intro hs
    have hno : ¬ ∃ d, Has f p d := by
      intro hc
      rw [h'.2 hc] at hs
      cases hs
    refine ⟨hno, h.1 ?_⟩
    unfold statName at hs
    split at hs
    · cases hs
    · split at hs
      · assumption
      · cases hs
  · rintro ⟨h1, h2⟩
    unfold statName
    rw [if_neg, if_pos (h.2 h2)]
    intro hc
    apply h1
    apply h'.1
    unfold statName
    rw [if_pos hc]

end Fly.Scan
