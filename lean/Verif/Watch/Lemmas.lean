import Verif.Watch.Spec

/-! # Lemmas on resolving and walking, and the invariant of growing trees -/

namespace Fly.Watch

/-! ## Lookup and resolve -/

theorem lookup_some {ents : List Ent} {d : Nat} {n : Bytes} {e : Ent} (h : lookup ents d n = some e) :
    e ∈ ents ∧ e.dir = d ∧ e.name = n := by
  refine ⟨List.mem_of_find?_eq_some h, ?_⟩
  have := List.find?_some h
  simp at this
  exact this

theorem lookup_mem {ents : List Ent} (u : ∀ e ∈ ents, ∀ e' ∈ ents, e.dir = e'.dir → e.name = e'.name → e = e')
    {e : Ent} (h : e ∈ ents) : lookup ents e.dir e.name = some e := by
  cases hl : lookup ents e.dir e.name with
  | none =>
    have := List.find?_eq_none.1 hl e h
    simp at this
  | some e' =>
    obtain ⟨h1, h2, h3⟩ := lookup_some hl
    rw [u e' h1 e h h2 h3]

theorem lookup_append {ents : List Ent} {d : Nat} {n : Bytes} {e : Ent} (x : List Ent)
    (h : lookup ents d n = some e) : lookup (ents ++ x) d n = some e := by
  unfold lookup at h ⊢
  rw [List.find?_append, h]
  rfl

theorem resolve_append {ents : List Ent} (x : List Ent) : ∀ (p : List Bytes) (d i : Nat),
    resolve ents d p = some i → resolve (ents ++ x) d p = some i
  | [], d, i, h => h
  | n :: r, d, i, h => by
    unfold resolve at h ⊢
    cases hl : lookup ents d n with
    | none => rw [hl] at h; cases h
    | some e =>
      rw [hl] at h
      rw [lookup_append x hl]
      exact resolve_append x r e.ino i h

theorem resolve_snoc {ents : List Ent} (n : Bytes) (e : Ent) : ∀ (p : List Bytes) (d i : Nat),
    resolve ents d p = some i → lookup ents i n = some e → resolve ents d (p ++ [n]) = some e.ino
  | [], d, i, h, hl => by
    cases h
    show resolve ents d [n] = some e.ino
    unfold resolve
    rw [hl]
    rfl
  | m :: r, d, i, h, hl => by
    show resolve ents d (m :: (r ++ [n])) = some e.ino
    unfold resolve at h ⊢
    cases hm : lookup ents d m with
    | none => rw [hm] at h; cases h
    | some e' =>
      rw [hm] at h
      exact resolve_snoc n e r e'.ino i h hl

/-! ## Walking -/

theorem walk_children {ents : List Ent} {f d : Nat} {p : List Bytes} {e : Ent} (he : e ∈ ents) (hd : e.dir = d) :
    (p ++ [e.name], e.ino) ∈ walk ents (f + 1) d p := by
  unfold walk
  refine List.mem_flatMap.2 ⟨e, List.mem_filter.2 ⟨he, by simp [hd]⟩, ?_⟩
  simp

/-- Everything in the walk has its children in the walk. -/
theorem walk_closed {ents : List Ent} {n : Nat} (below : ∀ e ∈ ents, e.dir < e.ino ∧ e.ino < n) :
    ∀ (f d : Nat) (p : List Bytes), n ≤ f + d → ∀ x ∈ walk ents f d p, ∀ e ∈ ents, e.dir = x.2 →
      (x.1 ++ [e.name], e.ino) ∈ walk ents f d p
  | 0, _, _, _, x, hx, _, _, _ => by simp [walk] at hx
  | f + 1, d, p, hf, x, hx, e, he, hd => by
    unfold walk at hx ⊢
    obtain ⟨e', he', hx⟩ := List.mem_flatMap.1 hx
    have hm := List.mem_filter.1 he'
    have hd' : e'.dir = d := by simpa using hm.2
    have hb := below e' hm.1
    refine List.mem_flatMap.2 ⟨e', he', ?_⟩
    rcases List.mem_append.1 hx with hx | hx
    · exact List.mem_append_left _ (walk_closed below f e'.ino _ (by omega) x hx e he hd)
    · simp at hx
      subst hx
      refine List.mem_append_left _ ?_
      cases f with
      | zero => omega
      | succ f => exact walk_children he hd

/-- Everything in the walk is where its path leads to. -/
theorem walk_resolve {ents : List Ent} (u : ∀ e ∈ ents, ∀ e' ∈ ents, e.dir = e'.dir → e.name = e'.name → e = e') :
    ∀ (f d : Nat) (p : List Bytes), resolve ents 0 p = some d → ∀ x ∈ walk ents f d p,
      resolve ents 0 x.1 = some x.2 ∧ ∃ e ∈ ents, e.ino = x.2
  | 0, _, _, _, x, hx => by simp [walk] at hx
  | f + 1, d, p, hp, x, hx => by
    unfold walk at hx
    obtain ⟨e, he, hx⟩ := List.mem_flatMap.1 hx
    have hm := List.mem_filter.1 he
    have hd : e.dir = d := by simpa using hm.2
    have hr : resolve ents 0 (p ++ [e.name]) = some e.ino :=
      resolve_snoc e.name e p 0 d hp (by rw [← hd]; exact lookup_mem u hm.1)
    rcases List.mem_append.1 hx with hx | hx
    · exact walk_resolve u f e.ino _ hr x hx
    · simp at hx
      subst hx
      exact ⟨hr, e, hm.1, rfl⟩

/-! ## Watches -/

/-- The watches of the kernel: one per inode, one per descriptor. -/
structure Wok (s : St) : Prop where
  wd : ∀ w ∈ s.watches, ∀ w' ∈ s.watches, w.wd = w'.wd → w = w'
  ino : ∀ w ∈ s.watches, ∀ w' ∈ s.watches, w.ino = w'.ino → w = w'
  lt : ∀ w ∈ s.watches, w.wd < s.nextWd ∧ w.ino < s.nextIno

theorem watch_find {s : St} (h : Wok s) {w : Watch} (hw : w ∈ s.watches) :
    s.watches.find? (fun v => v.ino == w.ino) = some w := by
  cases hf : s.watches.find? (fun v => v.ino == w.ino) with
  | none =>
    have := List.find?_eq_none.1 hf w hw
    simp at this
  | some v =>
    have h1 := List.mem_of_find?_eq_some hf
    have h2 := List.find?_some hf
    simp at h2
    rw [h.ino v h1 w hw h2]

theorem watch_find_wd {s : St} (h : Wok s) {w : Watch} (hw : w ∈ s.watches) :
    s.watches.find? (fun v => v.wd == w.wd) = some w := by
  cases hf : s.watches.find? (fun v => v.wd == w.wd) with
  | none =>
    have := List.find?_eq_none.1 hf w hw
    simp at this
  | some v =>
    have h1 := List.mem_of_find?_eq_some hf
    have h2 := List.find?_some hf
    simp at h2
    rw [h.wd v h1 w hw h2]

theorem emit_watched {s : St} (h : Wok s) {w : Watch} (hw : w ∈ s.watches) (k : Kind) (n : Bytes) :
    emit s w.ino k n = if w.mask.wants k then { s with queue := s.queue ++ [⟨w.wd, k, n⟩] } else s := by
  unfold emit
  rw [watch_find h hw]

/-- An event changes only the queue: at most one event at its end. -/
theorem emit_cases (s : St) (i : Nat) (k : Kind) (n : Bytes) :
    emit s i k n = s ∨
      ∃ w ∈ s.watches, w.ino = i ∧ w.mask.wants k = true ∧ emit s i k n = { s with queue := s.queue ++ [⟨w.wd, k, n⟩] } := by
  unfold emit
  cases hf : s.watches.find? (fun v => v.ino == i) with
  | none => exact .inl rfl
  | some w =>
    have h1 := List.mem_of_find?_eq_some hf
    have h2 := List.find?_some hf
    simp at h2
    by_cases hm : w.mask.wants k = true
    · exact .inr ⟨w, h1, h2, hm, by simp [hm]⟩
    · exact .inl (by simp [hm])

/-- `inotify_add_watch`: the inode has a watch with the descriptor and mask afterwards; the other watches stay. -/
theorem addWatch_spec {s : St} (h : Wok s) {i : Nat} (hi : i < s.nextIno) (m : Mask) :
    Wok (addWatch s i m).2 ∧ ⟨(addWatch s i m).1, i, m⟩ ∈ (addWatch s i m).2.watches ∧
      (∀ w ∈ (addWatch s i m).2.watches, w.ino ≠ i → w ∈ s.watches) ∧
      (∀ w ∈ s.watches, ∃ w' ∈ (addWatch s i m).2.watches, w'.wd = w.wd ∧ w'.ino = w.ino ∧ (w.ino ≠ i → w' = w)) ∧
      (addWatch s i m).2 = { s with watches := (addWatch s i m).2.watches, nextWd := (addWatch s i m).2.nextWd } ∧
      (∀ w ∈ (addWatch s i m).2.watches, w.ino = i → w.mask = m ∧ w.wd = (addWatch s i m).1) := by
  unfold addWatch
  cases hf : s.watches.find? (fun v => v.ino == i) with
  | none =>
    have hn : ∀ w ∈ s.watches, w.ino ≠ i := by
      intro w hw e
      have := List.find?_eq_none.1 hf w hw
      simp [e] at this
    dsimp only
    refine ⟨⟨?_, ?_, ?_⟩, by simp, ?_, ?_, rfl, ?_⟩
    · intro w hw w' hw' e
      rcases List.mem_append.1 hw with a | a <;> rcases List.mem_append.1 hw' with b | b
      · exact h.wd w a w' b e
      · simp at b; subst b; have := (h.lt w a).1; simp at e; omega
      · simp at a; subst a; have := (h.lt w' b).1; simp at e; omega
      · simp at a b; rw [a, b]
    · intro w hw w' hw' e
      rcases List.mem_append.1 hw with a | a <;> rcases List.mem_append.1 hw' with b | b
      · exact h.ino w a w' b e
      · simp at b; subst b; exact absurd e (hn w a)
      · simp at a; subst a; exact absurd e.symm (hn w' b)
      · simp at a b; rw [a, b]
    · intro w hw
      rcases List.mem_append.1 hw with a | a
      · have := h.lt w a; dsimp only; omega
      · simp at a; subst a; exact ⟨Nat.lt_succ_self _, hi⟩
    · intro w hw hne
      rcases List.mem_append.1 hw with a | a
      · exact a
      · simp at a; subst a; exact absurd rfl hne
    · intro w hw
      exact ⟨w, List.mem_append_left _ hw, rfl, rfl, fun _ => rfl⟩
    · intro w hw e
      rcases List.mem_append.1 hw with a | a
      · exact absurd e (hn w a)
      · simp at a; subst a; exact ⟨rfl, rfl⟩
  | some v =>
    have h1 := List.mem_of_find?_eq_some hf
    have h2 := List.find?_some hf
    simp at h2
    dsimp only
    have key : ∀ w, w ∈ s.watches.map (fun v => if v.ino = i then { v with mask := m } else v) →
        ∃ u ∈ s.watches, w.wd = u.wd ∧ w.ino = u.ino ∧ (u.ino ≠ i → w = u) ∧ (u.ino = i → w.mask = m) := by
      intro w hw
      obtain ⟨u, hu, e⟩ := List.mem_map.1 hw
      refine ⟨u, hu, ?_⟩
      by_cases hi : u.ino = i
      · rw [if_pos hi] at e; subst e; exact ⟨rfl, rfl, fun x => absurd hi x, fun _ => rfl⟩
      · rw [if_neg hi] at e; subst e; exact ⟨rfl, rfl, fun _ => rfl, fun x => absurd x hi⟩
    have uni : ∀ w ∈ s.watches.map (fun v => if v.ino = i then { v with mask := m } else v),
        ∀ w' ∈ s.watches.map (fun v => if v.ino = i then { v with mask := m } else v), w.ino = w'.ino → w = w' := by
      intro w hw w' hw' e
      obtain ⟨u, hu, a1, a2, a3, a4⟩ := key w hw
      obtain ⟨u', hu', b1, b2, b3, b4⟩ := key w' hw'
      have : u = u' := h.ino u hu u' hu' (by omega)
      subst this
      by_cases hi : u.ino = i
      · have q1 := a4 hi; have q2 := b4 hi
        cases w; cases w'; simp_all
      · rw [a3 hi, b3 hi]
    refine ⟨⟨?_, uni, ?_⟩, ?_, ?_, ?_, rfl, ?_⟩
    · intro w hw w' hw' e
      refine uni w hw w' hw' ?_
      obtain ⟨u, hu, a1, a2, _⟩ := key w hw
      obtain ⟨u', hu', b1, b2, _⟩ := key w' hw'
      have : u = u' := h.wd u hu u' hu' (by omega)
      subst this
      omega
    · intro w hw
      obtain ⟨u, hu, a1, a2, _⟩ := key w hw
      have := h.lt u hu
      dsimp only
      omega
    · refine List.mem_map.2 ⟨v, h1, ?_⟩
      rw [if_pos h2, ← h2]
    · intro w hw hne
      obtain ⟨u, hu, a1, a2, a3, _⟩ := key w hw
      rw [a3 (by omega)]
      exact hu
    · intro w hw
      refine ⟨_, List.mem_map.2 ⟨w, hw, rfl⟩, ?_⟩
      by_cases hi : w.ino = i
      · rw [if_pos hi]; exact ⟨rfl, rfl, fun x => absurd hi x⟩
      · rw [if_neg hi]; exact ⟨rfl, rfl, fun _ => rfl⟩
    · intro w hw e
      obtain ⟨u, hu, a1, a2, a3, a4⟩ := key w hw
      refine ⟨a4 (by omega), ?_⟩
      rw [a1, h.ino u hu v h1 (by omega)]

end Fly.Watch
