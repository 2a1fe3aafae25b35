import Verif.Pool.Lemmas

namespace Fly.Pool
open Fly.Link (Links)

/-! ## C42: memory pools

`links`, `entry` are arbitrary contents of memory, `l0` the addresses allocated by others before the pool is created at `h`.
Every history of allocations and frees with a `malloc` that never returns allocated addresses is covered; frees are of arbitrary
addresses. -/

/-- **C42**, use.  No history misbehaves, the addresses in the hands of the user are exactly those handed out and not freed
since; they are distinct, allocated, none of them is memory of somebody else or of the pool itself, memory of others stays
allocated, and the number of blocks is theirs. -/
theorem C42_live (links : Links) (entry : Nat → Nat) (l0 : List Nat) (h : Nat) (hl : (h :: l0).Nodup) (os : List Op)
    (hm : AllMallocOk (create links entry l0 h) os) :
    ∃ s, run (create links entry l0 h) os = some s ∧
      (os.foldl specStep []).Nodup ∧ (∀ p ∈ os.foldl specStep [], p ∈ s.live ∧ p ∉ l0 ∧ p ≠ h) ∧
      (∀ p ∈ l0, p ∈ s.live) ∧ h ∈ s.live ∧ s.size = (os.foldl specStep []).length := by
  obtain ⟨s, bl, h1, hi, h3, h4⟩ := inv_run l0 os _ [] (inv_create links entry l0 h hl) hm
  have h4 : s.h = h := h4
  have h3 : bl.map (·.2) = os.foldl specStep [] := h3
  rw [← h3]
  have hn := inv_nodup l0 s bl hi
  simp only [List.nodup_cons, List.mem_append, not_or, List.nodup_append] at hn
  have hsub : ∀ p ∈ bl.map (·.2), p ∈ bl.flatMap fun x => [x.1, x.2] := fun p hp => (snd_sub bl).subset hp
  refine ⟨s, h1, snd_nodup l0 s bl hi, ?_, ?_, ?_, ?_⟩
  · intro p hp
    refine ⟨(hi.live.mem_iff).2 (by simp only [List.mem_cons, List.mem_append]; exact Or.inr (Or.inl (hsub p hp))), ?_, ?_⟩
    · intro hq
      exact hn.2.2.2 p (hsub p hp) p hq rfl
    · intro e
      exact hn.1.1 (by rw [h4, ← e]; exact hsub p hp)
  · intro p hp
    exact (hi.live.mem_iff).2 (by simp only [List.mem_cons, List.mem_append]; exact Or.inr (Or.inr hp))
  · exact (hi.live.mem_iff).2 (by simp [h4])
  · rw [hi.size]; simp

/-- **C42**, allocation hands out the new memory and keeps everything else allocated. -/
theorem C42_alloc (links : Links) (entry : Nat → Nat) (l0 : List Nat) (h : Nat) (hl : (h :: l0).Nodup) (os : List Op) (b e n : Nat)
    (s : Pool) (hm : AllMallocOk (create links entry l0 h) (os ++ [.alloc b e n])) (hr : run (create links entry l0 h) os = some s) :
    ∃ s', alloc s b e n = some (s', e) ∧ ∀ p ∈ s.live, p ∈ s'.live := by
  have key : ∀ (os : List Op) (s0 s : Pool), AllMallocOk s0 (os ++ [.alloc b e n]) → run s0 os = some s →
      AllMallocOk s0 os ∧ MallocOk s (.alloc b e n) := by
    intro os
    induction os with
    | nil =>
      intro s0 s hm hr
      simp only [run, Option.some.injEq] at hr
      subst hr
      exact ⟨trivial, hm.1⟩
    | cons o os ih =>
      intro s0 s hm hr
      simp only [run, Option.bind_eq_some_iff] at hr
      obtain ⟨s1, h1, h2⟩ := hr
      have := ih s1 s (hm.2 s1 h1) h2
      refine ⟨⟨hm.1, ?_⟩, this.2⟩
      intro s1' h1'
      rw [h1] at h1'
      simp only [Option.some.injEq] at h1'
      subst h1'
      exact this.1
  obtain ⟨h1, h2⟩ := key os _ s hm hr
  obtain ⟨s', bl, h3, hi, h4, h5⟩ := inv_run l0 os _ [] (inv_create links entry l0 h hl) h1
  rw [hr] at h3
  simp only [Option.some.injEq] at h3
  subst h3
  obtain ⟨s', h6, h7, _⟩ := inv_alloc l0 s bl hi b e n h2
  refine ⟨s', h6, ?_⟩
  intro p hp
  simp only [alloc, Option.map_eq_some_iff] at h6
  obtain ⟨i, -, h6⟩ := h6
  simp only [Prod.mk.injEq, and_true] at h6
  rw [← h6]
  simp [hp]

/-- **C42**, a free of an address that is not in the hands of the user, whether unknown or freed before, changes nothing; one of
an address that is, gives back this memory and no other memory of the user. -/
theorem C42_free (links : Links) (entry : Nat → Nat) (l0 : List Nat) (h : Nat) (hl : (h :: l0).Nodup) (os : List Op) (p : Nat)
    (s : Pool) (hm : AllMallocOk (create links entry l0 h) os) (hr : run (create links entry l0 h) os = some s) :
    (p ∉ os.foldl specStep [] → pbfree s p = some s) ∧
    (p ∈ os.foldl specStep [] → ∃ s', pbfree s p = some s' ∧ p ∉ s'.live ∧
      ∀ q, q ∈ os.foldl specStep [] ∨ q ∈ l0 ∨ q = h → q ≠ p → q ∈ s'.live) := by
  obtain ⟨s', bl, h3, hi, h4, h5⟩ := inv_run l0 os _ [] (inv_create links entry l0 h hl) hm
  rw [hr] at h3
  simp only [Option.some.injEq] at h3
  subst h3
  have h5 : s.h = h := h5
  have h4 : bl.map (·.2) = os.foldl specStep [] := h4
  rw [← h4]
  constructor
  · intro hp
    unfold pbfree
    by_cases h0 : s.size = 0 ∨ s.index.count = 0
    · rw [if_pos h0]
    · rw [if_neg h0]
      cases hfd : RB.find cmp p s.index.tree with
      | none => rfl
      | some dn =>
        exfalso
        obtain ⟨h6, h7, _⟩ := (find_spec s.index _ hi.index p).1 dn hfd
        obtain ⟨x, hx, hit⟩ := List.mem_map.1 h6
        simp only [itemOf, RB.Entry.item, RB.Item.mk.injEq] at hit
        exact hp (List.mem_map.2 ⟨x, hx, by rw [hit.1, h7]⟩)
  · intro hp
    obtain ⟨s', h6, h7, h8⟩ := inv_free l0 s bl hi p
    refine ⟨s', h6, ?_, ?_⟩
    · obtain ⟨⟨b, e⟩, hx, he⟩ := List.mem_map.1 hp
      simp only at he
      subst he
      have hn := inv_nodup l0 s bl hi
      obtain ⟨as, bs, rfl⟩ := List.append_of_mem hx
      have hfil : List.Sublist ((as ++ (b, e) :: bs).filter fun x => x.2 ≠ e) (as ++ bs) := by
        rw [List.filter_append, List.filter_cons]
        simp only [ne_eq, not_true_eq_false, decide_false, Bool.false_eq_true, if_false]
        exact List.Sublist.append (List.filter_sublist) (List.filter_sublist)
      intro hc
      have := (h7.live.mem_iff).1 hc
      rw [h8] at this
      have hmem : e ∈ s.h :: ((as ++ bs).flatMap (fun x => [x.1, x.2]) ++ l0) := by
        simp only [List.mem_cons, List.mem_append, List.mem_flatMap] at this ⊢
        rcases this with h | ⟨x, hx, he⟩ | h
        · exact Or.inl h
        · exact Or.inr (Or.inl ⟨x, List.mem_append.1 (hfil.subset hx), he⟩)
        · exact Or.inr (Or.inr h)
      have hperm : List.Perm (s.h :: ((as ++ (b, e) :: bs).flatMap (fun x => [x.1, x.2]) ++ l0))
          (e :: b :: s.h :: ((as ++ bs).flatMap (fun x => [x.1, x.2]) ++ l0)) := by
        rw [List.flatMap_append, List.flatMap_cons]
        simp only [List.append_assoc, List.cons_append, List.nil_append, List.flatMap_append]
        generalize as.flatMap (fun x => [x.1, x.2]) = m1
        generalize bs.flatMap (fun x => [x.1, x.2]) = m2
        refine List.Perm.trans (List.Perm.cons _ List.perm_middle) ?_
        refine List.Perm.trans (List.Perm.cons _ (List.Perm.cons _ List.perm_middle)) ?_
        refine List.Perm.trans (List.Perm.cons _ (List.Perm.swap _ _ _)) ?_
        refine List.Perm.trans (List.Perm.swap _ _ _) ?_
        exact List.Perm.cons _ (List.Perm.swap _ _ _)
      have hn' := (hperm.nodup_iff).1 hn
      simp only [List.nodup_cons] at hn'
      exact hn'.1 (List.mem_cons_of_mem _ hmem)
    · intro q hq hqp
      refine (h7.live.mem_iff).2 ?_
      rw [h8, h5]
      simp only [List.mem_cons, List.mem_append]
      rcases hq with h | h | h
      · refine Or.inr (Or.inl ((snd_sub _).subset ?_))
        obtain ⟨x, hx, rfl⟩ := List.mem_map.1 h
        exact List.mem_map.2 ⟨x, List.mem_filter.2 ⟨hx, by simpa using hqp⟩, rfl⟩
      · exact Or.inr (Or.inr h)
      · exact Or.inl h

/-- **C42**, deletion: after any history it ends, frees nothing that is not allocated (so nothing twice), and leaves exactly the
memory the others had before the pool was created; the count of blocks is down to 0. -/
theorem C42_delete (links : Links) (entry : Nat → Nat) (l0 : List Nat) (h : Nat) (hl : (h :: l0).Nodup) (os : List Op)
    (s : Pool) (hm : AllMallocOk (create links entry l0 h) os) (hr : run (create links entry l0 h) os = some s) (fuel : Nat)
    (hf : (os.foldl specStep []).length < fuel) :
    ∃ live, delete s fuel = some (live, 0) ∧ List.Perm live l0 := by
  obtain ⟨s', bl, h3, hi, h4, h5⟩ := inv_run l0 os _ [] (inv_create links entry l0 h hl) hm
  rw [hr] at h3
  simp only [Option.some.injEq] at h3
  subst h3
  have h4 : bl.map (·.2) = os.foldl specStep [] := h4
  rw [← h4] at hf
  simp only [List.length_map] at hf
  obtain ⟨live, h6, h7⟩ := deleteLoop_spec s.links s.entry s.h l0 bl s.h fuel s.live s.size hi.list hi.entry
    (List.nodup_cons.1 (list_nodup l0 s bl hi)).1 hf hi.live
  refine ⟨live.erase s.h, ?_, ?_⟩
  · rw [hi.size, Int.sub_self] at h6
    rw [delete, hi.size, h6, Option.bind_some, free_mem _ _ ((h7.mem_iff).2 (by simp))]
    rfl
  · have := h7.erase s.h
    rwa [List.erase_cons_head] at this

/-- **C42**, and the nodes of the index are freed once each, every one of them. -/
theorem C42_index_released {K D : Type} (t : RB.Tree K D) : List.Perm (releaseNodes t) (t.toList.map (·.addr)) := release_perm t

/-- A history with an unknown free, a double free and the address 101 used twice. -/
def demoOps : List Op := [.alloc 10 100 1, .alloc 11 101 2, .free 55, .free 101, .free 101, .alloc 12 101 3, .alloc 11 102 2]

def demoPool : Pool := create ⟨fun _ => 0, fun _ => 0⟩ (fun _ => 0) [7, 8] 1

def mallocOkB (s : Pool) : Op → Bool
  | .alloc b e n => !s.live.contains b && !s.live.contains e && b != e && s.index.tree.toList.all fun x => x.addr != n
  | .free _ => true

def allMallocOkB : Pool → List Op → Bool
  | _, [] => true
  | s, o :: os => mallocOkB s o && match step s o with | some s' => allMallocOkB s' os | none => true

theorem allMallocOkB_sound : ∀ (os : List Op) (s : Pool), allMallocOkB s os = true → AllMallocOk s os
  | [], _, _ => trivial
  | o :: os, s, h => by
    simp only [allMallocOkB, Bool.and_eq_true] at h
    refine ⟨?_, ?_⟩
    · cases o with
      | alloc b e n => simpa [mallocOkB, MallocOk, and_assoc] using h.1
      | free p => trivial
    · intro s' hs
      have := h.2
      rw [hs] at this
      exact allMallocOkB_sound os s' this

example : AllMallocOk demoPool demoOps ∧ demoOps.foldl specStep [] = [100, 101, 102] :=
  ⟨allMallocOkB_sound _ _ (by decide +kernel), by decide⟩

example : ((run demoPool demoOps).bind fun s => delete s 4) = some ([7, 8], 0) := by decide +kernel

end Fly.Pool
