import Verif.Pool.Spec
import Verif.Link.Lemmas
import Verif.RBTree.Lemmas
set_option linter.all false

namespace Fly.Pool
open Fly.Link (Links IsList)

theorem cmp_lawful : RB.LawfulCmp cmp := by
  refine ⟨?_, ?_, ?_⟩ <;> intro a b <;> unfold cmp
  · by_cases h1 : a > b <;> by_cases h2 : a < b <;> simp [h1, h2] <;> omega
  · by_cases h1 : a > b <;> by_cases h2 : a < b <;> simp [h1, h2] <;> omega
  · intro c
    by_cases h1 : a > b <;> by_cases h2 : a < b <;> simp [h1, h2] <;>
    by_cases h3 : b > c <;> by_cases h4 : b < c <;> simp [h3, h4] <;>
    by_cases h5 : a > c <;> by_cases h6 : a < c <;> simp [h5, h6] <;> omega

/-- The item of the index that belongs to a block. -/
def itemOf (x : Nat × Nat) : RB.Item Nat Nat := ⟨x.2, x.1, none⟩

structure Inv (l0 : List Nat) (s : Pool) (bl : List (Nat × Nat)) : Prop where
  list : IsList s.links (s.h, bl.map (·.1))
  entry : ∀ x ∈ bl, s.entry x.1 = x.2
  index : RB.Inv cmp s.index (bl.map itemOf)
  size : s.size = bl.length
  live : List.Perm s.live (s.h :: (bl.flatMap (fun x => [x.1, x.2]) ++ l0))
  nodup : s.live.Nodup

theorem inv_nodup (l0 : List Nat) (s : Pool) (bl : List (Nat × Nat)) (h : Inv l0 s bl) :
    (s.h :: (bl.flatMap (fun x => [x.1, x.2]) ++ l0)).Nodup := (h.live.nodup_iff).1 h.nodup

theorem fst_sub : ∀ bl : List (Nat × Nat), List.Sublist (bl.map (·.1)) (bl.flatMap fun x => [x.1, x.2])
  | [] => List.Sublist.slnil
  | x :: bl => by
    simp only [List.map_cons, List.flatMap_cons, List.cons_append, List.nil_append]
    exact List.Sublist.cons₂ _ (List.Sublist.cons _ (fst_sub bl))

theorem snd_sub : ∀ bl : List (Nat × Nat), List.Sublist (bl.map (·.2)) (bl.flatMap fun x => [x.1, x.2])
  | [] => List.Sublist.slnil
  | x :: bl => by
    simp only [List.map_cons, List.flatMap_cons, List.cons_append, List.nil_append]
    exact List.Sublist.cons _ (List.Sublist.cons₂ _ (snd_sub bl))

theorem list_nodup (l0 : List Nat) (s : Pool) (bl : List (Nat × Nat)) (h : Inv l0 s bl) : (s.h :: bl.map (·.1)).Nodup := by
  have := inv_nodup l0 s bl h
  refine List.Nodup.sublist ?_ this
  exact List.Sublist.cons₂ _ (List.Sublist.trans (fst_sub bl) (List.sublist_append_left _ _))

theorem snd_nodup (l0 : List Nat) (s : Pool) (bl : List (Nat × Nat)) (h : Inv l0 s bl) : (bl.map (·.2)).Nodup := by
  have := inv_nodup l0 s bl h
  refine List.Nodup.sublist ?_ this
  exact List.Sublist.cons _ (List.Sublist.trans (snd_sub bl) (List.sublist_append_left _ _))

theorem inv_create (links : Links) (entry : Nat → Nat) (l0 : List Nat) (h : Nat) (hl : (h :: l0).Nodup) :
    Inv l0 (create links entry l0 h) [] :=
  ⟨Fly.Link.init_list links h, by simp, RB.inv_init cmp, rfl, by simp [create], hl⟩

theorem inv_alloc (l0 : List Nat) (s : Pool) (bl : List (Nat × Nat)) (hi : Inv l0 s bl) (b e n : Nat) (hm : MallocOk s (.alloc b e n)) :
    ∃ s', alloc s b e n = some (s', e) ∧ Inv l0 s' (bl ++ [(b, e)]) ∧ s'.h = s.h := by
  obtain ⟨hb, he, hbe, hn⟩ := hm
  have hsub : ∀ x, x ∈ s.h :: (bl.flatMap (fun x => [x.1, x.2]) ++ l0) → x ∈ s.live := fun x hx => (hi.live.mem_iff).2 hx
  have hbl : ∀ x ∈ bl, x.1 ∈ s.live ∧ x.2 ∈ s.live := by
    intro x hx
    refine ⟨hsub _ ?_, hsub _ ?_⟩ <;>
    · simp only [List.mem_cons, List.mem_append, List.mem_flatMap]
      exact Or.inr (Or.inl ⟨x, hx, by simp⟩)
  have hbh : b ≠ s.h := fun e => hb (hsub _ (by simp [e]))
  have hkey : ¬ ∃ i ∈ bl.map itemOf, i.key = e := by
    rintro ⟨i, hi', hk⟩
    obtain ⟨x, hx, rfl⟩ := List.mem_map.1 hi'
    exact he (by rw [← hk]; exact (hbl x hx).2)
  obtain ⟨i, a, h1, h2⟩ := RB.insert_inv cmp cmp_lawful s.index _ hi.index n e b none hn (by simp)
  refine ⟨{ h := s.h, links := Link.addTail s.links s.h b, entry := fun x => if x = b then e else s.entry x, index := i, size := s.size + 1, live := e :: b :: s.live }, by simp only [alloc, h1]; rfl, ⟨?_, ?_, ?_, ?_, ?_, ?_⟩, rfl⟩
  · rw [List.map_append]
    refine Fly.Link.addTail_list s.links s.h b _ hi.list (list_nodup l0 s bl hi) ?_
    simp only [List.mem_cons, not_or]
    refine ⟨hbh, ?_⟩
    intro hx
    obtain ⟨x, hx', rfl⟩ := List.mem_map.1 hx
    exact hb (hbl x hx').1
  · intro x hx
    rcases List.mem_append.1 hx with hx | hx
    · have : x.1 ≠ b := fun e => hb (by rw [← e]; exact (hbl x hx).1)
      simp [this, hi.entry x hx]
    · simp at hx; subst hx; simp
  · simp only [RB.specStep] at h2
    rw [if_neg hkey] at h2
    simpa [itemOf] using h2
  · show s.size + 1 = _
    rw [hi.size]; simp
  · show List.Perm (e :: b :: s.live) _
    refine List.Perm.trans (List.Perm.cons _ (List.Perm.cons _ hi.live)) ?_
    rw [List.flatMap_append]
    simp only [List.flatMap_cons, List.flatMap_nil, List.append_nil, List.append_assoc, List.cons_append, List.nil_append]
    refine List.Perm.trans (List.Perm.swap _ _ _) ?_
    generalize bl.flatMap (fun x => [x.1, x.2]) = m
    refine List.Perm.trans ?_ (List.Perm.cons s.h List.perm_middle.symm)
    refine List.Perm.trans (List.Perm.trans (List.Perm.cons b (List.Perm.swap _ _ _)) (List.Perm.swap _ _ _)) ?_
    refine List.Perm.cons _ (List.Perm.cons _ ?_)
    exact List.perm_middle.symm
  · show (e :: b :: s.live).Nodup
    simp only [List.nodup_cons, List.mem_cons, not_or]
    exact ⟨⟨Ne.symm hbe, he⟩, hb, hi.nodup⟩

theorem find_spec (s : RB.State Nat Nat) (m : List (RB.Item Nat Nat)) (hi : RB.Inv cmp s m) (k : Nat) :
    (∀ e, RB.find cmp k s.tree = some e → e.item ∈ m ∧ e.key = k ∧ e ∈ s.tree.toList) ∧
    (RB.find cmp k s.tree = none → ∀ i ∈ m, i.key ≠ k) := by
  constructor
  · intro e he
    obtain ⟨h1, h2⟩ := RB.find_some cmp_lawful he
    exact ⟨(hi.abs.mem_iff).1 (List.mem_map_of_mem h1), h2, h1⟩
  · intro hf i hi' hk
    have h5 := (hi.abs.mem_iff).2 hi'
    rw [List.mem_map] at h5
    obtain ⟨x, hx, rfl⟩ := h5
    have hk' : x.key = k := hk
    rw [← hk', RB.find_mem cmp_lawful hi.sorted hx] at hf
    simp at hf

theorem free_mem (live : List Nat) (p : Nat) (h : p ∈ live) : free live p = some (live.erase p) := by simp [free, h]

theorem inv_free (l0 : List Nat) (s : Pool) (bl : List (Nat × Nat)) (hi : Inv l0 s bl) (p : Nat) :
    ∃ s', pbfree s p = some s' ∧ Inv l0 s' (bl.filter fun x => x.2 ≠ p) ∧ s'.h = s.h := by
  have hcount : s.index.count = bl.length := by
    have := hi.index.abs.length_eq
    rw [hi.index.count]; simpa using this
  have nothing : (∀ x ∈ bl, x.2 ≠ p) → (bl.filter fun x => x.2 ≠ p) = bl := by
    intro h
    rw [List.filter_eq_self]
    intro x hx; simpa using h x hx
  unfold pbfree
  by_cases h0 : s.size = 0 ∨ s.index.count = 0
  · rw [if_pos h0]
    have : bl = [] := by
      rw [hi.size, hcount] at h0
      apply List.eq_nil_of_length_eq_zero
      omega
    subst this
    exact ⟨s, rfl, by simpa using hi, rfl⟩
  · rw [if_neg h0]
    have hf := find_spec s.index _ hi.index p
    cases hfd : RB.find cmp p s.index.tree with
    | none =>
      refine ⟨s, rfl, ?_, rfl⟩
      rw [nothing]
      · exact hi
      · intro x hx
        exact hf.2 hfd (itemOf x) (List.mem_map.2 ⟨x, hx, rfl⟩)
    | some dn =>
      obtain ⟨h1, h2, h3⟩ := hf.1 dn hfd
      obtain ⟨⟨b, e⟩, hx, hit⟩ := List.mem_map.1 h1
      simp only [itemOf, RB.Entry.item, RB.Item.mk.injEq] at hit
      obtain ⟨hk, hd, hh⟩ := hit
      have hep : e = p := by rw [hk, h2]
      subst hep
      obtain ⟨idx, h4, h5⟩ := RB.step_inv cmp cmp_lawful s.index _ hi.index (.deleteKey e) trivial
      simp only [RB.step, hfd] at h4
      obtain ⟨as, bs, rfl⟩ := List.append_of_mem hx
      have hsn := snd_nodup l0 s _ hi
      rw [List.map_append, List.map_cons, List.nodup_append, List.nodup_cons] at hsn
      have hfil : ((as ++ (b, e) :: bs).filter fun x => x.2 ≠ e) = as ++ bs := by
        have e1 : as.filter (fun x => decide (x.2 ≠ e)) = as := by
          rw [List.filter_eq_self]
          intro x hx
          simp
          intro ee
          exact hsn.2.2 x.2 (List.mem_map_of_mem hx) e (by simp) ee
        have e2 : bs.filter (fun x => decide (x.2 ≠ e)) = bs := by
          rw [List.filter_eq_self]
          intro x hx
          simp
          intro ee
          exact hsn.2.1.1 (List.mem_map.2 ⟨x, hx, ee⟩)
        simp only [List.filter_append, List.filter_cons, e1, e2]
        simp
      have hent : s.entry b = e := hi.entry (b, e) hx
      have hperm : List.Perm s.live (e :: b :: s.h :: ((as ++ bs).flatMap (fun x => [x.1, x.2]) ++ l0)) := by
        refine List.Perm.trans hi.live ?_
        rw [List.flatMap_append, List.flatMap_cons]
        simp only [List.append_assoc, List.cons_append, List.nil_append, List.flatMap_append]
        generalize as.flatMap (fun x => [x.1, x.2]) = m1
        generalize bs.flatMap (fun x => [x.1, x.2]) = m2
        refine List.Perm.trans (List.Perm.cons _ List.perm_middle) ?_
        refine List.Perm.trans (List.Perm.cons _ (List.Perm.cons _ List.perm_middle)) ?_
        refine List.Perm.trans (List.Perm.cons _ (List.Perm.swap _ _ _)) ?_
        refine List.Perm.trans (List.Perm.swap _ _ _) ?_
        exact List.Perm.cons _ (List.Perm.swap _ _ _)
      have hbe : b ≠ e := by
        have := (hperm.nodup_iff).1 hi.nodup
        simp only [List.nodup_cons, List.mem_cons, not_or] at this
        exact Ne.symm this.1.1
      have hperm1 : List.Perm (s.live.erase e) (b :: s.h :: ((as ++ bs).flatMap (fun x => [x.1, x.2]) ++ l0)) := by
        have := hperm.erase e
        rwa [List.erase_cons_head] at this
      have hperm2 : List.Perm ((s.live.erase e).erase b) (s.h :: ((as ++ bs).flatMap (fun x => [x.1, x.2]) ++ l0)) := by
        have := hperm1.erase b
        rwa [List.erase_cons_head] at this
      have f1 : free s.live e = some (s.live.erase e) := free_mem _ _ ((hperm.mem_iff).2 (by simp))
      have f2 : free (s.live.erase e) b = some ((s.live.erase e).erase b) := free_mem _ _ ((hperm1.mem_iff).2 (by simp))
      simp only [← hd, hent, h4, f1, f2, Option.bind_some, Option.map_some]
      refine ⟨_, rfl, ?_, rfl⟩
      rw [hfil]
      refine ⟨?_, ?_, ?_, ?_, hperm2, (hi.nodup.erase _).erase _⟩
      · have := list_nodup l0 s _ hi
        rw [List.map_append, List.map_cons] at this
        have hl := hi.list
        rw [List.map_append, List.map_cons] at hl
        rw [List.map_append]
        exact Fly.Link.remove_list s.links s.h b _ _ hl this
      · intro x hx
        exact hi.entry x (by simp at hx ⊢; rcases hx with h | h <;> simp [h])
      · simp only [RB.specStep] at h5
        have : (as ++ bs).map itemOf = ((as ++ (b, e) :: bs).map itemOf).filter (fun i => decide (i.key ≠ e)) := by
          rw [List.filter_map]
          have hc : ((fun i : RB.Item Nat Nat => decide (i.key ≠ e)) ∘ itemOf) = fun x : Nat × Nat => decide (x.2 ≠ e) := rfl
          rw [hc, hfil]
        rw [this]
        exact h5
      · show s.size - 1 = _
        rw [hi.size]; simp; omega

/-- The blocks after an operation. -/
def blStep (bl : List (Nat × Nat)) : Op → List (Nat × Nat)
  | .alloc b e _ => bl ++ [(b, e)]
  | .free p => bl.filter fun x => x.2 ≠ p

theorem blStep_spec (bl : List (Nat × Nat)) (o : Op) : (blStep bl o).map (·.2) = specStep (bl.map (·.2)) o := by
  cases o with
  | alloc b e n => simp [blStep, specStep]
  | free p => simp [blStep, specStep, List.filter_map, Function.comp_def]

theorem inv_run (l0 : List Nat) : ∀ (os : List Op) (s : Pool) (bl : List (Nat × Nat)), Inv l0 s bl → AllMallocOk s os →
    ∃ s' bl', run s os = some s' ∧ Inv l0 s' bl' ∧ bl'.map (·.2) = os.foldl specStep (bl.map (·.2)) ∧ s'.h = s.h
  | [], s, bl, hi, _ => ⟨s, bl, rfl, hi, rfl, rfl⟩
  | o :: os, s, bl, hi, hm => by
    have hstep : ∃ s', step s o = some s' ∧ Inv l0 s' (blStep bl o) ∧ s'.h = s.h := by
      cases o with
      | alloc b e n =>
        obtain ⟨s', h1, h2, h3⟩ := inv_alloc l0 s bl hi b e n hm.1
        exact ⟨s', by simp [step, h1], h2, h3⟩
      | free p => exact inv_free l0 s bl hi p
    obtain ⟨s1, h1, h2, h3⟩ := hstep
    obtain ⟨s2, bl2, h4, h5, h6, h7⟩ := inv_run l0 os s1 _ h2 (hm.2 s1 h1)
    refine ⟨s2, bl2, by simp [run, h1, h4], h5, ?_, by rw [h7, h3]⟩
    rw [h6, blStep_spec]
    rfl

theorem deleteLoop_spec (links : Links) (entry : Nat → Nat) (h : Nat) (l0 : List Nat) : ∀ (bl : List (Nat × Nat)) (a fuel : Nat) (live : List Nat)
    (size : Int), Fly.Link.Chain links a (bl.map (·.1)) h → (∀ x ∈ bl, entry x.1 = x.2) → h ∉ bl.map (·.1) → bl.length < fuel →
    List.Perm live (h :: (bl.flatMap (fun x => [x.1, x.2]) ++ l0)) →
    ∃ live', deleteLoop links entry h fuel (links.next a) live size = some (live', size - bl.length) ∧ List.Perm live' (h :: l0)
  | [], a, fuel + 1, live, size, hc, he, hn, hf, hp => ⟨live, by simp [deleteLoop, hc.1], by simpa using hp⟩
  | (b, e) :: bl, a, fuel + 1, live, size, hc, he, hn, hf, hp => by
    simp only [List.map_cons, List.mem_cons, not_or] at hn
    have hent : entry b = e := he (b, e) (by simp)
    have hp0 : List.Perm live (e :: b :: h :: (bl.flatMap (fun x => [x.1, x.2]) ++ l0)) := by
      refine List.Perm.trans hp ?_
      simp only [List.flatMap_cons, List.cons_append, List.nil_append]
      refine List.Perm.trans (List.Perm.cons _ (List.Perm.swap _ _ _)) ?_
      refine List.Perm.trans (List.Perm.swap _ _ _) ?_
      exact List.Perm.cons _ (List.Perm.swap _ _ _)
    have hp1 : List.Perm (live.erase e) (b :: h :: (bl.flatMap (fun x => [x.1, x.2]) ++ l0)) := by
      have := hp0.erase e
      rwa [List.erase_cons_head] at this
    have hp2 : List.Perm ((live.erase e).erase b) (h :: (bl.flatMap (fun x => [x.1, x.2]) ++ l0)) := by
      have := hp1.erase b
      rwa [List.erase_cons_head] at this
    have f1 : free live e = some (live.erase e) := free_mem _ _ ((hp0.mem_iff).2 (by simp))
    have f2 : free (live.erase e) b = some ((live.erase e).erase b) := free_mem _ _ ((hp1.mem_iff).2 (by simp))
    obtain ⟨c1, c2, c3⟩ := hc
    obtain ⟨live', h1, h2⟩ := deleteLoop_spec links entry h l0 bl b fuel _ (size - 1) c3 (fun x hx => he x (by simp [hx])) hn.2
      (by simp at hf; omega) hp2
    refine ⟨live', ?_, h2⟩
    have c1' : links.next a = b := c1
    rw [c1', deleteLoop, if_neg (Ne.symm hn.1)]
    simp only [hent, f1, f2, Option.bind_some, h1]
    simp
    omega

theorem release_perm {K D : Type} : ∀ t : RB.Tree K D, List.Perm (releaseNodes t) (t.toList.map (·.addr))
  | .nil => List.Perm.refl _
  | .node _ l e r => by
    simp only [releaseNodes, RB.Tree.toList, List.map_append, List.map_cons]
    refine List.Perm.trans (List.Perm.append_right _ (List.Perm.append (release_perm l) (release_perm r))) ?_
    rw [List.append_assoc]
    refine List.Perm.append_left _ ?_
    exact List.perm_append_singleton _ _

end Fly.Pool
