import Verif.Points.Lemmas

/-! # Lemmas about mount points that go away -/

namespace Fly.Points

open Fly.Mount Fly.Scan

theorem nodup_length : ∀ (l r : List Bytes), l.Nodup → (∀ x ∈ l, x ∈ r) → l.length ≤ r.length := by
  intro l
  induction l with
  | nil => intro r _ _; simp
  | cons a l ih =>
    intro r hn hs
    rw [List.nodup_cons] at hn
    have ha := hs a (by simp)
    have := ih (r.erase a) hn.2 (fun x hx => by
      rw [List.mem_erase_of_ne]
      · exact hs x (by simp [hx])
      · intro h; subst h; exact hn.1 hx)
    rw [List.length_erase_of_mem ha] at this
    have := List.length_pos_of_mem ha
    simp only [List.length_cons]
    omega

/-- Taking out the files of mount point `m` one by one. -/
theorem dropFiles_spec (m : Nat) : ∀ (R : List PF) (w : World) (mm : List (RB.Item Name Nat)) (k : Nat), Good w mm →
    mountFiles w m = R → R.length < k →
    ∃ w' mm', dropFiles m k w (R.head?.map (·.addr)) = .ok w' ∧ Good w' mm' ∧
      w'.files = w.files.filter (fun f => f.mount != m) := by
  intro R
  induction R with
  | nil =>
    intro w mm k hg hm hk
    obtain ⟨k, rfl⟩ : ∃ j, k = j + 1 := ⟨k - 1, by omega⟩
    refine ⟨w, mm, rfl, hg, ?_⟩
    symm
    rw [List.filter_eq_self]
    intro f hf
    simp only [bne_iff_ne, ne_eq]
    intro h
    have : f ∈ mountFiles w m := by
      unfold mountFiles
      rw [List.mem_filter]
      exact ⟨hf, by simpa using h⟩
    rw [hm] at this
    cases this
  | cons f R ih =>
    intro w mm k hg hm hk
    obtain ⟨k, rfl⟩ : ∃ j, k = j + 1 := ⟨k - 1, by simp only [List.length_cons] at hk; omega⟩
    have hfm : f ∈ mountFiles w m := by rw [hm]; simp
    obtain ⟨hf, hmt⟩ := List.mem_filter.1 hfm
    have hmt : f.mount = m := by simpa using hmt
    obtain ⟨w1, m1, h1, h2, h3⟩ := remove_good w mm hg f hf
    have hm1 : mountFiles w1 m = R := by
      have := mountFiles_remove (A := []) (R := R) (d := f) hg (by rw [hmt]; exact hm) hf h2
      rw [hmt] at this
      exact this
    obtain ⟨w2, m2, g1, g2, g3⟩ := ih w1 m1 k h3 hm1 (by simp only [List.length_cons] at hk; omega)
    have hnext : nextOf (mountFiles w m) f.addr = R.head?.map (·.addr) := by
      have hnd : ((mountFiles w m).map (·.addr)).Nodup :=
        List.Nodup.sublist (List.Sublist.map _ List.filter_sublist) hg.sound.addrs
      rw [hm] at hnd ⊢
      exact nextOf_split [] f R hnd
    refine ⟨w2, m2, ?_, g2, ?_⟩
    · simp only [List.head?_cons, Option.map_some]
      unfold dropFiles
      rw [find_pf hg.sound.addrs hf]
      dsimp only
      rw [h1]
      dsimp only
      rw [hnext]
      exact g1
    · rw [g3, h2, List.filter_filter]
      apply List.filter_congr
      intro x hx
      by_cases hxm : x.mount = m
      · simp [hxm]
      · have : x.addr ≠ f.addr := by
          intro h
          have := pf_inj hg.sound.addrs hx hf h
          subst this
          exact hxm hmt
        simp [hxm, this]

/-- With different paths the first mount point with the path of `p` is `p`. -/
theorem find_self {pts : List Live} (hd : (pts.map (·.path)).Nodup) {p : Live} (hp : p ∈ pts) :
    pts.find? (fun q => decide (q.path = p.path)) = some p := by
  induction pts with
  | nil => cases hp
  | cons x pts ih =>
    simp only [List.map_cons, List.nodup_cons] at hd
    rw [List.find?_cons]
    rcases List.mem_cons.1 hp with h | h
    · subst h; simp
    · have : x.path ≠ p.path := fun hh => hd.1 (by rw [hh]; exact List.mem_map_of_mem h)
      simp only [this, decide_false]
      exact ih hd.2 h

/-- Unmounting never comes to its end. -/
theorem unmount_never {pts : List Live} (hd : (pts.map (·.path)).Nodup) {p : Live} (hp : p ∈ pts) (w : World) :
    unmount pts w p = .exit ∨ unmount pts w p = .wild := by
  unfold unmount
  rw [find_self hd hp]
  dsimp only
  split
  · exact Or.inl rfl
  · rw [if_pos rfl]; exact Or.inr rfl

theorem workUnmount_never {pts : List Live} (hd : (pts.map (·.path)).Nodup) {p : Live} (hp : p ∈ pts) (k : Nat) (w : World)
    (pts' : List Live) (w' : World) : workUnmount k pts w p ≠ .ok pts' w' := by
  unfold workUnmount
  cases hdr : dropFiles p.number k w ((mountFiles w p.number).head?.map (·.addr)) with
  | ok w1 =>
    dsimp only
    rcases unmount_never hd hp w1 with h | h <;> rw [h] <;> simp
  | fail => simp
  | hang => simp
  | wild => simp

/-- The worker does not come past a mount point that is gone. -/
theorem workerTold_never {gone : Live → Bool} {update : World → Live → Res World} {k : Nat} {pts : List Live}
    (hd : (pts.map (·.path)).Nodup) : ∀ (ps : List Live) (w : World), (∀ p ∈ ps, p ∈ pts) → (∃ p ∈ ps, gone p = true) →
    ∀ pts' w', workerTold gone update k ps pts w ≠ .ok pts' w' := by
  intro ps
  induction ps with
  | nil => rintro w _ ⟨p, hp, _⟩; cases hp
  | cons p ps ih =>
    intro w hsub hg pts' w'
    unfold workerTold
    split
    · simp
    · split
      · cases hw : workUnmount k pts w p with
        | ok a b => exact absurd hw (workUnmount_never hd (hsub p (by simp)) k w a b)
        | fail => simp
        | hang => simp
        | wild => simp
        | exit => simp
      · rename_i hng
        have hg' : ∃ q ∈ ps, gone q = true := by
          obtain ⟨q, hq, hqg⟩ := hg
          rcases List.mem_cons.1 hq with h | h
          · subst h; exact absurd hqg hng
          · exact ⟨q, h, hqg⟩
        cases update w p with
        | ok w1 => exact ih w1 (fun x hx => hsub x (by simp [hx])) hg' pts' w'
        | fail => simp
        | hang => simp
        | wild => simp

end Fly.Points
