import Verif.Link.Spec
set_option linter.all false

namespace Fly.Link

/-- From `a` by way of `xs` to `b`. -/
def Chain (L : Links) : Nat → List Nat → Nat → Prop
  | a, [], b => L.next a = b ∧ L.prev b = a
  | a, x :: xs, b => L.next a = x ∧ L.prev x = a ∧ Chain L x xs b

def IsList (L : Links) (l : Nat × List Nat) : Prop := Chain L l.1 l.2 l.1

theorem chain_append (L : Links) : ∀ (xs : List Nat) (a y : Nat) (ys : List Nat) (b : Nat),
    Chain L a (xs ++ y :: ys) b ↔ Chain L a xs y ∧ Chain L y ys b
  | [], a, y, ys, b => by simp [Chain, and_assoc]
  | x :: xs, a, y, ys, b => by simp [Chain, chain_append L xs x y ys b, and_assoc]

theorem chain_congr (L L' : Links) : ∀ (xs : List Nat) (a b : Nat), (∀ x ∈ a :: xs, L'.next x = L.next x) →
    (∀ x ∈ xs ++ [b], L'.prev x = L.prev x) → Chain L a xs b → Chain L' a xs b
  | [], a, b, h1, h2, h => by
    simp only [Chain] at h ⊢
    rw [h1 a (by simp), h2 b (by simp)]
    exact h
  | x :: xs, a, b, h1, h2, h => by
    simp only [Chain] at h ⊢
    rw [h1 a (by simp), h2 x (by simp)]
    exact ⟨h.1, h.2.1, chain_congr L L' xs x b (fun y hy => h1 y (List.mem_cons_of_mem _ hy)) (fun y hy => h2 y (List.mem_cons_of_mem _ hy)) h.2.2⟩

theorem prev_last (L : Links) : ∀ (xs : List Nat) (a b : Nat), Chain L a xs b → L.prev b = (a :: xs).getLast (by simp)
  | [], a, b, h => h.2
  | x :: xs, a, b, h => by rw [prev_last L xs x b h.2.2]; simp

theorem next_first (L : Links) (xs : List Nat) (a b : Nat) (h : Chain L a xs b) : L.next a = (xs ++ [b]).head (by simp) := by
  cases xs with
  | nil => exact h.1
  | cons x xs => exact h.1

theorem prev_mem (L : Links) (xs : List Nat) (a b : Nat) (h : Chain L a xs b) : L.prev b ∈ a :: xs := by
  rw [prev_last L xs a b h]; exact List.getLast_mem _

theorem next_mem (L : Links) (xs : List Nat) (a b : Nat) (h : Chain L a xs b) : L.next a ∈ xs ++ [b] := by
  rw [next_first L xs a b h]; exact List.head_mem _

theorem isList_congr (L L' : Links) (l : Nat × List Nat) (h1 : ∀ x ∈ l.1 :: l.2, L'.next x = L.next x ∧ L'.prev x = L.prev x)
    (h : IsList L l) : IsList L' l := by
  refine chain_congr L L' l.2 l.1 l.1 (fun x hx => (h1 x hx).1) (fun x hx => (h1 x ?_).2) h
  simp at hx ⊢
  rcases hx with h | h <;> simp [h]

theorem init_list (L : Links) (h : Nat) : IsList (init L h) (h, []) := by
  simp [IsList, Chain, init, Links.setNext, Links.setPrev]

theorem init_frame (L : Links) (h x : Nat) (hx : x ≠ h) : (init L h).next x = L.next x ∧ (init L h).prev x = L.prev x := by
  simp [init, Links.setNext, Links.setPrev, hx]

theorem addTail_frame (L : Links) (h n x : Nat) (xs : List Nat) (hl : IsList L (h, xs)) (hx : x ∉ h :: xs) (hn : x ≠ n) (hnh : n ≠ h) :
    (addTail L h n).next x = L.next x ∧ (addTail L h n).prev x = L.prev x := by
  have h1 : x ≠ L.prev h := by
    intro e
    have := prev_mem L xs h h hl
    rw [← e] at this
    exact hx this
  have h2 : x ≠ h := by intro e; exact hx (by simp [e])
  simp [addTail, Links.setNext, Links.setPrev, h1, h2, hn, Ne.symm hnh]

theorem addTail_list (L : Links) (h n : Nat) (xs : List Nat) (hl : IsList L (h, xs)) (hd : (h :: xs).Nodup) (hn : n ∉ h :: xs) :
    IsList (addTail L h n) (h, xs ++ [n]) := by
  simp only [List.mem_cons, not_or] at hn
  rcases List.eq_nil_or_concat xs with rfl | ⟨ys, z, rfl⟩
  · simp only [IsList, Chain] at hl ⊢
    simp [Chain, addTail, Links.setNext, Links.setPrev, hl, Ne.symm hn.1, hn.1]
  · simp only [List.concat_eq_append] at *
    simp only [IsList] at hl ⊢
    rw [List.append_assoc, List.singleton_append, chain_append]
    rw [chain_append] at hl
    obtain ⟨h1, h2, h3⟩ := hl
    simp only [List.nodup_cons, List.nodup_append, List.mem_append, List.mem_cons, not_or] at hd hn
    have hzh : z ≠ h := by intro e; exact hd.1.2.1 (by simp [e])
    have hnz : n ≠ z := by intro e; exact hn.2.2.1 (by simp [e])
    constructor
    · refine chain_congr L _ ys h z ?_ ?_ h1
      · intro x hx
        have e1 : x ≠ n := by intro e; subst e; rcases List.mem_cons.1 hx with e | e; exact hn.1 e; exact hn.2.1 e
        have e2 : x ≠ z := by
          intro e; subst e; rcases List.mem_cons.1 hx with e | e
          · exact hzh e
          · exact hd.2.2.2 x e x (by simp) rfl
        simp [addTail, Links.setNext, Links.setPrev, e1, e2, Ne.symm hn.1, h3]
      · intro x hx
        have e1 : x ≠ n := by
          intro e; subst e; rcases List.mem_append.1 hx with e | e
          · exact hn.2.1 e
          · simp at e; exact hnz e
        have e2 : x ≠ h := by
          intro e; subst e; rcases List.mem_append.1 hx with e | e
          · exact hd.1.1 e
          · simp at e; exact hzh e.symm
        simp [addTail, Links.setNext, Links.setPrev, e1, e2]
    · simp [Chain, addTail, Links.setNext, Links.setPrev, hn.1, Ne.symm hn.1, h3, hnz, Ne.symm hnz]

theorem addHead_frame (L : Links) (h n x : Nat) (xs : List Nat) (hl : IsList L (h, xs)) (hx : x ∉ h :: xs) (hn : x ≠ n) (hnh : n ≠ h) :
    (addHead L h n).next x = L.next x ∧ (addHead L h n).prev x = L.prev x := by
  have h1 : x ≠ L.next h := by
    intro e
    have := next_mem L xs h h hl
    rw [← e] at this
    apply hx
    simp at this ⊢
    rcases this with e | e <;> simp [e]
  have h2 : x ≠ h := by intro e; exact hx (by simp [e])
  simp [addHead, Links.setNext, Links.setPrev, h1, h2, hn, Ne.symm hnh]

theorem addHead_list (L : Links) (h n : Nat) (xs : List Nat) (hl : IsList L (h, xs)) (hd : (h :: xs).Nodup) (hn : n ∉ h :: xs) :
    IsList (addHead L h n) (h, n :: xs) := by
  simp only [List.mem_cons, not_or] at hn
  cases xs with
  | nil =>
    simp only [IsList, Chain] at hl ⊢
    simp [addHead, Links.setNext, Links.setPrev, hl, Ne.symm hn.1, hn.1]
  | cons z ys =>
    simp only [IsList, Chain] at hl ⊢
    obtain ⟨h2, h3, h1⟩ := hl
    simp only [List.nodup_cons, List.mem_cons, not_or] at hd hn
    have hzh : z ≠ h := fun e => hd.1.1 e.symm
    refine ⟨?_, ?_, ?_, ?_, chain_congr L _ ys z h ?_ ?_ h1⟩
    · simp [addHead, Links.setNext, Links.setPrev]
    · simp [addHead, Links.setNext, Links.setPrev, h2, hn.2.1]
    · simp [addHead, Links.setNext, Links.setPrev, h2, hn.1]
    · simp [addHead, Links.setNext, Links.setPrev, h2, Ne.symm hn.1]
    · intro x hx
      have e1 : x ≠ n := by
        intro e; subst e; rcases List.mem_cons.1 hx with e | e
        · exact hn.2.1 e
        · exact hn.2.2 e
      have e2 : x ≠ h := by
        intro e; subst e; rcases List.mem_cons.1 hx with e | e
        · exact hzh e.symm
        · exact hd.1.2 e
      simp [addHead, Links.setNext, Links.setPrev, e1, e2]
    · intro x hx
      have e1 : x ≠ n := by
        intro e; subst e; rcases List.mem_append.1 hx with e | e
        · exact hn.2.2 e
        · simp at e; exact hn.1 e
      have e2 : x ≠ z := by
        intro e; subst e; rcases List.mem_append.1 hx with e | e
        · exact hd.2.1 e
        · simp at e; exact hzh e
      simp [addHead, Links.setNext, Links.setPrev, e1, e2, Ne.symm hn.1, h2]

theorem join (L : Links) (n : Nat) (bs : List Nat) (b : Nat) (L' : Links) (h2 : Chain L n bs b)
    (hn : ∀ x, L'.next x = if x = L.prev n then L.next n else L.next x)
    (hp : ∀ x, L'.prev x = if x = L.next n then L.prev n else L.prev x) : ∀ (as : List Nat) (a : Nat), Chain L a as n →
    (as ++ bs).Nodup → a ∉ as ++ bs → b ∉ as ++ bs → Chain L' a (as ++ bs) b
  | [], a, h1, hd, ha, hb => by
    obtain ⟨e1, e2⟩ := h1
    cases bs with
    | nil =>
      obtain ⟨e3, e4⟩ := h2
      simp [Chain, hn, hp, e2, e3]
    | cons c cs =>
      obtain ⟨e3, e4, h3⟩ := h2
      simp only [List.nil_append, List.nodup_cons, List.mem_cons, not_or] at hd ha hb ⊢
      refine ⟨by simp [hn, e2, e3], by simp [hp, e3, e2], chain_congr L L' cs c b ?_ ?_ h3⟩
      · intro x hx
        rw [hn, if_neg]
        rw [e2]; intro e; subst e
        rcases List.mem_cons.1 hx with e | e
        · exact ha.1 e
        · exact ha.2 e
      · intro x hx
        rw [hp, if_neg]
        rw [e3]; intro e; subst e
        rcases List.mem_append.1 hx with e | e
        · exact hd.1 e
        · simp at e; exact hb.1 e.symm
  | x :: as, a, h1, hd, ha, hb => by
    obtain ⟨e1, e2, h3⟩ := h1
    simp only [List.cons_append, List.nodup_cons, List.mem_cons, not_or] at hd ha hb ⊢
    refine ⟨?_, ?_, join L n bs b L' h2 hn hp as x h3 hd.2 hd.1 hb.2⟩
    · rw [hn, if_neg, e1]
      have := prev_mem L as x n h3
      intro e
      rw [← e] at this
      rcases List.mem_cons.1 this with e | e
      · exact ha.1 e
      · exact ha.2 (by simp [e])
    · rw [hp, if_neg, e2]
      have := next_mem L bs n b h2
      intro e
      rw [← e] at this
      rcases List.mem_append.1 this with e | e
      · exact hd.1 (by simp [e])
      · simp at e; exact hb.1 e.symm

theorem remove_next (L : Links) (n x : Nat) : (remove L n).next x = if x = L.prev n then L.next n else L.next x := rfl

theorem remove_prev (L : Links) (n x : Nat) (h : L.prev n ≠ n) : (remove L n).prev x = if x = L.next n then L.prev n else L.prev x := by
  simp [remove, Links.setNext, Links.setPrev, Ne.symm h]

theorem remove_list (L : Links) (h n : Nat) (as bs : List Nat) (hl : IsList L (h, as ++ n :: bs)) (hd : (h :: (as ++ n :: bs)).Nodup) :
    IsList (remove L n) (h, as ++ bs) := by
  simp only [IsList] at hl ⊢
  rw [chain_append] at hl
  have hd1 := hd
  simp only [List.nodup_cons, List.nodup_append, List.mem_append, List.mem_cons, not_or] at hd
  have hpn : L.prev n ≠ n := by
    have := prev_mem L as h n hl.1
    intro e
    rw [e] at this
    rcases List.mem_cons.1 this with e | e
    · exact hd.1.2.1 e.symm
    · exact hd.2.2.2 n e n (by simp) rfl
  refine join L n bs h (remove L n) hl.2 (remove_next L n) (fun x => remove_prev L n x hpn) as h hl.1 ?_ ?_ ?_
  · rw [List.nodup_append]
    exact ⟨hd.2.1, hd.2.2.1.2, fun x hx y hy => hd.2.2.2 x hx y (by simp [hy])⟩
  all_goals
    intro e
    rcases List.mem_append.1 e with e | e
    · exact hd.1.1 e
    · exact hd.1.2.2 e

theorem remove_frame (L : Links) (h n x : Nat) (as bs : List Nat) (hl : IsList L (h, as ++ n :: bs)) (hd : (h :: (as ++ n :: bs)).Nodup)
    (hx : x ∉ h :: (as ++ n :: bs)) : (remove L n).next x = L.next x ∧ (remove L n).prev x = L.prev x := by
  simp only [IsList] at hl
  rw [chain_append] at hl
  simp only [List.nodup_cons, List.nodup_append, List.mem_append, List.mem_cons, not_or] at hd hx
  have hpn := prev_mem L as h n hl.1
  have hnn := next_mem L bs n h hl.2
  have hpn2 : L.prev n ≠ n := by
    intro e
    rw [e] at hpn
    rcases List.mem_cons.1 hpn with e | e
    · exact hd.1.2.1 e.symm
    · exact hd.2.2.2 n e n (by simp) rfl
  rw [remove_next, remove_prev L n x hpn2, if_neg, if_neg]
  · exact ⟨rfl, rfl⟩
  · intro e; rw [← e] at hnn
    rcases List.mem_append.1 hnn with e | e
    · exact hx.2.2.2 e
    · simp at e; exact hx.1 e
  · intro e; rw [← e] at hpn
    rcases List.mem_cons.1 hpn with e | e
    · exact hx.1 e
    · exact hx.2.1 e

/-! ## several lists -/

def Inv (L : Links) (w : Lists) : Prop := w.nodes.Nodup ∧ ∀ l ∈ w, IsList L l

theorem nodes_split (w1 w2 : Lists) (l : Nat × List Nat) : Lists.nodes (w1 ++ l :: w2) = Lists.nodes w1 ++ (l.1 :: l.2) ++ Lists.nodes w2 := by
  simp [Lists.nodes]

theorem upd_absent (w : Lists) (h : Nat) (f : List Nat → List Nat) (hn : h ∉ w.nodes) : w.upd h f = w := by
  unfold Lists.upd
  conv => rhs; rw [← List.map_id w]
  apply List.map_congr_left
  intro l hl
  rw [if_neg]
  · rfl
  · intro e
    apply hn
    simp only [Lists.nodes, List.mem_flatMap]
    exact ⟨l, hl, by simp [e]⟩

theorem split_head (w : Lists) (hd : w.nodes.Nodup) (h : Nat) (hh : h ∈ w.map (·.1)) :
    ∃ w1 xs w2, w = w1 ++ (h, xs) :: w2 ∧ ∀ f, w.upd h f = w1 ++ (h, f xs) :: w2 := by
  obtain ⟨⟨h', xs⟩, hl, e⟩ := List.mem_map.1 hh
  simp only at e
  subst e
  obtain ⟨w1, w2, rfl⟩ := List.append_of_mem hl
  refine ⟨w1, xs, w2, rfl, fun f => ?_⟩
  rw [nodes_split] at hd
  have e1 : h' ∉ Lists.nodes w1 := by
    simp only [List.nodup_append] at hd
    intro e
    exact hd.1.2.2 h' e h' (by simp) rfl
  have e2 : h' ∉ Lists.nodes w2 := by
    simp only [List.nodup_append] at hd
    intro e
    exact hd.2.2 h' (by simp) h' e rfl
  have := upd_absent w1 h' f e1
  have := upd_absent w2 h' f e2
  unfold Lists.upd at *
  rw [List.map_append, List.map_cons]
  simp [*]

theorem filter_absent (w : Lists) (n : Nat) (hn : n ∉ w.nodes) : (w.map fun l => (l.1, l.2.filter fun x => x ≠ n)) = w := by
  conv => rhs; rw [← List.map_id w]
  apply List.map_congr_left
  intro l hl
  have : l.2.filter (fun x => decide (x ≠ n)) = l.2 := by
    rw [List.filter_eq_self]
    intro x hx
    simp
    intro e
    apply hn
    simp only [Lists.nodes, List.mem_flatMap]
    exact ⟨l, hl, by simp [← e, hx]⟩
  rw [this]
  rfl

theorem split_elem (w : Lists) (hd : w.nodes.Nodup) (n : Nat) (hn : ∃ l ∈ w, n ∈ l.2) :
    ∃ w1 h as bs w2, w = w1 ++ (h, as ++ n :: bs) :: w2 ∧ (w.map fun l => (l.1, l.2.filter fun x => x ≠ n)) = w1 ++ (h, as ++ bs) :: w2 := by
  obtain ⟨⟨h, xs⟩, hl, hx⟩ := hn
  obtain ⟨as, bs, e⟩ := List.append_of_mem hx
  simp only at e
  subst e
  obtain ⟨w1, w2, rfl⟩ := List.append_of_mem hl
  refine ⟨w1, h, as, bs, w2, rfl, ?_⟩
  rw [nodes_split] at hd
  simp only [List.nodup_append, List.nodup_cons] at hd
  have e1 : n ∉ Lists.nodes w1 := by
    intro e
    exact hd.1.2.2 n e n (by simp) rfl
  have e2 : n ∉ Lists.nodes w2 := by
    intro e
    exact hd.2.2 n (by simp) n e rfl
  have e3 : as.filter (fun x => decide (x ≠ n)) = as := by
    rw [List.filter_eq_self]
    intro x hx
    simp
    intro e
    exact hd.1.2.1.2.2.2 x hx n (by simp) e
  have e4 : bs.filter (fun x => decide (x ≠ n)) = bs := by
    rw [List.filter_eq_self]
    intro x hy
    simp
    intro e
    subst e
    exact hd.1.2.1.2.2.1.1 hy
  rw [List.map_append, List.map_cons, filter_absent w1 n e1, filter_absent w2 n e2]
  simp only [List.filter_append, e3, List.filter_cons, e4]
  simp

/-- What changing one list means for the others. -/
theorem inv_change (L L' : Links) (w1 w2 : Lists) (h : Nat) (xs ys : List Nat) (hi : Inv L (w1 ++ (h, xs) :: w2))
    (hd : (Lists.nodes (w1 ++ (h, ys) :: w2)).Nodup) (hl : IsList L' (h, ys))
    (hf : ∀ x, x ∉ h :: xs → x ∉ h :: ys → L'.next x = L.next x ∧ L'.prev x = L.prev x) : Inv L' (w1 ++ (h, ys) :: w2) := by
  refine ⟨hd, ?_⟩
  have hd0 := hi.1
  rw [nodes_split] at hd hd0
  simp only [List.nodup_append] at hd hd0
  have side : ∀ l, l ∈ w1 ∨ l ∈ w2 → IsList L' l := by
    intro l hl'
    refine isList_congr L L' l ?_ (hi.2 l (by rcases hl' with h | h <;> simp [h]))
    intro x hx
    rcases hl' with hw | hw
    · have hm : x ∈ Lists.nodes w1 := by simp only [Lists.nodes, List.mem_flatMap]; exact ⟨l, hw, hx⟩
      exact hf x (fun e => hd0.1.2.2 x hm x e rfl) (fun e => hd.1.2.2 x hm x e rfl)
    · have hm : x ∈ Lists.nodes w2 := by simp only [Lists.nodes, List.mem_flatMap]; exact ⟨l, hw, hx⟩
      exact hf x (fun e => hd0.2.2 x (List.mem_append_right _ e) x hm rfl) (fun e => hd.2.2 x (List.mem_append_right _ e) x hm rfl)
  intro l hl'
  rcases List.mem_append.1 hl' with h1 | h1
  · exact side l (Or.inl h1)
  · rcases List.mem_cons.1 h1 with rfl | h1
    · exact hl
    · exact side l (Or.inr h1)

theorem nodup_add (w1 w2 : Lists) (h n : Nat) (xs ys : List Nat) (hp : List.Perm ys (n :: xs)) (hd : (Lists.nodes (w1 ++ (h, xs) :: w2)).Nodup)
    (hn : n ∉ Lists.nodes (w1 ++ (h, xs) :: w2)) : (Lists.nodes (w1 ++ (h, ys) :: w2)).Nodup := by
  have : List.Perm (Lists.nodes (w1 ++ (h, ys) :: w2)) (n :: Lists.nodes (w1 ++ (h, xs) :: w2)) := by
    rw [nodes_split, nodes_split]
    simp only [List.append_assoc, List.cons_append]
    refine List.Perm.trans ?_ List.perm_middle
    refine List.Perm.append_left _ ?_
    refine List.Perm.trans (List.Perm.cons _ (List.Perm.append_right _ hp)) ?_
    exact List.Perm.swap _ _ _
  rw [this.nodup_iff]
  exact List.nodup_cons.2 ⟨hn, hd⟩

theorem nodup_del (w1 w2 : Lists) (h n : Nat) (as bs : List Nat) (hd : (Lists.nodes (w1 ++ (h, as ++ n :: bs) :: w2)).Nodup) :
    (Lists.nodes (w1 ++ (h, as ++ bs) :: w2)).Nodup := by
  have : List.Perm (Lists.nodes (w1 ++ (h, as ++ n :: bs) :: w2)) (n :: Lists.nodes (w1 ++ (h, as ++ bs) :: w2)) := by
    rw [nodes_split, nodes_split]
    simp only [List.append_assoc, List.cons_append]
    refine List.Perm.trans ?_ List.perm_middle
    refine List.Perm.append_left _ ?_
    refine List.Perm.trans (List.Perm.cons _ List.perm_middle) ?_
    exact List.Perm.swap _ _ _
  rw [this.nodup_iff] at hd
  exact (List.nodup_cons.1 hd).2

theorem inv_list_nodup (L : Links) (w1 w2 : Lists) (h : Nat) (xs : List Nat) (hi : Inv L (w1 ++ (h, xs) :: w2)) :
    IsList L (h, xs) ∧ (h :: xs).Nodup := by
  refine ⟨hi.2 _ (by simp), ?_⟩
  have := hi.1
  rw [nodes_split] at this
  simp only [List.nodup_append] at this
  exact this.1.2.1

theorem inv_create (L : Links) (w : Lists) (h : Nat) (hi : Inv L w) (hn : h ∉ w.nodes) : Inv (init L h) (w ++ [(h, [])]) := by
  refine ⟨?_, ?_⟩
  · rw [nodes_split]
    simp only [Lists.nodes, List.flatMap_nil, List.append_nil]
    rw [List.nodup_append]
    refine ⟨hi.1, by simp, ?_⟩
    intro a ha b hb e
    simp at hb
    subst hb; subst e
    exact hn ha
  · intro l hl
    rcases List.mem_append.1 hl with hw | hl
    · refine isList_congr L _ l ?_ (hi.2 l hw)
      intro x hx
      refine init_frame L h x ?_
      intro e; subst e
      apply hn
      simp only [Lists.nodes, List.mem_flatMap]
      exact ⟨l, hw, hx⟩
    · simp at hl; subst hl
      exact init_list L h

theorem not_mem_split (w1 w2 : Lists) (h n : Nat) (xs : List Nat) (hn : n ∉ Lists.nodes (w1 ++ (h, xs) :: w2)) : n ∉ h :: xs := by
  intro e
  apply hn
  rw [nodes_split]
  simp only [List.mem_append]
  exact Or.inl (Or.inr e)

theorem inv_step (L : Links) (w : Lists) (o : Op) (hi : Inv L w) (hl : Legal w o) : Inv (step L o) (specStep w o) := by
  cases o with
  | create h => exact inv_create L w h hi hl
  | addTail h n =>
    obtain ⟨w1, xs, w2, rfl, e⟩ := split_head w hi.1 h hl.1
    simp only [specStep, e, step]
    obtain ⟨h1, h2⟩ := inv_list_nodup L w1 w2 h xs hi
    have h3 := not_mem_split w1 w2 h n xs hl.2
    refine inv_change L _ w1 w2 h xs (xs ++ [n]) hi (nodup_add w1 w2 h n xs _ (by exact List.perm_append_singleton n xs) hi.1 hl.2)
      (addTail_list L h n xs h1 h2 h3) ?_
    intro x hx hx2
    exact addTail_frame L h n x xs h1 hx (fun e => hx2 (by simp [e])) (fun e => h3 (by simp [e]))
  | addHead h n =>
    obtain ⟨w1, xs, w2, rfl, e⟩ := split_head w hi.1 h hl.1
    simp only [specStep, e, step]
    obtain ⟨h1, h2⟩ := inv_list_nodup L w1 w2 h xs hi
    have h3 := not_mem_split w1 w2 h n xs hl.2
    refine inv_change L _ w1 w2 h xs (n :: xs) hi (nodup_add w1 w2 h n xs _ (List.Perm.refl _) hi.1 hl.2)
      (addHead_list L h n xs h1 h2 h3) ?_
    intro x hx hx2
    exact addHead_frame L h n x xs h1 hx (fun e => hx2 (by simp [e])) (fun e => h3 (by simp [e]))
  | remove n =>
    obtain ⟨w1, h, as, bs, w2, rfl, e⟩ := split_elem w hi.1 n hl
    simp only [specStep, step]
    rw [e]
    obtain ⟨h1, h2⟩ := inv_list_nodup L w1 w2 h _ hi
    refine inv_change L _ w1 w2 h _ (as ++ bs) hi (nodup_del w1 w2 h n as bs hi.1) (remove_list L h n as bs h1 h2) ?_
    intro x hx _
    exact remove_frame L h n x as bs h1 h2 hx

theorem inv_run : ∀ (os : List Op) (L : Links) (w : Lists), Inv L w → AllLegal w os → Inv (os.foldl step L) (os.foldl specStep w)
  | [], _, _, hi, _ => hi
  | o :: os, L, w, hi, hl => inv_run os _ _ (inv_step L w o hi hl.1) hl.2

/-! ## what a user sees -/

theorem walk_chain (L : Links) (h : Nat) : ∀ (xs : List Nat) (a fuel : Nat), Chain L a xs h → h ∉ xs → xs.length < fuel →
    walk L h fuel (L.next a) = some xs
  | [], a, fuel + 1, hc, _, _ => by simp [walk, hc.1]
  | x :: xs, a, fuel + 1, hc, hn, hf => by
    simp only [List.mem_cons, not_or] at hn
    rw [hc.1, walk, if_neg (Ne.symm hn.1), walk_chain L h xs x fuel hc.2.2 hn.2 (by simp at hf; omega)]
    rfl

theorem back_chain (L : Links) : ∀ (k : Nat) (xs : List Nat) (a b : Nat), xs.length = k → Chain L a xs b →
    back L (k + 1) b = (a :: xs).reverse
  | 0, xs, a, b, hk, h => by
    have : xs = [] := List.eq_nil_of_length_eq_zero hk
    subst this
    simp [back, h.2]
  | k + 1, xs, a, b, hk, h => by
    rcases List.eq_nil_or_concat xs with rfl | ⟨ys, x, rfl⟩
    · simp at hk
    · simp only [List.concat_eq_append] at *
      rw [chain_append] at h
      rw [back, h.2.2, back_chain L k ys a x (by simp at hk; omega) h.1]
      simp

/-! ## queues -/

theorem qPush_links (Q : Queues) (h n : Nat) : (qPush Q h n).links = addTail Q.links h n := rfl

theorem qPop_links (Q : Queues) (h : Nat) : (qPop Q h).1.links = remove Q.links (Q.links.prev h) := rfl

theorem qRemove_links (Q : Queues) (x : Nat) : (qRemove Q x).links = remove Q.links x := by
  simp only [qRemove, Queues.setCount, remove, Links.setNext, Links.setPrev]
  by_cases h : x = Q.links.next x
  · by_cases h2 : x = Q.links.prev x
    · simp [← h, ← h2]
    · simp [← h, h2]
  · by_cases h2 : x = Q.links.prev x
    · simp [← h2, h]
    · simp [h, h2]

def QInv (Q : Queues) (w : Lists) : Prop :=
  Inv Q.links w ∧ ∀ l ∈ w, Q.count l.1 = l.2.length ∧ ∀ x ∈ l.2, Q.head x = l.1

theorem head_ne (w1 w2 : Lists) (h : Nat) (xs : List Nat) (hd : (Lists.nodes (w1 ++ (h, xs) :: w2)).Nodup) (l : Nat × List Nat)
    (hl : l ∈ w1 ∨ l ∈ w2) : l.1 ≠ h := by
  rw [nodes_split] at hd
  simp only [List.nodup_append] at hd
  intro e
  rcases hl with hw | hw
  · have hm : h ∈ Lists.nodes w1 := by simp only [Lists.nodes, List.mem_flatMap]; exact ⟨l, hw, by simp [e]⟩
    exact hd.1.2.2 h hm h (by simp) rfl
  · have hm : h ∈ Lists.nodes w2 := by simp only [Lists.nodes, List.mem_flatMap]; exact ⟨l, hw, by simp [e]⟩
    exact hd.2.2 h (by simp) h hm rfl

theorem mem_nodes (w : Lists) (l : Nat × List Nat) (hl : l ∈ w) (x : Nat) (hx : x ∈ l.1 :: l.2) : x ∈ w.nodes := by
  simp only [Lists.nodes, List.mem_flatMap]; exact ⟨l, hl, hx⟩

theorem mem3 (w1 w2 : Lists) (a l : Nat × List Nat) (h : l ∈ w1 ++ a :: w2) : l = a ∨ (l ∈ w1 ∨ l ∈ w2) := by
  rcases List.mem_append.1 h with h | h
  · exact Or.inr (Or.inl h)
  · rcases List.mem_cons.1 h with h | h
    · exact Or.inl h
    · exact Or.inr (Or.inr h)

theorem mem_side (w1 w2 : Lists) (a l : Nat × List Nat) (h : l ∈ w1 ∨ l ∈ w2) : l ∈ w1 ++ a :: w2 := by
  rcases h with h | h <;> simp [h]

theorem qinv_step (Q : Queues) (w : Lists) (o : QOp) (hi : QInv Q w) (hl : QLegal w o) : QInv (qStep Q o) (qSpecStep w o) := by
  obtain ⟨hi, hc⟩ := hi
  cases o with
  | create h =>
    refine ⟨inv_create Q.links w h hi hl, ?_⟩
    intro l hm
    rcases List.mem_append.1 hm with hw | hw
    · have := hc l hw
      have hne : l.1 ≠ h := fun e => hl (mem_nodes w l hw h (by simp [e]))
      refine ⟨by simp [qStep, qInit, Queues.setCount, Queues.setHead, hne, this.1], ?_⟩
      intro x hx
      have hne2 : x ≠ h := fun e => hl (mem_nodes w l hw h (by simp [← e, hx]))
      simp [qStep, qInit, Queues.setCount, Queues.setHead, hne2, this.2 x hx]
    · simp at hw; subst hw
      simp [qStep, qInit, Queues.setCount, Queues.setHead]
  | push h n =>
    have hinv := inv_step Q.links w (.addTail h n) hi hl
    obtain ⟨w1, xs, w2, rfl, e⟩ := split_head w hi.1 h hl.1
    have hn := not_mem_split w1 w2 h n xs hl.2
    simp only [specStep, e] at hinv
    refine ⟨by simp only [qSpecStep, e]; exact hinv, ?_⟩
    simp only [qSpecStep, e]
    intro l hm
    rcases mem3 w1 w2 _ l hm with rfl | hw
    · have := hc (h, xs) (by simp)
      refine ⟨by simp [qStep, qPush, Queues.setCount, Queues.setHead, this.1], ?_⟩
      intro x hx
      by_cases hxn : x = n
      · simp [qStep, qPush, Queues.setCount, Queues.setHead, hxn]
      · simp [hxn] at hx
        simp [qStep, qPush, Queues.setCount, Queues.setHead, hxn, this.2 x hx]
    · have := hc l (mem_side w1 w2 _ l hw)
      have hne := head_ne w1 w2 h xs hi.1 l hw
      refine ⟨by simp [qStep, qPush, Queues.setCount, Queues.setHead, hne, this.1], ?_⟩
      intro x hx
      have hne2 : x ≠ n := fun e => hl.2 (mem_nodes _ l (mem_side w1 w2 _ l hw) n (by simp [← e, hx]))
      simp [qStep, qPush, Queues.setCount, Queues.setHead, hne2, this.2 x hx]
  | pop h =>
    obtain ⟨l0, hl0, rfl, hne0⟩ := hl
    obtain ⟨w1, xs, w2, rfl, e⟩ := split_head w hi.1 l0.1 (List.mem_map.2 ⟨l0, hl0, rfl⟩)
    have hxs : l0.2 = xs := by
      rcases mem3 w1 w2 _ l0 hl0 with h | h
      · rw [h]
      · exact absurd rfl (head_ne w1 w2 l0.1 xs hi.1 l0 h)
    rw [hxs] at hne0
    obtain ⟨h1, h2⟩ := inv_list_nodup Q.links w1 w2 l0.1 xs hi
    generalize l0.1 = h at *
    rcases List.eq_nil_or_concat xs with rfl | ⟨ys, z, rfl⟩
    · exact absurd rfl hne0
    · simp only [List.concat_eq_append] at *
      have hz : Q.links.prev h = z := by
        have := h1
        simp only [IsList] at this
        rw [chain_append] at this
        exact this.2.2
      have hinv := inv_step Q.links _ (.remove z) hi ⟨(h, ys ++ [z]), by simp, by simp⟩
      have hlast : ∀ f, Lists.upd (w1 ++ (h, ys ++ [z]) :: w2) h f = w1 ++ (h, f (ys ++ [z])) :: w2 := e
      have hrm : specStep (w1 ++ (h, ys ++ [z]) :: w2) (.remove z) = w1 ++ (h, ys) :: w2 := by
        have hd := hi.1
        rw [nodes_split] at hd
        simp only [List.nodup_append] at hd
        have e1 : z ∉ Lists.nodes w1 := fun e => hd.1.2.2 z e z (by simp) rfl
        have e2 : z ∉ Lists.nodes w2 := fun e => hd.2.2 z (by simp) z e rfl
        have e3 : ys.filter (fun x => decide (x ≠ z)) = ys := by
          rw [List.filter_eq_self]
          intro x hx
          simp
          intro ee
          subst ee
          simp only [List.nodup_cons, List.nodup_append] at h2
          exact h2.2.2.2 x hx x (by simp) rfl
        simp only [specStep]
        rw [List.map_append, List.map_cons, filter_absent w1 z e1, filter_absent w2 z e2]
        simp only [List.filter_append, e3]
        simp
      rw [hrm] at hinv
      simp only [qSpecStep, hlast, List.dropLast_concat]
      refine ⟨?_, ?_⟩
      · have : (qStep Q (.pop h)).links = remove Q.links z := by
          simp only [qStep, qPop_links, hz]
        rw [this]
        exact hinv
      · intro l hm
        rcases mem3 w1 w2 _ l hm with rfl | hw
        · have := hc (h, ys ++ [z]) (by simp)
          refine ⟨by simp [qStep, qPop, Queues.setCount, this.1], ?_⟩
          intro x hx
          exact this.2 x (List.mem_append_left _ hx)
        · have := hc l (mem_side w1 w2 _ l hw)
          have hne := head_ne w1 w2 h _ hi.1 l hw
          exact ⟨by simp [qStep, qPop, Queues.setCount, hne, this.1], this.2⟩
  | remove n =>
    have hinv := inv_step Q.links w (.remove n) hi hl
    obtain ⟨w1, h, as, bs, w2, rfl, e⟩ := split_elem w hi.1 n hl
    simp only [specStep] at hinv
    have e' : qSpecStep (w1 ++ (h, as ++ n :: bs) :: w2) (.remove n) = w1 ++ (h, as ++ bs) :: w2 := e
    rw [e'] 
    rw [e] at hinv
    have hh := (hc (h, as ++ n :: bs) (by simp))
    have hhead := hh.2 n (by simp)
    simp only at hhead
    refine ⟨by simp only [qStep, qRemove_links]; exact hinv, ?_⟩
    intro l hm
    rcases mem3 w1 w2 _ l hm with rfl | hw
    · refine ⟨?_, ?_⟩
      · simp [qStep, qRemove, Queues.setCount, hhead, hh.1]
        omega
      · intro x hx
        refine hh.2 x ?_
        simp at hx ⊢
        rcases hx with h | h <;> simp [h]
    · have := hc l (mem_side w1 w2 _ l hw)
      have hne := head_ne w1 w2 h _ hi.1 l hw
      exact ⟨by simp [qStep, qRemove, Queues.setCount, hhead, hne, this.1], this.2⟩

theorem qinv_run : ∀ (os : List QOp) (Q : Queues) (w : Lists), QInv Q w → QAllLegal w os → QInv (os.foldl qStep Q) (os.foldl qSpecStep w)
  | [], _, _, hi, _ => hi
  | o :: os, Q, w, hi, hl => qinv_run os _ _ (qinv_step Q w o hi hl.1) hl.2

end Fly.Link
