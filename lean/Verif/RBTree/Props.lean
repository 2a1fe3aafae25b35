import Verif.RBTree.Lemmas

/-! # Properties C01–C04: the ordered index -/

namespace Fly.RB
open Tree

variable {K D : Type}

/-- **C01.** Every valid history of insertions and deletions runs without undefined behaviour, and
afterwards a lookup of any key gives exactly the live item of the abstract index (key, data and
owner handle), where an insertion of a present key is ignored. -/
theorem C01_index_is_finite_map [DecidableEq K] (cmp : K → K → Ordering) (hcmp : LawfulCmp cmp)
    (ops : List (Op K D)) (hv : Valid cmp State.init [] ops) :
    ∃ s, run cmp State.init ops = some s ∧
      ∀ k, (find cmp k s.tree).map (fun e => (⟨e.key, e.data, e.handle⟩ : Item K D))
        = specFind (specRun [] ops) k := by
  obtain ⟨s, h1, hi⟩ := run_inv cmp hcmp _ _ ops (inv_init cmp) hv
  refine ⟨s, h1, ?_⟩
  intro k
  generalize specRun [] ops = m at hi
  cases hf : find cmp k s.tree with
  | some e =>
    obtain ⟨he, hk⟩ := find_some hcmp hf
    have hem : e.item ∈ m := (hi.abs.mem_iff).1 (List.mem_map_of_mem he)
    symm
    cases hg : specFind m k with
    | none =>
      unfold specFind at hg
      rw [List.find?_eq_none] at hg
      exact absurd (by simp [Entry.item, hk]) (hg _ hem)
    | some i =>
      unfold specFind at hg
      have h3 := List.mem_of_find?_eq_some hg
      have h4 := List.find?_some hg
      simp only [decide_eq_true_eq] at h4
      have h5 := (hi.abs.mem_iff).2 h3
      rw [List.mem_map] at h5
      obtain ⟨x, hx, rfl⟩ := h5
      have : x = e := key_inj hcmp hi.sorted hx he (by rw [hk]; exact h4)
      subst this
      rfl
  | none =>
    symm
    unfold specFind
    simp only [Option.map_none, List.find?_eq_none, decide_eq_true_eq]
    intro i h3 hk
    have h5 := (hi.abs.mem_iff).2 h3
    rw [List.mem_map] at h5
    obtain ⟨x, hx, rfl⟩ := h5
    have hk' : x.key = k := hk
    rw [← hk', find_mem hcmp hi.sorted hx] at hf
    cases hf

/-- **C02.** After every valid history, looking up any key needs at most `2 * log2 (n + 1)`
comparisons, `n` being the number of live items. -/
theorem C02_lookup_cost_logarithmic [DecidableEq K] (cmp : K → K → Ordering) (hcmp : LawfulCmp cmp)
    (ops : List (Op K D)) (hv : Valid cmp State.init [] ops) :
    ∃ s, run cmp State.init ops = some s ∧
      ∀ k, findSteps cmp k s.tree ≤ 2 * Nat.log2 ((specRun ([] : List (Item K D)) ops).length + 1) := by
  obtain ⟨s, h1, hi⟩ := run_inv cmp hcmp _ _ ops (inv_init cmp) hv
  refine ⟨s, h1, ?_⟩
  intro k
  obtain ⟨n, hn, hb⟩ := hi.rb
  have hlen : (specRun [] ops).length = s.tree.toList.length := by
    have := hi.abs.length_eq; simpa using this.symm
  have h2 := findSteps_le cmp k s.tree
  have h3 := height_le s.tree n hn
  have h4 := size_ge s.tree n hn
  have h5 : n ≤ Nat.log2 (s.tree.toList.length + 1) := by
    rw [Nat.le_log2 (by omega)]; exact h4
  rw [hlen]
  simp [hb] at h3
  omega

/-- **C03.** After every valid history the owner variable of each live item holds the address of a
node of the tree, and that node holds exactly this item; distinct live items have distinct nodes. -/
theorem C03_handles_stay_valid [DecidableEq K] (cmp : K → K → Ordering) (hcmp : LawfulCmp cmp)
    (ops : List (Op K D)) (hv : Valid cmp State.init [] ops) :
    ∃ s, run cmp State.init ops = some s ∧
      (∀ i ∈ specRun ([] : List (Item K D)) ops, ∀ h, i.handle = some h →
        ∃ e ∈ s.tree.toList, s.handles h = some e.addr ∧
          e.key = i.key ∧ e.data = i.data ∧ e.handle = i.handle) ∧
      (∀ e ∈ s.tree.toList, ∀ e' ∈ s.tree.toList, e.addr = e'.addr → e = e') := by
  obtain ⟨s, h1, hi⟩ := run_inv cmp hcmp _ _ ops (inv_init cmp) hv
  refine ⟨s, h1, ?_, ?_⟩
  · intro i hm h hh
    have h5 := (hi.abs.mem_iff).2 hm
    rw [List.mem_map] at h5
    obtain ⟨x, hx, rfl⟩ := h5
    exact ⟨x, hx, hi.handles x hx h hh, rfl, rfl, rfl⟩
  · intro e he e' he' hadd
    exact addr_inj hi.addrs he he' hadd

/-- **C04.** After every valid history `node_count` is the number of live items, which is the number
of nodes in the tree. -/
theorem C04_count_exact [DecidableEq K] (cmp : K → K → Ordering) (hcmp : LawfulCmp cmp)
    (ops : List (Op K D)) (hv : Valid cmp State.init [] ops) :
    ∃ s, run cmp State.init ops = some s ∧
      s.count = (specRun ([] : List (Item K D)) ops).length ∧ s.count = s.tree.toList.length := by
  obtain ⟨s, h1, hi⟩ := run_inv cmp hcmp _ _ ops (inv_init cmp) hv
  refine ⟨s, h1, ?_, hi.count⟩
  rw [hi.count]
  simpa using hi.abs.length_eq

/-! ### Non-vacuity and the duplicate-key defect -/

/-- The ordinary order on naturals, as a comparison callback. -/
def natCmp (a b : Nat) : Ordering := compare a b

theorem natCmp_lawful : LawfulCmp natCmp :=
  ⟨by intro a b; simp [natCmp, Nat.compare_eq_eq],
   by intro a b; simp only [natCmp, Nat.compare_eq_lt, Nat.compare_eq_gt],
   by intro a b c; simp only [natCmp, Nat.compare_eq_lt]; omega⟩

/-- A history with a duplicate insertion, a two-child deletion through a handle and a reused
address. -/
def demo : List (Op Nat Nat) :=
  [.insert 100 5 50 (some 1), .insert 101 3 30 (some 2), .insert 102 8 80 (some 3),
   .insert 103 3 31 none, .insert 104 7 70 (some 4), .insert 105 9 90 (some 5),
   .deleteHandle 1, .insert 104 1 10 (some 6), .deleteKey 8]

instance decOkOp {K D : Type} (s : State K D) (m : List (Item K D)) :
    (op : Op K D) → Decidable (okOp s m op)
  | .insert _ _ _ _ => inferInstanceAs (Decidable (_ ∧ _))
  | .deleteHandle _ => inferInstanceAs (Decidable (∃ i ∈ m, _))
  | .deleteKey _ => inferInstanceAs (Decidable True)

/-- Computable check of `Valid`. -/
def validB (cmp : Nat → Nat → Ordering) : State Nat Nat → List (Item Nat Nat) → List (Op Nat Nat) → Bool
  | _, _, [] => true
  | s, m, op :: ops =>
    decide (okOp s m op) &&
      match step cmp s op with
      | none => true
      | some s' => validB cmp s' (specStep m op) ops

theorem validB_sound (cmp : Nat → Nat → Ordering) (s : State Nat Nat) (m : List (Item Nat Nat))
    (ops : List (Op Nat Nat)) (h : validB cmp s m ops = true) : Valid cmp s m ops := by
  induction ops generalizing s m with
  | nil => trivial
  | cons op ops ih =>
    simp only [validB, Bool.and_eq_true, decide_eq_true_eq] at h
    refine ⟨h.1, ?_⟩
    intro s' hs'
    rw [hs'] at h
    exact ih _ _ h.2

/-- The hypotheses of C01–C04 are met by a non-trivial history that leaves four live items. -/
example : Valid natCmp State.init [] demo ∧ (specRun [] demo).length = 4 :=
  ⟨validB_sound _ _ _ _ (by decide +kernel), by decide +kernel⟩

/-- A node that is not in the tree is not located. -/
theorem locate_absent (a : Nat) (t : Tree K D) (p : Path K D) (h : ∀ e ∈ t.toList, e.addr ≠ a) : locate a t p = none := by
  induction t generalizing p with
  | nil => rfl
  | node c l e r ihl ihr =>
    simp only [toList, List.mem_append, List.mem_cons] at h
    unfold locate
    rw [if_neg (h e (by simp)), ihl _ (fun x hx => h x (by simp [hx])), ihr _ (fun x hx => h x (by simp [hx]))]

/-- The descent with a key that is in the tree ends at its node. -/
theorem descend_present (cmp : K → K → Ordering) (k : K) (t : Tree K D) (p : Path K D) (e : Entry K D)
    (h : find cmp k t = some e) : descend cmp k t p = .equal e := by
  induction t generalizing p with
  | nil => simp [find] at h
  | node c l x r ihl ihr =>
    unfold find at h
    unfold descend
    split at h <;> rename_i hc <;> rw [hc]
    · exact ihr _ h
    · simp only at h ⊢; rw [Option.some.inj h]
    · exact ihl _ h

/-- **C03, negative part.** Inserting a key that is already present leaves the caller's handle
variable pointing at the freed new node.  After every valid history and every insertion of a live key
with an owner variable the variable is non-NULL, no node of the tree is at that address, and deleting
through it is undefined behaviour. -/
theorem C03_duplicate_insert_dangling_refuted [DecidableEq K] (cmp : K → K → Ordering) (hcmp : LawfulCmp cmp)
    (ops : List (Op K D)) (hv : Valid cmp State.init [] ops) (a : Nat) (k : K) (d : D) (h : Nat)
    (hk : ∃ i ∈ specRun ([] : List (Item K D)) ops, i.key = k) :
    ∃ s, run cmp State.init ops = some s ∧ ((∀ e ∈ s.tree.toList, e.addr ≠ a) →
      ∃ s', step cmp s (.insert a k d (some h)) = some s' ∧ s'.handles h = some a ∧
        (∀ e ∈ s'.tree.toList, e.addr ≠ a) ∧ step cmp s' (.deleteHandle h) = none) := by
  obtain ⟨s, h1, hi⟩ := run_inv cmp hcmp _ _ ops (inv_init cmp) hv
  refine ⟨s, h1, fun ha => ?_⟩
  obtain ⟨i, hm, hik⟩ := hk
  have h5 := (hi.abs.mem_iff).2 hm
  rw [List.mem_map] at h5
  obtain ⟨x, hx, rfl⟩ := h5
  have hxk : x.key = k := hik
  have hf := find_mem hcmp hi.sorted hx
  rw [hxk] at hf
  have hc : ¬ s.count = 0 := by
    rw [hi.count]
    have := List.length_pos_of_mem hx
    omega
  have hs : step cmp s (.insert a k d (some h)) =
      some ⟨s.tree, s.count, setHandle (some h) (some a) s.handles⟩ := by
    simp only [step, State.insert, if_neg hc, descend_present cmp k s.tree [] x hf, Option.map_some]
  refine ⟨_, hs, by simp [setHandle], ha, ?_⟩
  have hh : setHandle (some h) (some a) s.handles h = some a := by simp [setHandle]
  simp only [step, hh, State.delete, if_neg hc, locate_absent a s.tree [] ha]

/-- A history of one insertion, after which the same key is inserted again. -/
example : ∃ s s' : State Nat Nat, run natCmp State.init [.insert 100 5 50 (some 1)] = some s ∧
    step natCmp s (.insert 101 5 51 (some 2)) = some s' ∧ s'.handles 2 = some 101 ∧ s'.delete 101 = none :=
  ⟨_, _, rfl, rfl, rfl, rfl⟩

end Fly.RB
