import Verif.Mount.Spec
import Verif.RBTree.Lemmas
set_option linter.all false

namespace Fly.Mount
open Fly.RB

/-! ## The comparison -/

theorem Before.irrefl : ∀ (a : Bytes), ¬ Before a a := by
  intro a
  induction a with
  | nil => intro h; cases h
  | cons x r ih => intro h; cases h with
    | byte _ _ _ _ h => omega
    | cons _ _ _ h => exact ih h

theorem Before.trans : ∀ {a b c : Bytes}, Before a b → Before b c → Before a c := by
  intro a b c h
  induction h generalizing c with
  | «prefix» b r => intro h2; cases h2 <;> exact .prefix _ _
  | byte a b r s hab =>
    intro h2
    cases h2 with
    | byte _ d _ t h => exact .byte _ _ _ _ (by omega)
    | cons _ _ t h => exact .byte _ _ _ _ hab
  | cons a r s hrs ih =>
    intro h2
    cases h2 with
    | byte _ d _ t h => exact .byte _ _ _ _ h
    | cons _ _ t h => exact .cons _ _ _ (ih h)

/-- Both strings without NUL, `c1` with its exact length. -/
theorem searchCmp_cons (x y : Nat) (a b : Bytes) (hx : x ≠ 0) :
    searchCmp (x :: a) (x :: a).length (y :: b) =
      if x < y then .lt else if y < x then .gt else searchCmp a a.length b := by
  unfold searchCmp
  have e1 : (if (y :: b).length < (x :: a).length then (y :: b).length else (x :: a).length)
      = (if b.length < a.length then b.length else a.length) + 1 := by
    simp only [List.length_cons]
    split <;> split <;> omega
  rw [e1]
  simp only [strncmp, List.headD_cons, List.tail_cons, hx, if_false, List.length_cons]
  by_cases h1 : x < y
  · simp [h1]
  · by_cases h2 : y < x
    · simp [h1, h2]
    · simp only [h1, h2, if_false]
      simp only [Nat.add_lt_add_iff_right, Nat.add_right_cancel_iff]

theorem searchCmp_nil_left (b : Bytes) : searchCmp [] 0 b = if b = [] then .eq else .lt := by
  cases b <;> simp [searchCmp, strncmp]

theorem searchCmp_nil_right (a : Bytes) (n : Nat) : searchCmp a n [] = if n = 0 then .eq else .gt := by
  unfold searchCmp
  cases n with
  | zero => simp [strncmp]
  | succ n => simp [strncmp]

theorem searchCmp_spec : ∀ (a b : Bytes), 0 ∉ a → 0 ∉ b →
    (searchCmp a a.length b = .eq ↔ a = b) ∧ (searchCmp a a.length b = .lt ↔ Before a b) ∧
      (searchCmp a a.length b = .gt ↔ Before b a) := by
  intro a
  induction a with
  | nil =>
    intro b _ _
    rw [List.length_nil, searchCmp_nil_left]
    cases b with
    | nil => exact ⟨by simp, ⟨by simp, fun h => by cases h⟩, ⟨by simp, fun h => by cases h⟩⟩
    | cons y b => exact ⟨by simp, ⟨fun _ => .prefix _ _, by simp⟩, ⟨by simp, fun h => by cases h⟩⟩
  | cons x a ih =>
    intro b ha hb
    have hx : x ≠ 0 := fun h => ha (by simp [h])
    have ha' : 0 ∉ a := fun h => ha (by simp [h])
    cases b with
    | nil =>
      rw [searchCmp_nil_right]
      exact ⟨by simp, ⟨by simp, fun h => by cases h⟩, ⟨fun _ => .prefix _ _, by simp⟩⟩
    | cons y b =>
      have hb' : 0 ∉ b := fun h => hb (by simp [h])
      rw [searchCmp_cons x y a b hx]
      obtain ⟨i1, i2, i3⟩ := ih b ha' hb'
      by_cases h1 : x < y
      · simp only [h1, if_true]
        refine ⟨⟨by simp, fun h => ?_⟩, ⟨fun _ => .byte _ _ _ _ h1, by simp⟩, ⟨by simp, fun h => ?_⟩⟩
        · cases h; omega
        · cases h with
          | byte _ _ _ _ h => omega
          | cons _ _ _ h => omega
      · by_cases h2 : y < x
        · simp only [h1, h2, if_true, if_false]
          refine ⟨⟨by simp, fun h => ?_⟩, ⟨by simp, fun h => ?_⟩, ⟨fun _ => .byte _ _ _ _ h2, by simp⟩⟩
          · cases h; omega
          · cases h with
            | byte _ _ _ _ h => omega
            | cons _ _ _ h => omega
        · have : x = y := by omega
          subst this
          simp only [h1, if_false]
          refine ⟨?_, ?_, ?_⟩
          · rw [i1]; simp
          · rw [i2]
            constructor
            · exact fun h => .cons _ _ _ h
            · intro h; cases h with
              | byte _ _ _ _ h => omega
              | cons _ _ _ h => exact h
          · rw [i3]
            constructor
            · exact fun h => .cons _ _ _ h
            · intro h; cases h with
              | byte _ _ _ _ h => omega
              | cons _ _ _ h => exact h

theorem strncmp_nul : ∀ (n : Nat) (a b : Bytes), 0 ∈ a → 0 ∉ b → a.length = n → b.length = n →
    strncmp n a b ≠ .eq := by
  intro n
  induction n with
  | zero => intro a b ha _ h _; rw [List.length_eq_zero_iff] at h; subst h; simp at ha
  | succ n ih =>
    intro a b ha hb h1 h2
    cases a with
    | nil => simp at h1
    | cons x a =>
      cases b with
      | nil => simp at h2
      | cons y b =>
        have hy : y ≠ 0 := fun h => hb (by simp [h])
        simp only [strncmp, List.headD_cons, List.tail_cons]
        by_cases h3 : x < y
        · simp [h3]
        · by_cases h4 : y < x
          · simp [h3, h4]
          · have : x = y := by omega
            subst this
            simp only [h3, if_false, hy]
            refine ih a b ?_ (fun h => hb (by simp [h])) (by simpa using h1) (by simpa using h2)
            rcases List.mem_cons.1 ha with h | h
            · exact absurd h.symm hy
            · exact h

/-- A key with a NUL inside is never equal to a file name: this is why `findKey` may answer `none`. -/
theorem searchCmp_nul (a b : Bytes) (ha : 0 ∈ a) (hb : 0 ∉ b) : searchCmp a a.length b ≠ .eq := by
  unfold searchCmp
  intro h
  by_cases hl : b.length = a.length
  · rw [if_neg (by omega)] at h
    have := strncmp_nul a.length a b ha hb rfl hl
    cases hs : strncmp a.length a b with
    | eq => exact this hs
    | lt => rw [hs] at h; cases h
    | gt => rw [hs] at h; cases h
  · cases hs : strncmp (if b.length < a.length then b.length else a.length) a b with
    | eq =>
      rw [hs] at h
      simp only [hl, if_false] at h
      split at h <;> cases h
    | lt => rw [hs] at h; cases h
    | gt => rw [hs] at h; cases h

theorem nameCmp_lawful : LawfulCmp nameCmp := by
  refine ⟨?_, ?_, ?_⟩
  · intro a b
    unfold nameCmp
    rw [(searchCmp_spec a.1 b.1 a.2 b.2).1]
    exact ⟨fun h => Subtype.ext h, fun h => by rw [h]⟩
  · intro a b
    unfold nameCmp
    rw [(searchCmp_spec a.1 b.1 a.2 b.2).2.1, (searchCmp_spec b.1 a.1 b.2 a.2).2.2]
  · intro a b c
    unfold nameCmp
    rw [(searchCmp_spec a.1 b.1 a.2 b.2).2.1, (searchCmp_spec b.1 c.1 b.2 c.2).2.1,
      (searchCmp_spec a.1 c.1 a.2 c.2).2.1]
    exact Before.trans

theorem strncmp_prefix : ∀ (n : Nat) (a b : Bytes), 0 ∉ b → b.length = n →
    (strncmp n a b = .eq ↔ a.take n = b) := by
  intro n
  induction n with
  | zero =>
    intro a b _ h
    rw [List.length_eq_zero_iff] at h
    subst h
    simp [strncmp]
  | succ n ih =>
    intro a b hb hl
    cases b with
    | nil => simp at hl
    | cons y b =>
      have hy : y ≠ 0 := fun h => hb (by simp [h])
      cases a with
      | nil =>
        simp only [strncmp, List.headD_nil, List.headD_cons]
        rw [if_pos (by omega)]
        simp
      | cons x a =>
        simp only [strncmp, List.headD_cons, List.tail_cons, List.take_succ_cons]
        by_cases h3 : x < y
        · simp [h3]; omega
        · by_cases h4 : y < x
          · simp [h3, h4]; omega
          · have : x = y := by omega
            subst this
            simp only [h3, if_false, hy]
            rw [ih a b (fun h => hb (by simp [h])) (by simpa using hl)]
            simp

/-! ## The index -/

theorem insert_handles (s s' : State Name Nat) (a : Nat) (k : Name) (d : Nat) (h : Option Nat) (x : Nat)
    (hi : s.insert nameCmp a k d h = some (s', x)) : s'.handles = setHandle h (some a) s.handles := by
  unfold State.insert at hi
  simp only at hi
  split at hi
  · cases hi; rfl
  · split at hi
    · cases hi; rfl
    · split at hi
      · cases hi; rfl
      · cases hi

theorem insert_node (s s' : State Name Nat) (m : List (Item Name Nat)) (hinv : Inv nameCmp s m) (a : Nat) (k : Name)
    (d : Nat) (h : Option Nat) (x : Nat)
    (hi : s.insert nameCmp a k d h = some (s', x)) :
    (x = a ∧ ∀ e ∈ s.tree.toList, e.key ≠ k) ∨ (s'.tree = s.tree ∧ ∃ e ∈ s.tree.toList, e.key = k ∧ e.addr = x) := by
  unfold State.insert at hi
  simp only at hi
  by_cases hc : s.count = 0
  · rw [if_pos hc] at hi
    left
    cases hi
    refine ⟨rfl, ?_⟩
    have := hinv.count
    rw [hc] at this
    have e : s.tree.toList = [] := List.length_eq_zero_iff.1 this.symm
    rw [e]
    intro e he
    cases he
  · rw [if_neg hc] at hi
    cases hd : descend nameCmp k s.tree [] with
    | equal e' =>
      rw [hd] at hi
      cases hi
      right
      refine ⟨rfl, e', ?_⟩
      have := descend_equal nameCmp nameCmp_lawful k s.tree [] e' hd
      exact ⟨this.1, this.2, rfl⟩
    | leaf p =>
      rw [hd] at hi
      left
      simp only at hi
      split at hi
      · cases hi
        refine ⟨rfl, ?_⟩
        intro e he hk
        obtain ⟨o1, o2⟩ := descend_order nameCmp nameCmp_lawful k s.tree [] p hd hinv.sorted (by simp [lefts]) (by simp [rights])
        have hz := descend_leaf nameCmp k s.tree [] p hd
        have hl : s.tree.toList = lefts p ++ rights p := by
          have := toList_zip p (Tree.nil : Tree Name Nat)
          rw [hz] at this
          simpa [zip, Tree.toList] using this
        have hirr : nameCmp k k ≠ .lt := by
          rw [(nameCmp_lawful.eq_iff k k).2 rfl]; simp
        rw [hl, List.mem_append] at he
        rcases he with he | he
        · have := o1 e he; rw [hk] at this; exact hirr this
        · have := o2 e he; rw [hk] at this; exact hirr this
      · cases hi

/-- Invariant of every history: the index holds only mounted files, under their own names. -/
structure Sound (w : World) (m : List (Item Name Nat)) : Prop where
  inv : Inv nameCmp w.idx m
  items : ∀ i ∈ m, i.handle = some i.data ∧ ∃ pf ∈ w.files, pf.addr = i.data ∧ pf.name = i.key
  addrs : (w.files.map (·.addr)).Nodup

theorem sound_init : Sound World.init [] :=
  ⟨inv_init nameCmp, by simp, by simp [World.init]⟩

theorem pf_inj {fs : List PF} (hn : (fs.map (·.addr)).Nodup) {x y : PF} (hx : x ∈ fs) (hy : y ∈ fs)
    (h : x.addr = y.addr) : x = y := by
  induction fs with
  | nil => cases hx
  | cons z fs ih =>
    simp only [List.map_cons, List.nodup_cons, List.mem_map, not_exists, not_and] at hn
    rcases List.mem_cons.1 hx with hx' | hx' <;> rcases List.mem_cons.1 hy with hy' | hy'
    · rw [hx', hy']
    · rw [hx'] at h; exact absurd h.symm (hn.1 _ hy')
    · rw [hy'] at h; exact absurd h (hn.1 _ hx')
    · exact ih hn.2 hx' hy'

theorem find_pf {fs : List PF} (hn : (fs.map (·.addr)).Nodup) {x : PF} (hx : x ∈ fs) :
    fs.find? (fun f => f.addr == x.addr) = some x := by
  cases h : fs.find? (fun f => f.addr == x.addr) with
  | none =>
    rw [List.find?_eq_none] at h
    exact absurd (by simp) (h x hx)
  | some y =>
    have h1 := List.mem_of_find?_eq_some h
    have h2 := List.find?_some h
    simp only [beq_iff_eq] at h2
    rw [pf_inj hn h1 hx h2]

theorem add_sound (w : World) (m : List (Item Name Nat)) (hs : Sound w m) (pf : PF) (a : Nat)
    (h1 : ∀ f ∈ w.files, f.addr ≠ pf.addr) (h2 : ∀ e ∈ w.idx.tree.toList, e.addr ≠ a) :
    ∃ w', addFile w pf a = some w' ∧ w'.files = w.files ++ [pf] ∧
      Sound w' (specStep m (.insert a pf.name pf.addr (some pf.addr))) ∧
      (∀ e ∈ w'.idx.tree.toList, e.key = pf.name → w'.idx.handles pf.addr = some e.addr) ∧
      ((∃ i ∈ m, i.key = pf.name) → w'.idx.tree = w.idx.tree ∧ w'.idx.count = w.idx.count) := by
  have hfresh : ∀ i ∈ m, (some pf.addr : Option Nat) = none ∨ i.handle ≠ some pf.addr := by
    intro i hi
    right
    obtain ⟨e1, f, hf, e2, _⟩ := hs.items i hi
    rw [e1, ← e2]
    intro h
    exact h1 f hf (by injection h)
  obtain ⟨s', x, hins, hinv⟩ := insert_inv nameCmp nameCmp_lawful w.idx m hs.inv a pf.name pf.addr
    (some pf.addr) h2 hfresh
  have hnd := insert_node _ _ m hs.inv _ _ _ _ _ hins
  have hh := insert_handles _ _ _ _ _ _ _ hins
  have hkeys : (∃ i ∈ m, i.key = pf.name) ↔ ∃ e ∈ w.idx.tree.toList, e.key = pf.name := by
    constructor
    · rintro ⟨i, hi, hk⟩
      have := (hs.inv.abs.mem_iff).2 hi
      rw [List.mem_map] at this
      obtain ⟨e, he, rfl⟩ := this
      exact ⟨e, he, hk⟩
    · rintro ⟨e, he, hk⟩
      exact ⟨e.item, (hs.inv.abs.mem_iff).1 (List.mem_map_of_mem he), hk⟩
  -- the node returned holds the key
  have hx : ∀ e ∈ s'.tree.toList, e.key = pf.name → x = e.addr := by
    intro e he hk
    rcases hnd with ⟨rfl, hno⟩ | ⟨ht, e', he', hk', hx'⟩
    · have hno' : ¬ ∃ i ∈ m, i.key = pf.name := by
        rw [hkeys]; rintro ⟨e, he, hk⟩; exact hno e he hk
      have hm : (⟨pf.name, pf.addr, some pf.addr⟩ : Item Name Nat) ∈ specStep m (.insert x pf.name pf.addr (some pf.addr)) := by
        simp only [specStep, hno', if_false]; simp
      have := (hinv.abs.mem_iff).2 hm
      rw [List.mem_map] at this
      obtain ⟨e2, he2, h3⟩ := this
      have hk2 : e2.key = pf.name := congrArg Item.key h3
      have hh2 : e2.handle = some pf.addr := congrArg Item.handle h3
      have := hinv.handles e2 he2 pf.addr hh2
      rw [hh] at this
      simp only [setHandle, if_true] at this
      rw [key_inj nameCmp_lawful hinv.sorted he he2 (by rw [hk, hk2])]
      injection this
    · rw [ht] at he
      rw [← hx', key_inj nameCmp_lawful hs.inv.sorted he' he (by rw [hk, hk'])]
  refine ⟨⟨w.files ++ [pf], { s' with handles := setHandle (some pf.addr) (some x) s'.handles }⟩, ?_, rfl, ⟨?_, ?_, ?_⟩, ?_, ?_⟩
  · unfold addFile; rw [hins]
  · refine ⟨hinv.count, hinv.rb, hinv.sorted, hinv.addrs, ?_, hinv.hdist, hinv.abs⟩
    intro e he h hhe
    simp only [setHandle]
    by_cases hp : h = pf.addr
    · rw [if_pos hp]
      subst hp
      -- the entry whose handle is the new file's is the new entry
      have hi := (hinv.abs.mem_iff).1 (List.mem_map_of_mem he)
      have hk : e.key = pf.name := by
        have hne : ∀ i ∈ m, i ≠ e.item := by
          intro i hi2 hie
          rcases hfresh i hi2 with h | h
          · cases h
          · rw [hie] at h; exact h hhe
        simp only [specStep] at hi
        split at hi
        · exact absurd rfl (hne _ hi)
        · rcases List.mem_append.1 hi with hi | hi
          · exact absurd rfl (hne _ hi)
          · simp only [List.mem_singleton] at hi
            exact congrArg Item.key hi
      rw [hx e he hk]
    · rw [if_neg hp]
      exact hinv.handles e he h hhe
  · intro i hi
    simp only [specStep] at hi
    split at hi
    · obtain ⟨a1, f, a2, a3⟩ := hs.items i hi
      exact ⟨a1, f, by simp [a2], a3⟩
    · rcases List.mem_append.1 hi with hi | hi
      · obtain ⟨a1, f, a2, a3⟩ := hs.items i hi
        exact ⟨a1, f, by simp [a2], a3⟩
      · simp only [List.mem_singleton] at hi
        subst hi
        exact ⟨rfl, pf, by simp, rfl, rfl⟩
  · simp only [List.map_append, List.map_cons, List.map_nil]
    rw [List.nodup_append]
    refine ⟨hs.addrs, by simp, ?_⟩
    intro x hx y hy
    simp only [List.mem_singleton] at hy
    subst hy
    rw [List.mem_map] at hx
    obtain ⟨f, hf, rfl⟩ := hx
    exact h1 f hf
  · intro e he hk
    simp only [setHandle, if_true]
    rw [hx e he hk]
  · intro hex
    rcases hnd with ⟨rfl, hno⟩ | ⟨ht, _⟩
    · rw [hkeys] at hex
      obtain ⟨e, he, hk⟩ := hex
      exact absurd hk (hno e he)
    · refine ⟨ht, ?_⟩
      simp only
      rw [hinv.count, hs.inv.count, ht]

/-- Deleting through a handle. -/
theorem delete_cases (w : World) (m : List (Item Name Nat)) (hs : Sound w m) (a : Nat) (s' : State Name Nat)
    (hd : w.idx.delete a = some s') :
    (∃ e ∈ w.idx.tree.toList, e.addr = a ∧ Inv nameCmp s' (m.filter (fun i => decide (i ≠ e.item)))) ∨
      (w.idx.tree.toList = [] ∧ s' = w.idx) := by
  by_cases hex : ∃ e ∈ w.idx.tree.toList, e.addr = a
  · left
    obtain ⟨e, he, rfl⟩ := hex
    obtain ⟨s2, h1, h2⟩ := delete_inv nameCmp nameCmp_lawful w.idx m hs.inv e he
      (fun i => decide (i ≠ e.item)) (by simp) (by
        intro x hx hne
        simp only [decide_eq_true_eq]
        intro h
        exact hne (key_inj nameCmp_lawful hs.inv.sorted hx he (congrArg Item.key h)))
    rw [h1] at hd
    cases hd
    exact ⟨e, he, rfl, h2⟩
  · right
    unfold State.delete at hd
    by_cases hc : w.idx.count = 0
    · rw [if_pos hc] at hd
      have := hs.inv.count
      rw [hc] at this
      exact ⟨List.length_eq_zero_iff.1 this.symm, by cases hd; rfl⟩
    · rw [if_neg hc] at hd
      cases hl : locate a w.idx.tree [] with
      | none => rw [hl] at hd; cases hd
      | some x =>
        exfalso
        obtain ⟨n, hn, hb⟩ := hs.inv.rb
        obtain ⟨hz, ha, _⟩ := locate_some a w.idx.tree [] n x hl trivial hn (Or.inl hb)
        refine hex ⟨x.2.2.1, ?_, ha⟩
        have := toList_zip x.2.2.2.2 (Tree.node x.1 x.2.1 x.2.2.1 x.2.2.2.1)
        rw [hz] at this
        simp only [zip] at this
        rw [this]
        simp [Tree.toList]

theorem filter_addr_mem {fs : List PF} {p : Nat} {f : PF} :
    f ∈ fs.filter (fun f => f.addr != p) ↔ f ∈ fs ∧ f.addr ≠ p := by
  simp

theorem remove_sound (w w' : World) (m : List (Item Name Nat)) (hs : Sound w m) (pf : PF) (hr : removeFile w pf = some w') :
    w'.files = w.files.filter (fun f => f.addr != pf.addr) ∧ ∃ m', Sound w' m' ∧ m' ⊆ m := by
  unfold removeFile at hr
  split at hr
  case isFalse => cases hr
  have hnd : ((w.files.filter (fun f => f.addr != pf.addr)).map (·.addr)).Nodup :=
    List.Nodup.sublist (List.Sublist.map _ List.filter_sublist) hs.addrs
  -- items of other files survive
  have keep : ∀ i ∈ m, i.data ≠ pf.addr → i.handle = some i.data ∧
      ∃ f ∈ w.files.filter (fun f => f.addr != pf.addr), f.addr = i.data ∧ f.name = i.key := by
    intro i hi hne
    obtain ⟨a1, f, a2, a3, a4⟩ := hs.items i hi
    exact ⟨a1, f, filter_addr_mem.2 ⟨a2, by rw [a3]; exact hne⟩, a3, a4⟩
  have hentry : ∀ i ∈ m, i.data = pf.addr → ∃ e ∈ w.idx.tree.toList, e.item = i ∧ w.idx.handles pf.addr = some e.addr := by
    intro i hi hd
    have := (hs.inv.abs.mem_iff).2 hi
    rw [List.mem_map] at this
    obtain ⟨e, he, rfl⟩ := this
    refine ⟨e, he, rfl, ?_⟩
    have := (hs.items _ hi).1
    rw [hd] at this
    exact hs.inv.handles e he pf.addr this
  split at hr
  · rename_i hnone
    cases hr
    refine ⟨rfl, m, ⟨hs.inv, ?_, hnd⟩, fun _ h => h⟩
    intro i hi
    refine keep i hi ?_
    intro hd
    obtain ⟨e, _, _, h⟩ := hentry i hi hd
    rw [hnone] at h
    cases h
  · rename_i a ha
    split at hr
    · cases hr
    · rename_i s' hdel
      cases hr
      rcases delete_cases w m hs a s' hdel with ⟨e, he, hea, hinv⟩ | ⟨hem, rfl⟩
      · refine ⟨rfl, _, ⟨hinv, ?_, hnd⟩, by intro x hx; exact (List.mem_filter.1 hx).1⟩
        intro i hi
        rw [List.mem_filter] at hi
        refine keep i hi.1 ?_
        intro hd
        obtain ⟨e2, he2, hi2, h⟩ := hentry i hi.1 hd
        rw [ha] at h
        have : e = e2 := addr_inj hs.inv.addrs he he2 (by rw [hea]; injection h)
        subst this
        have := hi.2
        simp only [decide_eq_true_eq] at this
        exact this hi2.symm
      · refine ⟨rfl, m, ⟨hs.inv, ?_, hnd⟩, fun _ h => h⟩
        have : m = [] := by
          have := hs.inv.abs
          rw [hem] at this
          simpa using this.symm.eq_nil
        subst this
        simp

theorem changes_sound : ∀ (ops : List Change) (w w' : World) (m : List (Item Name Nat)), Sound w m → Fair w ops →
    changes w ops = some w' → w'.files = mounted w.files ops ∧ ∃ m', Sound w' m' := by
  intro ops
  induction ops with
  | nil => intro w w' m hs _ h; cases h; exact ⟨rfl, m, hs⟩
  | cons c cs ih =>
    intro w w' m hs hf h
    obtain ⟨hf1, hf2⟩ := hf
    unfold changes at h
    cases c with
    | add pf a =>
      obtain ⟨w2, h1, h2, h3, _⟩ := add_sound w m hs pf a hf1.1 hf1.2
      have h1' : change w (.add pf a) = some w2 := h1
      rw [h1'] at h
      obtain ⟨h4, h5⟩ := ih w2 w' _ h3 (hf2 w2 h1') h
      exact ⟨by rw [h4, h2]; rfl, h5⟩
    | remove p =>
      cases hc : change w (.remove p) with
      | none => rw [hc] at h; cases h
      | some w2 =>
        rw [hc] at h
        have hc' := hc
        simp only [change] at hc'
        obtain ⟨f, hf, hfp⟩ := hf1
        subst hfp
        rw [find_pf hs.addrs hf] at hc'
        obtain ⟨h1, m', h2, _⟩ := remove_sound w w2 m hs f hc'
        obtain ⟨h4, h5⟩ := ih w2 w' m' h2 (hf2 w2 hc) h
        exact ⟨by rw [h4, h1]; rfl, h5⟩

/-! ## Histories without repeated names -/

/-- Every mounted file has its own entry. -/
structure Good (w : World) (m : List (Item Name Nat)) : Prop where
  sound : Sound w m
  all : ∀ f ∈ w.files, (⟨f.name, f.addr, some f.addr⟩ : Item Name Nat) ∈ m

theorem Good.entry {w : World} {m : List (Item Name Nat)} (hg : Good w m) {f : PF} (hf : f ∈ w.files) :
    ∃ e ∈ w.idx.tree.toList, e.key = f.name ∧ e.data = f.addr ∧ w.idx.handles f.addr = some e.addr := by
  have := (hg.sound.inv.abs.mem_iff).2 (hg.all f hf)
  rw [List.mem_map] at this
  obtain ⟨e, he, h⟩ := this
  exact ⟨e, he, congrArg Item.key h, congrArg Item.data h,
    hg.sound.inv.handles e he f.addr (congrArg Item.handle h)⟩

theorem Good.find {w : World} {m : List (Item Name Nat)} (hg : Good w m) {f : PF} (hf : f ∈ w.files) :
    findKey w f.name.1 = some f.addr := by
  obtain ⟨e, he, hk, hd, _⟩ := hg.entry hf
  unfold findKey
  rw [dif_neg f.name.2]
  have : (⟨f.name.1, f.name.2⟩ : Name) = e.key := hk.symm
  rw [this, find_mem nameCmp_lawful hg.sound.inv.sorted he]
  simp [hd]

/-- A found key belongs to a mounted file of that name. -/
theorem Sound.found {w : World} {m : List (Item Name Nat)} (hs : Sound w m) {k : Bytes} {q : Nat}
    (h : findKey w k = some q) : ∃ f ∈ w.files, f.addr = q ∧ f.name.1 = k := by
  unfold findKey at h
  split at h
  · cases h
  · rename_i hk
    cases hf : RB.find nameCmp ⟨k, hk⟩ w.idx.tree with
    | none => rw [hf] at h; cases h
    | some e =>
      rw [hf] at h
      simp only [Option.map_some, Option.some.injEq] at h
      obtain ⟨he, hke⟩ := find_some nameCmp_lawful hf
      obtain ⟨_, f, h1, h2, h3⟩ := hs.items _ ((hs.inv.abs.mem_iff).1 (List.mem_map_of_mem he))
      refine ⟨f, h1, ?_, ?_⟩
      · rw [h2]; exact h
      · rw [h3]
        show e.key.1 = k
        rw [hke]

theorem good_init : Good World.init [] := ⟨sound_init, by simp [World.init]⟩

theorem add_good (w : World) (m : List (Item Name Nat)) (hg : Good w m) (pf : PF) (a : Nat)
    (h1 : ∀ f ∈ w.files, f.addr ≠ pf.addr) (h2 : ∀ e ∈ w.idx.tree.toList, e.addr ≠ a)
    (h3 : ∀ f ∈ w.files, f.name ≠ pf.name) :
    ∃ w' m', addFile w pf a = some w' ∧ w'.files = w.files ++ [pf] ∧ Good w' m' := by
  obtain ⟨w', e1, e2, e3, _⟩ := add_sound w m hg.sound pf a h1 h2
  refine ⟨w', _, e1, e2, e3, ?_⟩
  have hno : ¬ ∃ i ∈ m, i.key = pf.name := by
    rintro ⟨i, hi, hk⟩
    obtain ⟨_, f, hf, _, hfn⟩ := hg.sound.items i hi
    exact h3 f hf (by rw [hfn, hk])
  intro f hf
  rw [e2] at hf
  simp only [specStep, hno, if_false, List.mem_append, List.mem_singleton]
  rcases List.mem_append.1 hf with hf | hf
  · exact Or.inl (hg.all f hf)
  · simp only [List.mem_singleton] at hf
    subst hf
    exact Or.inr rfl

theorem remove_good (w : World) (m : List (Item Name Nat)) (hg : Good w m) (pf : PF) (hp : pf ∈ w.files) :
    ∃ w' m', removeFile w pf = some w' ∧ w'.files = w.files.filter (fun f => f.addr != pf.addr) ∧ Good w' m' := by
  obtain ⟨e, he, hk, hd, hh⟩ := hg.entry hp
  obtain ⟨s2, d1, d2⟩ := delete_inv nameCmp nameCmp_lawful w.idx m hg.sound.inv e he
    (fun i => decide (i ≠ e.item)) (by simp) (by
      intro x hx hne
      simp only [decide_eq_true_eq]
      intro h
      exact hne (key_inj nameCmp_lawful hg.sound.inv.sorted hx he (congrArg Item.key h)))
  have hr : removeFile w pf = some ⟨w.files.filter (fun f => f.addr != pf.addr), s2⟩ := by
    unfold removeFile
    rw [if_pos (by rw [List.any_eq_true]; exact ⟨pf, hp, by simp⟩), hh]
    simp only [d1]
  refine ⟨_, m.filter (fun i => decide (i ≠ e.item)), hr, rfl, ⟨d2, ?_, ?_⟩, ?_⟩
  · intro i hi
    rw [List.mem_filter] at hi
    obtain ⟨a1, f, a2, a3, a4⟩ := hg.sound.items i hi.1
    refine ⟨a1, f, filter_addr_mem.2 ⟨a2, ?_⟩, a3, a4⟩
    intro hfp
    have : f = pf := pf_inj hg.sound.addrs a2 hp hfp
    subst this
    have := hi.2
    simp only [decide_eq_true_eq] at this
    apply this
    -- both items of the same file have the same key
    have hx := (hg.sound.inv.abs.mem_iff).2 hi.1
    rw [List.mem_map] at hx
    obtain ⟨x, hx, rfl⟩ := hx
    have : x = e := key_inj nameCmp_lawful hg.sound.inv.sorted hx he (by rw [hk]; exact a4.symm)
    rw [this]
  · exact List.Nodup.sublist (List.Sublist.map _ List.filter_sublist) hg.sound.addrs
  · intro f hf
    rw [filter_addr_mem] at hf
    rw [List.mem_filter]
    refine ⟨hg.all f hf.1, ?_⟩
    simp only [decide_eq_true_eq]
    intro h
    have : f.addr = e.data := congrArg Item.data h
    rw [hd] at this
    exact hf.2 this

/-- The live names of the specification are the names of the mounted files. -/
theorem changes_good : ∀ (ops : List Change) (w : World) (m : List (Item Name Nat)), Good w m → Fair w ops →
    NoDup (w.files.map (fun f => (f.name.1, f.addr))) ops →
    ∃ w' m', changes w ops = some w' ∧ w'.files = mounted w.files ops ∧ Good w' m' := by
  intro ops
  induction ops with
  | nil => intro w m hg _ _; exact ⟨w, m, rfl, rfl, hg⟩
  | cons c cs ih =>
    intro w m hg hf hn
    obtain ⟨hf1, hf2⟩ := hf
    cases c with
    | add pf a =>
      obtain ⟨hn1, hn2⟩ := hn
      obtain ⟨w2, m2, h1, h2, h3⟩ := add_good w m hg pf a hf1.1 hf1.2 (by
        intro f hf h
        exact hn1 (f.name.1, f.addr) (List.mem_map_of_mem hf) (by simp [h]))
      have h1' : change w (.add pf a) = some w2 := h1
      obtain ⟨w3, m3, h4, h5, h6⟩ := ih w2 m2 h3 (hf2 w2 h1') (by rw [h2]; simpa using hn2)
      exact ⟨w3, m3, by unfold changes; rw [h1']; exact h4, by rw [h5, h2]; rfl, h6⟩
    | remove p =>
      obtain ⟨f, hf, rfl⟩ := hf1
      obtain ⟨w2, m2, h1, h2, h3⟩ := remove_good w m hg f hf
      have h1' : change w (.remove f.addr) = some w2 := by
        simp only [change]
        rw [find_pf hg.sound.addrs hf]
        exact h1
      obtain ⟨w3, m3, h4, h5, h6⟩ := ih w2 m2 h3 (hf2 w2 h1') (by
        rw [h2]
        have : (w.files.filter (fun x => x.addr != f.addr)).map (fun f => (f.name.1, f.addr))
            = (w.files.map (fun f => (f.name.1, f.addr))).filter (fun x => x.2 != f.addr) := by
          rw [List.filter_map]; rfl
        rw [this]
        exact hn)
      exact ⟨w3, m3, by unfold changes; rw [h1']; exact h4, by rw [h5, h2]; rfl, h6⟩

/-! ## The loop of the removal -/

theorem nextOf_split : ∀ (A : List PF) (f : PF) (R : List PF), ((A ++ f :: R).map (·.addr)).Nodup →
    nextOf (A ++ f :: R) f.addr = R.head?.map (·.addr) := by
  intro A
  induction A with
  | nil =>
    intro f R _
    cases R with
    | nil => rfl
    | cons g R => simp [nextOf]
  | cons x A ih =>
    intro f R hn
    simp only [List.cons_append, List.map_cons, List.nodup_cons] at hn
    have hx : x.addr ≠ f.addr := fun h => hn.1 (by rw [h]; simp)
    have := ih f R hn.2
    cases hA : A ++ f :: R with
    | nil => simp at hA
    | cons y B =>
      rw [List.cons_append, hA]
      simp only [nextOf, hx, if_false]
      rw [← hA]
      exact this

theorem sameDir_iff (d f : PF) : sameDir d f = true ↔
    d.name.1.length ≠ f.name.1.length ∧ f.name.1.take d.name.1.length = d.name.1 := by
  unfold sameDir
  rw [Bool.and_eq_true, decide_eq_true_eq, decide_eq_true_eq, strncmp_prefix _ _ _ d.name.2 rfl]

/-- Removing one file of the mount point takes it out of the list. -/
theorem mountFiles_remove {w w2 : World} {m : List (Item Name Nat)} (hg : Good w m) {d f : PF} {A R : List PF}
    (hm : mountFiles w d.mount = A ++ f :: R) (hf : f ∈ w.files)
    (r2 : w2.files = w.files.filter (fun g => g.addr != f.addr)) : mountFiles w2 d.mount = A ++ R := by
  have hnd : ((mountFiles w d.mount).map (·.addr)).Nodup :=
    List.Nodup.sublist (List.Sublist.map _ List.filter_sublist) hg.sound.addrs
  have hfR : f ∉ A ++ R := by
    rw [hm] at hnd
    intro h
    simp only [List.map_append, List.map_cons] at hnd
    rw [List.nodup_append] at hnd
    rcases List.mem_append.1 h with h | h
    · exact hnd.2.2 f.addr (List.mem_map_of_mem h) f.addr (by simp) rfl
    · exact (List.nodup_cons.1 hnd.2.1).1 (List.mem_map_of_mem h)
  have hne : ∀ x ∈ A ++ R, x.addr ≠ f.addr := by
    intro x hx h
    have hx2 : x ∈ w.files := by
      have : x ∈ mountFiles w d.mount := by
        rw [hm]
        rcases List.mem_append.1 hx with h | h
        · simp [h]
        · simp [h]
      unfold mountFiles at this
      exact (List.mem_filter.1 this).1
    have := pf_inj hg.sound.addrs hx2 hf h
    subst this
    exact hfR hx
  have hm2 : mountFiles w2 d.mount = A ++ R := by
    unfold mountFiles
    rw [r2, List.filter_filter]
    have : (w.files.filter (fun a => (a.mount == d.mount) && (a.addr != f.addr)))
        = (mountFiles w d.mount).filter (fun a => a.addr != f.addr) := by
      unfold mountFiles
      rw [List.filter_filter]
      congr 1
      funext a
      exact Bool.and_comm _ _
    rw [this, hm, List.filter_append, List.filter_cons]
    simp only [bne_self_eq_false, Bool.false_eq_true, if_false]
    rw [← List.filter_append, List.filter_eq_self]
    intro x hx
    simpa using hne x hx
  exact hm2

/-- The loop, started at the suffix `R` of the files of the mount point, removes exactly the files of `R`
that pass the test, if none of them is a directory. -/
theorem rmLoop_spec (kern : PF → Bool) (d : PF) (k : Nat) : ∀ (R : List PF) (A : List PF) (w : World)
    (m : List (Item Name Nat)) (n : Nat), Good w m → mountFiles w d.mount = A ++ R → R.length < n →
    (∀ f ∈ R, sameDir d f = true → f.dir = false ∧ (f.deleted = true ∨ kern f = true)) →
    ∃ w' m', rmLoop (rmWatch kern (k + 1)) d n w (R.head?.map (·.addr)) = .ok w' ∧ Good w' m' ∧
      w'.files = w.files.filter (fun f => !(R.contains f && sameDir d f)) := by
  intro R
  induction R with
  | nil =>
    intro A w m n hg _ hn _
    cases n with
    | zero => simp at hn
    | succ n =>
      refine ⟨w, m, rfl, hg, ?_⟩
      symm
      rw [List.filter_eq_self]
      intro f _
      simp
  | cons f R ih =>
    intro A w m n hg hm hn hdir
    cases n with
    | zero => simp at hn
    | succ n =>
      have hf : f ∈ w.files := by
        have : f ∈ mountFiles w d.mount := by rw [hm]; simp
        unfold mountFiles at this
        exact (List.mem_filter.1 this).1
      have hfm : f.mount = d.mount := by
        have : f ∈ mountFiles w d.mount := by rw [hm]; simp
        unfold mountFiles at this
        simpa using (List.mem_filter.1 this).2
      have hnd : ((mountFiles w d.mount).map (·.addr)).Nodup :=
        List.Nodup.sublist (List.Sublist.map _ List.filter_sublist) hg.sound.addrs
      have hnext : nextOf (mountFiles w d.mount) f.addr = R.head?.map (·.addr) := by
        rw [hm] at hnd ⊢
        exact nextOf_split A f R hnd
      simp only [List.head?_cons, Option.map_some]
      unfold rmLoop
      rw [find_pf hg.sound.addrs hf]
      simp only [hnext]
      by_cases hsd : sameDir d f = true
      · obtain ⟨h1, h2⟩ := hdir f (by simp) hsd
        obtain ⟨w2, m2, r1, r2, r3⟩ := remove_good w m hg f hf
        have hrm : rmWatch kern (k + 1) w f = .ok w2 := by
          unfold rmWatch
          rw [h1]
          simp only [Bool.false_eq_true, if_false]
          unfold rmSelf
          rw [if_neg (by rcases h2 with h | h <;> simp [h]), r1]
        rw [if_pos hsd, hrm]
        simp only
        have hm2 : mountFiles w2 d.mount = A ++ R := mountFiles_remove hg hm hf r2
        obtain ⟨w3, m3, e1, e2, e3⟩ := ih A w2 m2 n r3 hm2 (by simpa using hn)
          (fun g hg2 => hdir g (by simp [hg2]))
        refine ⟨w3, m3, e1, e2, ?_⟩
        rw [e3, r2, List.filter_filter]
        apply List.filter_congr
        intro x hx
        by_cases hxf : x = f
        · subst hxf
          simp [hsd]
        · have : x.addr ≠ f.addr := fun h => hxf (pf_inj hg.sound.addrs hx hf h)
          simp [this, hxf]
      · rw [if_neg hsd]
        obtain ⟨w3, m3, e1, e2, e3⟩ := ih (A ++ [f]) w m n hg (by rw [hm]; simp) (by simpa using hn)
          (fun g hg2 => hdir g (by simp [hg2]))
        refine ⟨w3, m3, e1, e2, ?_⟩
        rw [e3]
        apply List.filter_congr
        intro x hx
        by_cases hxf : x = f
        · subst hxf
          simp only [Bool.not_eq_true] at hsd
          simp [hsd]
        · simp [hxf]

/-- The loop never finishes if a directory with a slash in its name passes the test. -/
theorem rmLoop_never (kern : PF → Bool) (d s : PF) (k : Nat) (hs1 : sameDir d s = true) (hs2 : s.dir = true)
    (hs3 : 47 ∈ s.name.1) : ∀ (R : List PF) (A : List PF) (w : World)
    (m : List (Item Name Nat)) (n : Nat), Good w m → mountFiles w d.mount = A ++ R → s ∈ R →
    (∀ f ∈ R, sameDir d f = true → f.dir = true → 47 ∈ f.name.1) → ∀ w',
    rmLoop (rmWatch kern k) d n w (R.head?.map (·.addr)) ≠ .ok w' := by
  intro R
  induction R with
  | nil => intro A w m n _ _ h; cases h
  | cons f R ih =>
    intro A w m n hg hm hin hdir w'
    cases n with
    | zero => simp [rmLoop]
    | succ n =>
      have hf : f ∈ w.files := by
        have : f ∈ mountFiles w d.mount := by rw [hm]; simp
        unfold mountFiles at this
        exact (List.mem_filter.1 this).1
      have hnd : ((mountFiles w d.mount).map (·.addr)).Nodup :=
        List.Nodup.sublist (List.Sublist.map _ List.filter_sublist) hg.sound.addrs
      have hnext : nextOf (mountFiles w d.mount) f.addr = R.head?.map (·.addr) := by
        rw [hm] at hnd ⊢
        exact nextOf_split A f R hnd
      simp only [List.head?_cons, Option.map_some]
      unfold rmLoop
      rw [find_pf hg.sound.addrs hf]
      simp only [hnext]
      by_cases hsd : sameDir d f = true
      · rw [if_pos hsd]
        cases k with
        | zero => simp [rmWatch]
        | succ k =>
          by_cases hd : f.dir = true
          · have : rmWatch kern (k + 1) w f = .hang := by
              unfold rmWatch
              rw [if_pos hd, if_pos (hdir f (by simp) hsd hd)]
            rw [this]; simp
          · have : rmWatch kern (k + 1) w f = rmSelf kern w f := by
              unfold rmWatch
              rw [if_neg hd]
            rw [this]
            unfold rmSelf
            by_cases hk : (!f.deleted && !kern f) = true
            · rw [if_pos hk]; simp
            · rw [if_neg hk]
              obtain ⟨w2, m2, r1, r2, r3⟩ := remove_good w m hg f hf
              rw [r1]
              simp only
              have hsR : s ∈ R := by
                rcases List.mem_cons.1 hin with h | h
                · subst h; exact absurd hs2 hd
                · exact h
              exact ih A w2 m2 n r3 (mountFiles_remove hg hm hf r2) hsR (fun g hg2 => hdir g (by simp [hg2])) w'
      · rw [if_neg hsd]
        have hsR : s ∈ R := by
          rcases List.mem_cons.1 hin with h | h
          · subst h; exact absurd hs1 hsd
          · exact h
        exact ih (A ++ [f]) w m n hg (by rw [hm]; simp) hsR (fun g hg2 => hdir g (by simp [hg2])) w'

theorem skipSlashes_stripped : ∀ (p : Bytes), Stripped p (skipSlashes p) := by
  intro p
  induction p with
  | nil => exact ⟨0, rfl, by simp [skipSlashes]⟩
  | cons c r ih =>
    unfold skipSlashes
    by_cases h : c = 47
    · rw [if_pos h]
      obtain ⟨n, h1, h2⟩ := ih
      refine ⟨n + 1, ?_, h2⟩
      rw [List.replicate_succ, List.cons_append, ← h1, h]
    · rw [if_neg h]
      exact ⟨0, rfl, by simp [h]⟩

theorem stripped_unique {path p : Bytes} (h : Stripped path p) : p = skipSlashes path := by
  obtain ⟨n, rfl, h2⟩ := h
  induction n with
  | zero =>
    cases p with
    | nil => rfl
    | cons c r =>
      simp only [List.head?_cons, ne_eq, Option.some.injEq] at h2
      simp [skipSlashes, h2]
  | succ n ih => rw [List.replicate_succ, List.cons_append]; simp only [skipSlashes, if_true]; exact ih

end Fly.Mount
