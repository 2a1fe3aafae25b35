import Verif.Hpack.HuffLemmas

set_option linter.all false

namespace Fly.Hpack
open Fly.Buffer Fly.H2

/-! ## integers -/

theorem rfcCont_len_pos (f v : Nat) : 0 < (rfcCont f v).length := by
  cases f with
  | zero => simp [rfcCont]
  | succ f => simp only [rfcCont]; split <;> simp

theorem intLoop_spec (k : Nat) : ∀ (f v : Nat) (c : Cursor) (b0 : Nat) (rest : Bytes) (number power upd : Nat),
    v ≤ f → v < 128 ^ k → v * 2 ^ power < 2 ^ 31 → number + v * 2 ^ power < 2 ^ 32 → NE c →
    c.flat = b0 :: (rfcCont f v ++ rest) → rest ≠ [] → 0 < k →
    ∃ c', intLoop k c number power upd = some (number + v * 2 ^ power, upd + (rfcCont f v).length + 1, some c') ∧
      NE c' ∧ c'.flat = rest := by
  induction k with
  | zero => intro f v c b0 rest number power upd _ _ _ _ _ _ _ h; omega
  | succ k ih =>
    intro f v c b0 rest number power upd hf hv hp hn hne hfl hr _
    have hb : rfcCont f v ++ rest ≠ [] := by simp [hr]
    obtain ⟨c1, e1, e2, e3⟩ := (advance_one hne b0 _ hfl).2 hb
    unfold intLoop
    rw [e1]
    simp only
    by_cases h128 : v < 128
    · have hw : rfcCont f v = [v] := by cases f <;> simp [rfcCont, h128]
      rw [hw] at e3 ⊢
      obtain ⟨x, t, u, g1, g2⟩ := head_flat e2
      rw [e3] at g2
      simp at g2
      obtain ⟨rfl, rfl⟩ := g2
      rw [g1]
      simp only [Nat.mod_eq_of_lt h128]
      rw [if_neg (by omega), if_neg (by omega), Nat.mod_eq_of_lt hn]
      obtain ⟨c2, f1, f2, f3⟩ := (advance_one e2 v rest (by rw [e3]; rfl)).2 hr
      rw [f1]
      exact ⟨c2, by simp, f2, f3⟩
    · obtain ⟨f, rfl⟩ : ∃ f', f = f' + 1 := ⟨f - 1, by omega⟩
      have hw : rfcCont (f + 1) v = (v % 128 + 128) :: rfcCont f (v / 128) := by
        simp only [rfcCont]; rw [if_neg h128]
      rw [hw] at e3 ⊢
      obtain ⟨x, t, u, g1, g2⟩ := head_flat e2
      rw [e3] at g2
      simp at g2
      obtain ⟨rfl, g2⟩ := g2
      rw [g1]
      simp only
      have hmod : (v % 128 + 128) % 128 = v % 128 := by omega
      rw [hmod]
      have hsplit : v * 2 ^ power = v % 128 * 2 ^ power + v / 128 * 2 ^ (power + 7) := by
        conv => lhs; rw [← Nat.mod_add_div v 128]
        rw [Nat.add_mul, Nat.pow_add]
        congr 1
        rw [show (2:Nat) ^ 7 = 128 from rfl, Nat.mul_comm 128, Nat.mul_assoc, Nat.mul_comm 128]
      have hk : 0 < k := by
        cases k with
        | zero => simp at hv; omega
        | succ k => omega
      rw [if_neg (by omega), if_pos (by omega), Nat.mod_eq_of_lt (by omega)]
      obtain ⟨c2, f1, f2, f3⟩ := ih f (v / 128) c1 (v % 128 + 128) rest (number + v % 128 * 2 ^ power) (power + 7) (upd + 1)
        (by omega) (by
          apply Nat.div_lt_of_lt_mul
          rw [Nat.pow_succ, Nat.mul_comm] at hv; exact hv) (by omega) (by omega) e2 (by rw [e3]; rfl) hr hk
      refine ⟨c2, ?_, f2, f3⟩
      rw [f1]
      congr 2
      · omega
      · simp only [List.length_cons]
        congr 1; omega

theorem decodeInt_spec (n pat i : Nat) (hn : 0 < n) (hn8 : n ≤ 7) (hp : pat % 2 ^ n = 0) (hi : i < 2 ^ 31)
    (c : Cursor) (hc : NE c) (rest : Bytes) (hr : rest ≠ []) (hf : c.flat = rfcInt n pat i ++ rest) :
    ∃ c', decodeInt n c = some (i, (rfcInt n pat i).length, some c') ∧ NE c' ∧ c'.flat = rest := by
  have hpos : 2 ≤ 2 ^ n := Nat.le_trans (by omega) (Nat.pow_le_pow_right (by omega) hn)
  obtain ⟨x, t, u, g1, g2⟩ := head_flat hc
  unfold decodeInt
  rw [g1]
  simp only
  unfold rfcInt at hf ⊢
  by_cases h : i < 2 ^ n - 1
  · rw [if_pos h] at hf ⊢
    have hx : x = pat + i := by rw [hf] at g2; simp at g2; exact g2.1.symm
    have hm : x % 2 ^ n = i := by
      rw [hx, Nat.add_mod, hp, Nat.zero_add, Nat.mod_mod, Nat.mod_eq_of_lt (by omega)]
    rw [hm, if_neg (by omega)]
    obtain ⟨c', e1, e2, e3⟩ := (advance_one hc (pat + i) rest (by rw [hf]; rfl)).2 hr
    rw [e1]
    exact ⟨c', by simp, e2, e3⟩
  · rw [if_neg h] at hf ⊢
    have hx : x = pat + (2 ^ n - 1) := by rw [hf] at g2; simp at g2; exact g2.1.symm
    have hm : x % 2 ^ n = 2 ^ n - 1 := by
      rw [hx, Nat.add_mod, hp, Nat.zero_add, Nat.mod_mod, Nat.mod_eq_of_lt (by omega)]
    rw [if_pos hm]
    have h2n : 2 ^ n ≤ 2 ^ 7 := Nat.pow_le_pow_right (by omega) hn8
    obtain ⟨c', e1, e2, e3⟩ := intLoop_spec 5 i (i - (2 ^ n - 1)) c (pat + (2 ^ n - 1)) rest (2 ^ n - 1) 0 0 (by omega)
      (by simp at hi ⊢; omega) (by simp at hi ⊢; omega) (by simp at hi h2n ⊢; omega) hc (by rw [hf]; rfl) hr (by omega)
    refine ⟨c', ?_, e2, e3⟩
    rw [e1]
    congr 2
    · simp; omega
    · simp

theorem rfcInt_head (n pat i : Nat) : ∃ t, rfcInt n pat i = (pat + min i (2 ^ n - 1)) :: t := by
  unfold rfcInt
  split
  · exact ⟨[], by rw [Nat.min_eq_left (by omega)]⟩
  · exact ⟨_, by rw [Nat.min_eq_right (by omega)]⟩

/-! ## dynamic table -/

abbrev Node := Nat × Entry

/-- Doubly linked from `p` on through the listed nodes, carrying the listed entries. -/
def Chain (f : Nat → DNode) : Nat → List Node → Prop
  | _, [] => True
  | p, (id, e) :: xs =>
    (f p).next = id ∧ (f id).prev = p ∧ (f id).name = e.1 ∧ (f id).value = e.2 ∧ (f id).entrySize = entrySize e ∧
    Chain f id xs

def ids (xs : List Node) : List Nat := xs.map (·.1)
def ents (xs : List Node) : List Entry := xs.map (·.2)

structure Repr (t : DTab) (xs : List Node) : Prop where
  chain : Chain t.nodes 0 xs
  nodup : (0 :: ids xs).Nodup
  fresh : ∀ i ∈ ids xs, i < t.fresh
  fresh_pos : 0 < t.fresh
  count : t.count = xs.length
  maxIndex : t.maxIndex = xs.length + staticLen
  size : t.size = tableSize (ents xs)
  last : xs ≠ [] → t.last = (0 :: ids xs).getLast (by simp)

theorem Chain_congr (f g : Nat → DNode) (xs : List Node) : ∀ p, (g p).next = (f p).next → (∀ i ∈ ids xs, g i = f i) →
    Chain f p xs → Chain g p xs := by
  induction xs with
  | nil => intros; trivial
  | cons x xs ih =>
    obtain ⟨i, e⟩ := x
    intro p h1 h2 h
    simp only [Chain] at h ⊢
    have hi := h2 i (by simp [ids])
    rw [h1, hi]
    refine ⟨h.1, h.2.1, h.2.2.1, h.2.2.2.1, h.2.2.2.2.1, ?_⟩
    exact ih i (by rw [hi]) (fun k hk => h2 k (by simp [ids] at hk ⊢; exact .inr hk)) h.2.2.2.2.2

theorem Chain_prev (f : Nat → DNode) (ys : List Node) (x : Node) : ∀ p, Chain f p (ys ++ [x]) →
    (f x.1).prev = (p :: ids ys).getLast (by simp) ∧ (f x.1).entrySize = entrySize x.2 := by
  induction ys with
  | nil =>
    obtain ⟨i, e⟩ := x
    intro p h
    simp only [List.nil_append, Chain] at h
    exact ⟨by simpa [ids] using h.2.1, h.2.2.2.2.1⟩
  | cons y ys ih =>
    obtain ⟨i, e⟩ := y
    intro p h
    simp only [List.cons_append, Chain] at h
    have := ih i h.2.2.2.2.2
    refine ⟨?_, this.2⟩
    rw [this.1]
    simp [ids]

theorem Chain_dropLast (f : Nat → DNode) (ys : List Node) (x : Node) : ∀ p, Chain f p (ys ++ [x]) → (p :: ids ys).Nodup →
    Chain (setNode f ((p :: ids ys).getLast (by simp)) { f ((p :: ids ys).getLast (by simp)) with next := 0 }) p ys := by
  induction ys with
  | nil => intros; trivial
  | cons y ys ih =>
    obtain ⟨i, e⟩ := y
    intro p h hnd
    simp only [List.cons_append, Chain] at h ⊢
    have hlast : (p :: ids ((i, e) :: ys)).getLast (by simp) = (i :: ids ys).getLast (by simp) := by simp [ids]
    simp only [hlast]
    have hnd' : (i :: ids ys).Nodup := by
      have := (List.nodup_cons.1 hnd).2
      simpa [ids] using this
    have hp : p ≠ (i :: ids ys).getLast (by simp) := by
      intro he
      have := (List.nodup_cons.1 hnd).1
      apply this
      rw [he]
      have := List.getLast_mem (l := i :: ids ys) (by simp)
      simpa [ids] using this
    have hih := ih i h.2.2.2.2.2 hnd'
    refine ⟨?_, ?_, ?_, ?_, ?_, hih⟩
    · simp only [setNode, if_neg hp]; exact h.1
    · simp only [setNode]; split
      · next he => simp only; rw [← he]; exact h.2.1
      · exact h.2.1
    · simp only [setNode]; split
      · next he => simp only; rw [← he]; exact h.2.2.1
      · exact h.2.2.1
    · simp only [setNode]; split
      · next he => simp only; rw [← he]; exact h.2.2.2.1
      · exact h.2.2.2.1
    · simp only [setNode]; split
      · next he => simp only; rw [← he]; exact h.2.2.2.2.1
      · exact h.2.2.2.2.1

theorem tableSize_append (a b : List Entry) : tableSize (a ++ b) = tableSize a + tableSize b := by
  simp [tableSize]

theorem removeEntry_repr (t : DTab) (ys : List Node) (x : Node) (h : Repr t (ys ++ [x])) :
    Repr t.removeEntry ys ∧ t.removeEntry.limit = t.limit ∧ t.removeEntry.fresh = t.fresh := by
  have hids : ids (ys ++ [x]) = ids ys ++ [x.1] := by simp [ids]
  have hlast : t.last = x.1 := by
    rw [h.last (by simp)]
    have e : 0 :: ids (ys ++ [x]) = (0 :: ids ys) ++ [x.1] := by rw [hids]; rfl
    simp only [e]
    simp only [List.getLast_concat]
  have hnd : (0 :: ids ys).Nodup := by
    have := h.nodup
    rw [hids, ← List.cons_append] at this
    exact (List.nodup_append.1 this).1
  obtain ⟨hp1, hp2⟩ := Chain_prev t.nodes ys x 0 h.chain
  refine ⟨?_, rfl, rfl⟩
  refine ⟨?_, hnd, ?_, h.fresh_pos, ?_, ?_, ?_, ?_⟩
  · simp only [DTab.removeEntry, hlast, hp1]
    exact Chain_dropLast t.nodes ys x 0 h.chain hnd
  · intro i hi
    exact h.fresh i (by rw [hids]; simp [hi])
  · simp [DTab.removeEntry, h.count]
  · simp only [DTab.removeEntry, h.maxIndex]; simp; try omega
  · simp only [DTab.removeEntry, hlast, hp2, h.size]
    have : ents (ys ++ [x]) = ents ys ++ [x.2] := by simp [ents]
    rw [this, tableSize_append]
    simp [tableSize]
  · intro _
    simp only [DTab.removeEntry, hlast, hp1]

theorem fit_all (l : List Entry) : ∀ limit, tableSize l ≤ limit → fit limit l = l := by
  induction l with
  | nil => intros; rfl
  | cons e l ih =>
    intro limit h
    simp only [tableSize, List.map_cons, List.sum_cons] at h
    simp only [fit]
    rw [if_pos (by omega), ih _ (by simp only [tableSize]; omega)]

theorem fit_dropLast (l : List Entry) (x : Entry) : ∀ limit, limit < tableSize (l ++ [x]) → fit limit (l ++ [x]) = fit limit l := by
  induction l with
  | nil => intro limit h; simp [tableSize] at h; simp [fit]; omega
  | cons e l ih =>
    intro limit h
    simp only [List.cons_append, fit]
    split
    · next he =>
      rw [ih]
      simp only [tableSize, List.cons_append, List.map_cons, List.sum_cons] at h ⊢
      omega
    · rfl

theorem evict_repr (n : Nat) : ∀ (t : DTab) (xs : List Node), Repr t xs → xs.length ≤ n →
    ∃ t' xs', DTab.evict n t = some t' ∧ Repr t' xs' ∧ ents xs' = fit t.limit (ents xs) ∧ t'.limit = t.limit ∧ t'.size ≤ t'.limit := by
  induction n with
  | zero =>
    intro t xs h hn
    have : xs = [] := List.eq_nil_of_length_eq_zero (by omega)
    subst this
    have hs : t.size = 0 := h.size
    refine ⟨t, [], ?_, h, rfl, rfl, by omega⟩
    unfold DTab.evict
    rw [if_pos (by omega)]
  | succ n ih =>
    intro t xs h hn
    unfold DTab.evict
    by_cases hsz : t.size ≤ t.limit
    · rw [if_pos hsz]
      exact ⟨t, xs, rfl, h, (fit_all _ _ (by rw [← h.size]; exact hsz)).symm, rfl, hsz⟩
    · rw [if_neg hsz]
      have hne : xs ≠ [] := by
        intro he; subst he
        have := h.size
        simp [tableSize, ents] at this; omega
      obtain ⟨ys, x, rfl⟩ : ∃ ys x, xs = ys ++ [x] := ⟨xs.dropLast, xs.getLast hne, (List.dropLast_concat_getLast hne).symm⟩
      have hc : t.count ≠ 0 := by rw [h.count]; simp
      rw [if_neg hc]
      simp only
      obtain ⟨r1, r2, r3⟩ := removeEntry_repr t ys x h
      obtain ⟨t', xs', e1, e2, e3, e4, e5⟩ := ih t.removeEntry ys r1 (by simp at hn; omega)
      refine ⟨t', xs', e1, e2, ?_, by rw [e4, r2], e5⟩
      rw [e3, r2]
      have : ents (ys ++ [x]) = ents ys ++ [x.2] := by simp [ents]
      rw [this, fit_dropLast]
      rw [← this, ← h.size]; omega

theorem addEntry_repr (t : DTab) (xs : List Node) (h : Repr t xs) (name value : Bytes) :
    ∃ t' xs', t.addEntry name value = some t' ∧ Repr t' xs' ∧ ents xs' = rfcInsert t.limit (ents xs) (name, value) ∧
      t'.limit = t.limit ∧ t'.size ≤ t'.limit := by
  have hfr : ∀ i ∈ ids xs, i ≠ t.fresh := fun i hi => by have := h.fresh i hi; omega
  have h0 : ∀ i ∈ ids xs, i ≠ 0 := fun i hi => by
    have := (List.nodup_cons.1 h.nodup).1
    intro he; subst he; exact this hi
  have hndx := (List.nodup_cons.1 h.nodup).2
  have hf0 : t.fresh ≠ 0 := by have := h.fresh_pos; omega
  let t1 : DTab := { t with
      nodes :=
        let nodes1 := setNode t.nodes t.fresh
          { name := name, value := value, entrySize := name.length + value.length + 32, prev := 0,
            next := if t.count = 0 then 0 else (t.nodes 0).next }
        let nodes2 := if t.count = 0 then nodes1 else setNode nodes1 (t.nodes 0).next { nodes1 (t.nodes 0).next with prev := t.fresh }
        setNode nodes2 0 { nodes2 0 with next := t.fresh }
      fresh := t.fresh + 1
      last := if t.count = 0 then t.fresh else t.last
      count := t.count + 1
      maxIndex := t.count + 1 + staticLen
      size := t.size + (name.length + value.length + 32) }
  have hr : Repr t1 ((t.fresh, (name, value)) :: xs) := by
    refine ⟨?_, ?_, ?_, by simp [t1], by simp [t1, h.count], by simp [t1, h.count], ?_, ?_⟩
    · cases xs with
      | nil =>
        have hc : t.count = 0 := h.count
        simp [Chain, t1, hc, setNode, hf0, entrySize]
      | cons y ys =>
        obtain ⟨yi, ye⟩ := y
        have hc : t.count ≠ 0 := by rw [h.count]; simp
        have hch := h.chain
        simp only [Chain] at hch
        obtain ⟨g1, g2, g3, g4, g5, g6⟩ := hch
        have hy0 : yi ≠ 0 := h0 yi (by simp [ids])
        have hyf : yi ≠ t.fresh := hfr yi (by simp [ids])
        have hnodes : t1.nodes = setNode (setNode (setNode t.nodes t.fresh
            { name := name, value := value, entrySize := name.length + value.length + 32, prev := 0, next := yi }) yi
            { t.nodes yi with prev := t.fresh }) 0 { t.nodes 0 with next := t.fresh } := by
          simp only [t1, hc, if_false, g1]
          simp [setNode, hyf, hy0.symm, hf0.symm, hf0, hyf.symm]
        simp only [Chain, hnodes]
        refine ⟨by simp [setNode], by simp [setNode, hf0, hyf.symm], by simp [setNode, hf0, hyf.symm], by simp [setNode, hf0, hyf.symm],
          by simp [setNode, hf0, hyf.symm, entrySize], ?_⟩
        refine ⟨by simp [setNode, hf0, hyf.symm], by simp [setNode, hy0], by simp [setNode, hy0, g3], by simp [setNode, hy0, g4],
          by simp [setNode, hy0, g5], ?_⟩
        refine Chain_congr t.nodes _ ys yi (by simp [setNode, hy0]) ?_ g6
        intro i hi
        have a := hfr i (by simp [ids] at hi ⊢; exact .inr hi)
        have b := h0 i (by simp [ids] at hi ⊢; exact .inr hi)
        have d : i ≠ yi := by
          intro he
          have : yi ∉ ids ys := by
            have := hndx
            simp only [ids, List.map_cons, List.nodup_cons] at this
            exact this.1
          exact this (he ▸ hi)
        simp [setNode, a, b, d]
    · simp only [ids, List.map_cons]
      have := h.nodup
      simp only [ids] at this
      rw [List.nodup_cons] at this ⊢
      refine ⟨?_, ?_⟩
      · simp only [List.mem_cons, not_or]; exact ⟨hf0.symm, this.1⟩
      · rw [List.nodup_cons]
        exact ⟨fun hm => hfr _ (by simpa [ids] using hm) rfl, this.2⟩
    · intro i hi
      simp only [ids, List.map_cons, List.mem_cons] at hi
      simp only [t1]
      rcases hi with rfl | hi
      · omega
      · have := h.fresh i hi; omega
    · simp only [t1, ents, List.map_cons, tableSize, List.sum_cons, h.size, entrySize]
      omega
    · intro _
      cases xs with
      | nil => simp [t1, h.count, ids]
      | cons y ys =>
        have hc : t.count ≠ 0 := by rw [h.count]; simp
        simp only [t1, hc, if_false, h.last (by simp)]
        simp [ids]
  obtain ⟨t', xs', e1, e2, e3, e4, e5⟩ := evict_repr (t.count + 1) t1 _ hr (by simp [h.count])
  exact ⟨t', xs', e1, e2, e3, e4, e5⟩

theorem init_repr (g : DNode) (limit : Nat) : Repr (DTab.init g limit) [] :=
  ⟨trivial, by simp [ids], by simp [ids], by simp [DTab.init], rfl, rfl, rfl, by simp⟩

theorem walk_chain (t : DTab) (xs : List Node) : ∀ p k, Chain t.nodes p xs → k < xs.length →
    ∃ e, (ents xs)[k]? = some e ∧ (t.walk k (t.nodes p).next).name = e.1 ∧ (t.walk k (t.nodes p).next).value = e.2 := by
  induction xs with
  | nil => intro p k _ h; simp at h
  | cons x xs ih =>
    obtain ⟨i, e⟩ := x
    intro p k h hk
    simp only [Chain] at h
    cases k with
    | zero =>
      refine ⟨e, by simp [ents], ?_, ?_⟩
      · simp only [DTab.walk, h.1]; exact h.2.2.1
      · simp only [DTab.walk, h.1]; exact h.2.2.2.1
    | succ k =>
      obtain ⟨e', h1, h2, h3⟩ := ih i k h.2.2.2.2.2 (by simpa using hk)
      refine ⟨e', by simpa [ents] using h1, ?_, ?_⟩
      · simp only [DTab.walk, h.1]; exact h2
      · simp only [DTab.walk, h.1]; exact h3

theorem lookup_repr (t : DTab) (xs : List Node) (h : Repr t xs) (k : Nat) :
    t.lookup (staticLen + k) = (ents xs)[k]? := by
  unfold DTab.lookup
  by_cases hk : k < xs.length
  · rw [if_pos (by rw [h.maxIndex]; omega)]
    obtain ⟨e, h1, h2, h3⟩ := walk_chain t xs 0 k h.chain hk
    have e1 : staticLen + k - staticLen = k := by omega
    simp only [e1, h1, h2, h3]
  · rw [if_neg (by rw [h.maxIndex]; omega)]
    rw [List.getElem?_eq_none (by simp [ents]; omega)]

/-! ## lookups over both tables -/

theorem static_agree : (List.range 61).all (fun k =>
    (k == 40 || (staticTable[k]?).map (·.1) == (rfcStatic[k]?).map (·.1)) &&
    (k == 40 || k == 15 || k == 16 || (staticTable[k]?).map (fun p => (p.1, p.2.getD [])) == rfcStatic[k]?)) = true := by
  decide +kernel

theorem rfcStatic_length : rfcStatic.length = 61 := by decide
theorem staticTable_length : staticTable.length = 61 := by decide

theorem tableEntry_spec (t : DTab) (xs : List Node) (h : Repr t xs) (i : Nat) (hi : i < 2 ^ 31) (e : Entry)
    (he : rfcLookup (ents xs) i = some e) :
    (i ≠ 41 → (tableEntry t (dec32 i)).1 = e.1) ∧ (i ≠ 16 → i ≠ 17 → i ≠ 41 → tableEntry t (dec32 i) = e) := by
  unfold rfcLookup at he
  split at he
  · simp at he
  · next h0 =>
    have hd : dec32 i = i - 1 := by unfold dec32; omega
    rw [hd]
    unfold tableEntry
    by_cases hs : i - 1 < 61
    · rw [if_pos (by unfold staticLen; omega)]
      rw [List.getElem?_append_left (by rw [rfcStatic_length]; exact hs)] at he
      have hall := List.all_eq_true.1 static_agree (i - 1) (by simp; omega)
      simp only [Bool.and_eq_true, Bool.or_eq_true, beq_iff_eq] at hall
      obtain ⟨a, b⟩ := hall
      have hst : (i - 1) < staticTable.length := by rw [staticTable_length]; exact hs
      rw [List.getElem?_eq_getElem hst] at a b ⊢
      rw [he] at a b
      simp only [Option.map_some, Option.some.injEq] at a b
      constructor
      · intro h41
        have : i - 1 ≠ 40 := by omega
        simp only [this, false_or] at a
        exact a
      · intro h16 h17 h41
        have x1 : i - 1 ≠ 40 := by omega
        have x2 : i - 1 ≠ 15 := by omega
        have x3 : i - 1 ≠ 16 := by omega
        simp only [x1, x2, x3, false_or] at b
        exact b
    · rw [if_neg (by unfold staticLen; omega)]
      rw [List.getElem?_append_right (by rw [rfcStatic_length]; omega), rfcStatic_length] at he
      have hl := lookup_repr t xs h (i - 1 - 61)
      have e1 : staticLen + (i - 1 - 61) = i - 1 := by unfold staticLen; omega
      rw [e1, he] at hl
      rw [hl]
      simp

/-! ## strings -/

def okStr (s : Str) : Prop :=
  s.bytes.length < 2 ^ 31 ∧
  (s.huffman = true → (∀ b ∈ s.bytes, b < 256 ∧ b ≠ 13) ∧ s.bytes.length < 20000 ∧ (rfcHuffman s.bytes).length < 2 ^ 31)

/-- The bytes after the length field. -/
def body (s : Str) : Bytes := if s.huffman then rfcHuffman s.bytes else s.bytes

theorem wire_eq (s : Str) : s.wire = rfcInt 7 (if s.huffman then 128 else 0) (body s).length ++ body s := by
  unfold Str.wire body; split <;> rfl

theorem body_len (s : Str) (h : okStr s) : (body s).length < 2 ^ 31 := by
  unfold body
  split
  · next hh => exact (h.2 hh).2.2
  · exact h.1

theorem stringHead_spec (s : Str) (h : okStr s) (c : Cursor) (hc : NE c) (rest : Bytes) (hr : rest ≠ [])
    (hf : c.flat = s.wire ++ rest) :
    ∃ c' u, stringHead (some c) = some (s.huffman, (body s).length, u, some c') ∧ NE c' ∧ c'.flat = body s ++ rest ∧
      u + (body s).length = s.wire.length := by
  rw [wire_eq, List.append_assoc] at hf
  obtain ⟨c', e1, e2, e3⟩ := decodeInt_spec 7 (if s.huffman then 128 else 0) (body s).length (by omega) (by omega)
    (by split <;> rfl) (body_len s h) c hc (body s ++ rest) (by simp [hr]) hf
  obtain ⟨x, t, u, g1, g2⟩ := head_flat hc
  obtain ⟨t', ht'⟩ := rfcInt_head 7 (if s.huffman then 128 else 0) (body s).length
  refine ⟨c', (rfcInt 7 (if s.huffman then 128 else 0) (body s).length).length, ?_, e2, e3, ?_⟩
  · unfold stringHead
    simp only [g1, e1]
    have hx : x = (if s.huffman then 128 else 0) + min (body s).length (2 ^ 7 - 1) := by
      rw [hf, ht'] at g2; simp at g2; exact g2.1.symm
    have : decide (128 ≤ x % 256) = s.huffman := by
      rw [hx]
      cases s.huffman <;> simp <;> omega
    rw [this]
  · rw [wire_eq]; simp

theorem value_spec (s : Str) (h : okStr s) (c : Cursor) (hc : NE c) (rest : Bytes) (hr : rest ≠ [])
    (hf : c.flat = body s ++ rest) :
    (if s.huffman then huffDecode (some c) (body s).length else bufCopy (some c) (body s).length) = some s.bytes := by
  have hrl := List.length_pos_iff.2 hr
  unfold body at hf ⊢
  cases hh : s.huffman with
  | true =>
    simp only [hh, if_true] at hf ⊢
    obtain ⟨a, b, d⟩ := h.2 hh
    exact huffDecode_spec s.bytes a b (by omega) c hc rest hf
  | false =>
    simp only [hh, if_false, Bool.false_eq_true] at hf ⊢
    unfold bufCopy
    by_cases h0 : s.bytes.length = 0
    · rw [if_pos h0, List.eq_nil_of_length_eq_zero h0]
    · rw [if_neg h0]
      simp only [Option.bind_some]
      rw [memcpy_spec _ c hc (by rw [hf]; simp; omega), hf]
      simp

theorem raw_spec (s : Str) (h : okStr s) (c : Cursor) (hc : NE c) (rest : Bytes) (hr : rest ≠ [])
    (hsafe : c.rest = [] ∨ s.huffman = true) (hf : c.flat = body s ++ rest) :
    (if s.huffman then huffDecode (some c) (body s).length else rawCopy (some c) (body s).length) = some s.bytes := by
  cases hh : s.huffman with
  | true =>
    have := value_spec s h c hc rest hr hf
    simpa [hh] using this
  | false =>
    rcases hsafe with hs | hs
    · simp only [if_false, Bool.false_eq_true]
      unfold body at hf ⊢
      simp only [hh, if_false, Bool.false_eq_true] at hf ⊢
      have hcur : c.cur = s.bytes ++ rest := by simpa [Cursor.flat, hs] using hf
      unfold rawCopy
      by_cases h0 : s.bytes.length = 0
      · rw [if_pos h0, List.eq_nil_of_length_eq_zero h0]
      · rw [if_neg h0]
        simp [hcur]
    · rw [hh] at hs; simp at hs

theorem adv_spec (c : Cursor) (hc : NE c) (b rest : Bytes) (hr : rest ≠ []) (hf : c.flat = b ++ rest) :
    ∃ c', adv (some c) b.length = some c' ∧ NE c' ∧ c'.flat = rest := by
  have hrl := List.length_pos_iff.2 hr
  obtain ⟨c', e1, e2, e3⟩ := advance_spec c hc b.length (by rw [hf]; simp; omega)
  exact ⟨c', e1, e2, by rw [e3, hf]; simp⟩

/-! ## staying in one chunk -/

theorem advance_rest (c c' : Cursor) (n : Nat) (h : advance c n = some c') (hr : c.rest = []) : c'.rest = [] := by
  unfold advance at h
  split at h
  · cases h; exact hr
  · rw [hr] at h; simp [advance.go] at h

theorem intLoop_rest (k : Nat) : ∀ (c : Cursor) (a b d x y : Nat) (c' : Cursor), intLoop k c a b d = some (x, y, some c') →
    c.rest = [] → c'.rest = [] := by
  induction k with
  | zero => intro c a b d x y c' h; simp [intLoop] at h
  | succ k ih =>
    intro c a b d x y c' h hr
    unfold intLoop at h
    split at h
    · simp at h
    · next c1 h1 =>
      have r1 := advance_rest c c1 1 h1 hr
      split at h
      · simp at h
      · simp only at h
        split at h
        · simp at h
        · split at h
          · exact ih _ _ _ _ _ _ _ h r1
          · simp only [Option.some.injEq, Prod.mk.injEq] at h
            exact advance_rest c1 c' 1 h.2.2 r1

theorem decodeInt_rest (n : Nat) (c c' : Cursor) (x y : Nat) (h : decodeInt n c = some (x, y, some c')) (hr : c.rest = []) :
    c'.rest = [] := by
  unfold decodeInt at h
  split at h
  · simp at h
  · split at h
    · exact intLoop_rest _ _ _ _ _ _ _ _ h hr
    · simp only [Option.some.injEq, Prod.mk.injEq] at h
      exact advance_rest c c' 1 h.2.2 hr

theorem stringHead_rest (c c' : Cursor) (hf : Bool) (x y : Nat) (h : stringHead (some c) = some (hf, x, y, some c'))
    (hr : c.rest = []) : c'.rest = [] := by
  unfold stringHead at h
  simp only at h
  split at h
  · simp at h
  · split at h
    · simp at h
    · next h1 =>
      simp only [Option.some.injEq, Prod.mk.injEq] at h
      obtain ⟨_, rfl, rfl, rfl⟩ := h
      exact decodeInt_rest 7 c c' _ _ h1 hr

/-! ## representations -/

/-- Representations that are decoded as the RFC says. -/
def okRep : Rep → Prop
  | .indexed i => i < 2 ^ 31 ∧ i ≠ 16 ∧ i ≠ 17 ∧ i ≠ 41
  | .literal _ (.index i) v => i < 2 ^ 31 ∧ i ≠ 41 ∧ okStr v
  | .literal ty (.new n) v => ty ≠ .noIndex ∧ okStr n ∧ okStr v

/-- New names (and their values) are Huffman coded. -/
def huffNames : Rep → Prop
  | .literal _ (.new n) v => n.huffman = true ∧ v.huffman = true
  | _ => True

theorem maybeAdd_spec (t : DTab) (xs : List Node) (h : Repr t xs) (ty : IndexType) (name value : Bytes) :
    ∃ t' xs', maybeAdd t ty name value = some t' ∧ Repr t' xs' ∧ t'.limit = t.limit ∧
      ents xs' = (if ty = .update then rfcInsert t.limit (ents xs) (name, value) else ents xs) := by
  cases ty with
  | update =>
    obtain ⟨t', xs', e1, e2, e3, e4, _⟩ := addEntry_repr t xs h name value
    exact ⟨t', xs', e1, e2, e4, by simp [e3]⟩
  | noUpdate => exact ⟨t, xs, rfl, h, rfl, by simp⟩
  | noIndex => exact ⟨t, xs, rfl, h, rfl, by simp⟩

theorem lit_facts (ty : IndexType) (m : Nat) (h : 1 ≤ m ∧ m ≤ 2 ^ prefixOf ty - 1) :
    ¬ 128 ≤ (pattern ty + m) % 256 ∧ literalType (pattern ty + m) = some ty ∧ (pattern ty + m) % 64 ≠ 0 := by
  cases ty <;> simp only [prefixOf, pattern] at h ⊢
  · have a : (64 + m) / 64 % 4 = 1 := by omega
    refine ⟨by omega, ?_, by omega⟩
    unfold literalType
    rw [if_pos a]
  · have a : ¬ (0 + m) / 64 % 4 = 1 := by omega
    have b : (0 + m) / 16 % 16 = 0 := by omega
    refine ⟨by omega, ?_, by omega⟩
    unfold literalType
    rw [if_neg a, if_pos b]
  · have a : ¬ (16 + m) / 64 % 4 = 1 := by omega
    have b : ¬ (16 + m) / 16 % 16 = 0 := by omega
    have d : (16 + m) / 16 % 16 = 1 := by omega
    refine ⟨by omega, ?_, by omega⟩
    unfold literalType
    rw [if_neg a, if_neg b, if_pos d]

theorem parseRep_spec (st : HState) (xs : List Node) (h : Repr st.dtab xs) (r : Rep) (hr : okRep r)
    (e : Entry) (tab : List Entry) (hrfc : rfcRep st.dtab.limit (ents xs) r = some (e, tab))
    (c : Cursor) (hc : NE c) (rest : Bytes) (hrest : rest ≠ []) (hf : c.flat = r.wire ++ rest)
    (hsafe : c.rest = [] ∨ huffNames r) (total : Nat) :
    ∃ c' st' xs', parseRep st total (some c) = some (.ok (total + r.wire.length) (some c') st') ∧ NE c' ∧ c'.flat = rest ∧
      st'.headers = st.headers ++ [e] ∧ Repr st'.dtab xs' ∧ ents xs' = tab ∧ st'.dtab.limit = st.dtab.limit ∧
      (c.rest = [] → c'.rest = []) := by
  obtain ⟨x, t, u, g1, g2⟩ := head_flat hc
  cases r with
  | indexed i =>
    obtain ⟨hi, h16, h17, h41⟩ := hr
    simp only [rfcRep] at hrfc
    cases hl : rfcLookup (ents xs) i with
    | none => rw [hl] at hrfc; simp at hrfc
    | some e' =>
      rw [hl] at hrfc; simp at hrfc
      obtain ⟨rfl, rfl⟩ := hrfc
      simp only [Rep.wire] at hf ⊢
      obtain ⟨c', e1, e2, e3⟩ := decodeInt_spec 7 128 i (by omega) (by omega) (by decide) hi c hc rest hrest hf
      obtain ⟨t', ht'⟩ := rfcInt_head 7 128 i
      have hx : x = 128 + min i (2 ^ 7 - 1) := by rw [hf, ht'] at g2; simp at g2; exact g2.1.symm
      have hxb : 128 ≤ x % 256 := by rw [hx]; omega
      refine ⟨c', addByIndex st (dec32 i), xs, ?_, e2, e3, ?_, h, rfl, rfl, fun hr => decodeInt_rest 7 c c' _ _ e1 hr⟩
      · unfold parseRep
        simp only [g1, e1]
        rw [if_pos hxb]
      · simp only [addByIndex]
        rw [(tableEntry_spec st.dtab xs h i hi e' hl).2 h16 h17 h41]
  | literal ty name v =>
    have hpat : pattern ty % 2 ^ prefixOf ty = 0 := by cases ty <;> decide
    have hpre : 0 < prefixOf ty ∧ prefixOf ty ≤ 7 := by cases ty <;> decide
    have hlp : litPrefix ty = prefixOf ty := by cases ty <;> rfl
    cases name with
    | index i =>
      obtain ⟨hi, h41, hv⟩ := hr
      simp only [rfcRep] at hrfc
      cases hl : rfcLookup (ents xs) i with
      | none => rw [hl] at hrfc; simp at hrfc
      | some e' =>
        rw [hl] at hrfc; simp at hrfc
        obtain ⟨rfl, rfl⟩ := hrfc
        have hi0 : i ≠ 0 := by intro h0; subst h0; simp [rfcLookup] at hl
        simp only [Rep.wire, List.append_assoc] at hf ⊢
        obtain ⟨c1, e1, e2, e3⟩ := decodeInt_spec (prefixOf ty) (pattern ty) i hpre.1 hpre.2 hpat hi c hc (v.wire ++ rest)
          (by simp [hrest]) hf
        obtain ⟨c2, u2, f1, f2, f3, f4⟩ := stringHead_spec v hv c1 e2 rest hrest e3
        have hval := value_spec v hv c2 f2 rest hrest f3
        obtain ⟨c3, k1, k2, k3⟩ := adv_spec c2 f2 (body v) rest hrest f3
        have hname := (tableEntry_spec st.dtab xs h i hi e' hl).1 h41
        obtain ⟨t', xs', m1, m2, m3, m4⟩ := maybeAdd_spec st.dtab xs h ty e'.1 v.bytes
        obtain ⟨tt, ht'⟩ := rfcInt_head (prefixOf ty) (pattern ty) i
        have hx : x = pattern ty + min i (2 ^ prefixOf ty - 1) := by rw [hf, ht'] at g2; simp at g2; exact g2.1.symm
        have hfacts : ¬ 128 ≤ x % 256 ∧ literalType x = some ty ∧ x % 64 ≠ 0 := by
          rw [hx]
          exact lit_facts ty _ (by cases ty <;> simp [prefixOf] <;> omega)
        obtain ⟨q1, q2, q3⟩ := hfacts
        refine ⟨c3, ⟨t', st.headers ++ [(e'.1, v.bytes)]⟩, xs', ?_, k2, k3, rfl, m2, m4, m3, ?_⟩
        · unfold parseRep
          simp only [g1]
          rw [if_neg q1, q2]
          simp only [ne_eq, q3, not_false_eq_true, if_true]
          unfold repIndexName
          rw [hlp, e1]
          simp only [f1]
          unfold addByIndexName
          simp only [hval, hname, m1, Option.map_some, k1]
          have hlen : total + (rfcInt (prefixOf ty) (pattern ty) i).length + u2 + (body v).length =
              total + (rfcInt (prefixOf ty) (pattern ty) i ++ v.wire).length := by
            rw [List.length_append]; omega
          rw [hlen]
        · intro hr0
          have r1 := decodeInt_rest _ _ _ _ _ e1 hr0
          have r2 := stringHead_rest _ _ _ _ _ f1 r1
          exact advance_rest c2 c3 _ k1 r2
    | new n =>
      obtain ⟨hty, hn, hv⟩ := hr
      simp only [rfcRep, Option.some.injEq, Prod.mk.injEq] at hrfc
      obtain ⟨rfl, rfl⟩ := hrfc
      have h0 : rfcInt (prefixOf ty) (pattern ty) 0 = [pattern ty] := by cases ty <;> decide
      simp only [Rep.wire, h0, List.append_assoc] at hf ⊢
      obtain ⟨c1, e1, e2, e3⟩ := (advance_one hc (pattern ty) (n.wire ++ (v.wire ++ rest)) (by rw [hf]; rfl)).2 (by simp [hrest])
      obtain ⟨c2, u2, f1, f2, f3, f4⟩ := stringHead_spec n hn c1 e2 (v.wire ++ rest) (by simp [hrest]) e3
      obtain ⟨c3, k1, k2, k3⟩ := adv_spec c2 f2 (body n) (v.wire ++ rest) (by simp [hrest]) f3
      obtain ⟨c4, u4, p1, p2, p3, p4⟩ := stringHead_spec v hv c3 k2 rest hrest k3
      obtain ⟨c5, w1, w2, w3⟩ := adv_spec c4 p2 (body v) rest hrest p3
      have hs2 : c2.rest = [] ∨ n.huffman = true := by
        rcases hsafe with hs | hs
        · exact .inl (stringHead_rest _ _ _ _ _ f1 (advance_rest c c1 1 e1 hs))
        · exact .inr hs.1
      have hs4 : c4.rest = [] ∨ v.huffman = true := by
        rcases hsafe with hs | hs
        · have r2 := stringHead_rest _ _ _ _ _ f1 (advance_rest c c1 1 e1 hs)
          exact .inl (stringHead_rest _ _ _ _ _ p1 (advance_rest c2 c3 _ k1 r2))
        · exact .inr hs.2
      have hname := raw_spec n hn c2 f2 (v.wire ++ rest) (by simp [hrest]) hs2 f3
      have hval := raw_spec v hv c4 p2 rest hrest hs4 p3
      obtain ⟨t', xs', m1, m2, m3, m4⟩ := maybeAdd_spec st.dtab xs h ty n.bytes v.bytes
      have hx : x = pattern ty := by rw [hf] at g2; simp at g2; exact g2.1.symm
      have hfacts : ¬ 128 ≤ x % 256 ∧ literalType x = some ty ∧ x % 64 = 0 := by
        rw [hx]
        cases ty
        · exact ⟨by decide, by decide, by decide⟩
        · exact ⟨by decide, by decide, by decide⟩
        · exact absurd rfl hty
      obtain ⟨q1, q2, q3⟩ := hfacts
      refine ⟨c5, ⟨t', st.headers ++ [(n.bytes, v.bytes)]⟩, xs', ?_, w2, w3, rfl, m2, m4, m3, ?_⟩
      · unfold parseRep
        simp only [g1]
        rw [if_neg q1, q2]
        simp only [ne_eq, q3, not_true_eq_false, if_false]
        unfold repName
        rw [e1, f1]
        simp only [k1, p1]
        unfold addByName
        simp only [hname, hval, m1, Option.map_some, w1]
        have hlen : total + 1 + u2 + (body n).length + u4 + (body v).length =
            total + ([pattern ty] ++ (n.wire ++ v.wire)).length := by
          simp only [List.length_append, List.length_singleton]; omega
        rw [hlen]
      · intro hr0
        have r2 := stringHead_rest _ _ _ _ _ f1 (advance_rest c c1 1 e1 hr0)
        have r4 := stringHead_rest _ _ _ _ _ p1 (advance_rest c2 c3 _ k1 r2)
        exact advance_rest c4 c5 _ w1 r4

theorem wire_pos (r : Rep) : 0 < r.wire.length := by
  have : ∀ n p i, 0 < (rfcInt n p i).length := by
    intro n p i; obtain ⟨t, ht⟩ := rfcInt_head n p i; rw [ht]; simp
  cases r with
  | indexed i => exact this _ _ _
  | literal ty name v =>
    cases name with
    | index i => simp only [Rep.wire, List.length_append]; have := this (prefixOf ty) (pattern ty) i; omega
    | new n => simp only [Rep.wire, List.length_append]; have := this (prefixOf ty) (pattern ty) 0; omega

theorem parseHeaders_spec (rs : List Rep) : ∀ (fuel : Nat) (st : HState) (xs : List Node) (total : Nat) (c : Cursor)
    (rest : Bytes) (hs tab : List Entry), Repr st.dtab xs → (∀ r ∈ rs, okRep r) →
    rfcBlock st.dtab.limit (ents xs) rs = some (hs, tab) → NE c → rest ≠ [] →
    c.flat = (rs.flatMap Rep.wire) ++ rest → (c.rest = [] ∨ ∀ r ∈ rs, huffNames r) → (rs.flatMap Rep.wire).length ≤ fuel →
    ∃ st' xs', parseHeaders fuel st (total + (rs.flatMap Rep.wire).length) total (some c) = some (.ok st') ∧
      st'.headers = st.headers ++ hs ∧ Repr st'.dtab xs' ∧ ents xs' = tab ∧ st'.dtab.limit = st.dtab.limit := by
  induction rs with
  | nil =>
    intro fuel st xs total c rest hs tab h hok hb hc hr hf hsafe hfu
    simp [rfcBlock] at hb
    obtain ⟨rfl, rfl⟩ := hb
    refine ⟨st, xs, ?_, by simp, h, rfl, rfl⟩
    unfold parseHeaders
    rw [if_pos (by simp)]
  | cons r rs ih =>
    intro fuel st xs total c rest hs tab h hok hb hc hr hf hsafe hfu
    simp only [rfcBlock] at hb
    cases hrep : rfcRep st.dtab.limit (ents xs) r with
    | none => rw [hrep] at hb; simp at hb
    | some p =>
      obtain ⟨e, tab1⟩ := p
      rw [hrep] at hb
      simp only at hb
      cases hblk : rfcBlock st.dtab.limit tab1 rs with
      | none => rw [hblk] at hb; simp at hb
      | some q =>
        rw [hblk] at hb
        simp at hb
        obtain ⟨rfl, rfl⟩ := hb
        have hpos := wire_pos r
        simp only [List.flatMap_cons, List.append_assoc, List.length_append] at hf hfu ⊢
        obtain ⟨c', st', xs', e1, e2, e3, e4, e5, e6, e7, e8⟩ := parseRep_spec st xs h r (hok r (by simp)) e tab1 hrep c hc
          (rs.flatMap Rep.wire ++ rest) (by simp [hr]) hf (by
            rcases hsafe with hs | hs
            · exact .inl hs
            · exact .inr (hs r (by simp))) total
        unfold parseHeaders
        rw [if_neg (by omega)]
        cases fuel with
        | zero => omega
        | succ fuel =>
          simp only [e1]
          obtain ⟨st2, xs2, f1, f2, f3, f4, f5⟩ := ih fuel st' xs' (total + r.wire.length) c' rest q.1 q.2 e5
            (fun x hx => hok x (by simp [hx])) (by rw [e7, e6]; exact hblk) e2 hr e3 (by
              rcases hsafe with hs | hs
              · exact .inl (e8 hs)
              · exact .inr fun x hx => hs x (by simp [hx])) (by omega)
          refine ⟨st2, xs2, ?_, ?_, f3, f4, by rw [f5, e7]⟩
          · rw [← f1]; congr 1; omega
          · rw [f2, e4]; simp

end Fly.Hpack
