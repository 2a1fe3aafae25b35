import Verif.Event.Spec
import Verif.RBTree.Lemmas
set_option linter.all false

namespace Fly.Event

/-! ## The comparison -/

theorem cmp_lt (ev : Nat → Ev) (a b : Nat) : cmp ev a b = .lt ↔
    (ev a).abs.sec < (ev b).abs.sec ∨ ((ev a).abs.sec = (ev b).abs.sec ∧ ((ev a).abs.usec < (ev b).abs.usec ∨
      ((ev a).abs.usec = (ev b).abs.usec ∧ a < b))) := by
  unfold cmp
  by_cases h1 : (ev a).abs.sec > (ev b).abs.sec
  · simp only [if_pos h1]; simp; omega
  by_cases h2 : (ev a).abs.sec < (ev b).abs.sec
  · simp only [if_neg h1, if_pos h2]; simp; omega
  by_cases h3 : (ev a).abs.usec > (ev b).abs.usec
  · simp only [if_neg h1, if_neg h2, if_pos h3]; simp; omega
  by_cases h4 : (ev a).abs.usec < (ev b).abs.usec
  · simp only [if_neg h1, if_neg h2, if_neg h3, if_pos h4]; simp; omega
  by_cases h5 : a > b
  · simp only [if_neg h1, if_neg h2, if_neg h3, if_neg h4, if_pos h5]; simp; omega
  by_cases h6 : a < b
  · simp only [if_neg h1, if_neg h2, if_neg h3, if_neg h4, if_neg h5, if_pos h6]; simp; omega
  · simp only [if_neg h1, if_neg h2, if_neg h3, if_neg h4, if_neg h5, if_neg h6]; simp; omega

theorem cmp_gt (ev : Nat → Ev) (a b : Nat) : cmp ev a b = .gt ↔
    (ev b).abs.sec < (ev a).abs.sec ∨ ((ev b).abs.sec = (ev a).abs.sec ∧ ((ev b).abs.usec < (ev a).abs.usec ∨
      ((ev b).abs.usec = (ev a).abs.usec ∧ b < a))) := by
  unfold cmp
  by_cases h1 : (ev a).abs.sec > (ev b).abs.sec
  · simp only [if_pos h1]; simp; omega
  by_cases h2 : (ev a).abs.sec < (ev b).abs.sec
  · simp only [if_neg h1, if_pos h2]; simp; omega
  by_cases h3 : (ev a).abs.usec > (ev b).abs.usec
  · simp only [if_neg h1, if_neg h2, if_pos h3]; simp; omega
  by_cases h4 : (ev a).abs.usec < (ev b).abs.usec
  · simp only [if_neg h1, if_neg h2, if_neg h3, if_pos h4]; simp; omega
  by_cases h5 : a > b
  · simp only [if_neg h1, if_neg h2, if_neg h3, if_neg h4, if_pos h5]; simp; omega
  by_cases h6 : a < b
  · simp only [if_neg h1, if_neg h2, if_neg h3, if_neg h4, if_neg h5, if_pos h6]; simp; omega
  · simp only [if_neg h1, if_neg h2, if_neg h3, if_neg h4, if_neg h5, if_neg h6]; simp; omega

theorem cmp_lawful (ev : Nat → Ev) : RB.LawfulCmp (cmp ev) := by
  refine ⟨?_, ?_, ?_⟩
  · intro a b
    have h1 := cmp_lt ev a b
    have h2 := cmp_gt ev a b
    constructor
    · intro h
      rw [h] at h1 h2
      simp at h1 h2
      omega
    · rintro rfl
      simp [cmp]
  · intro a b; rw [cmp_lt, cmp_gt]
  · intro a b c; rw [cmp_lt, cmp_lt, cmp_lt]; omega

theorem cmp_congr (ev ev' : Nat → Ev) (a b : Nat) (ha : (ev a).abs = (ev' a).abs) (hb : (ev b).abs = (ev' b).abs) :
    cmp ev a b = cmp ev' a b := by simp only [cmp, ha, hb]

/-! ## The index holds exactly the events of `P` -/

def it (k : Nat) : RB.Item Nat Nat := ⟨k, k, some k⟩

structure CI (ev : Nat → Ev) (idx : RB.State Nat Nat) (ks : List Nat) : Prop where
  nodup : ks.Nodup
  rb : RB.Inv (cmp ev) idx (ks.map it)
  hand : ∀ h, idx.handles h ≠ none → h ∈ ks

theorem ci_init (ev : Nat → Ev) : CI ev RB.State.init [] :=
  ⟨List.nodup_nil, RB.inv_init _, fun h hh => absurd rfl hh⟩

theorem ci_item {ev : Nat → Ev} {idx : RB.State Nat Nat} {ks : List Nat} (h : CI ev idx ks) {x : RB.Entry Nat Nat}
    (hx : x ∈ idx.tree.toList) : x.key ∈ ks ∧ x.data = x.key ∧ x.handle = some x.key := by
  have := (h.rb.abs.mem_iff).1 (List.mem_map_of_mem hx)
  obtain ⟨k, hk, he⟩ := List.mem_map.1 this
  simp only [it, RB.Entry.item, RB.Item.mk.injEq] at he
  obtain ⟨h1, h2, h3⟩ := he
  subst h1
  exact ⟨hk, h2.symm, h3.symm⟩

theorem ci_entry {ev : Nat → Ev} {idx : RB.State Nat Nat} {ks : List Nat} (h : CI ev idx ks) {k : Nat} (hk : k ∈ ks) :
    ∃ x ∈ idx.tree.toList, x.key = k := by
  have := (h.rb.abs.mem_iff).2 (List.mem_map_of_mem (f := it) hk)
  obtain ⟨x, hx, he⟩ := List.mem_map.1 this
  simp only [it, RB.Entry.item, RB.Item.mk.injEq] at he
  exact ⟨x, hx, he.1⟩

theorem ci_congr {ev ev' : Nat → Ev} {idx : RB.State Nat Nat} {ks : List Nat} (h : CI ev idx ks)
    (he : ∀ k ∈ ks, (ev k).abs = (ev' k).abs) : CI ev' idx ks := by
  refine ⟨h.nodup, ⟨h.rb.count, h.rb.rb, ?_, h.rb.addrs, h.rb.handles, h.rb.hdist, h.rb.abs⟩, h.hand⟩
  refine List.Pairwise.imp_of_mem ?_ h.rb.sorted
  intro a b ha hb hc
  rw [← cmp_congr ev ev' _ _ (he _ (ci_item h ha).1) (he _ (ci_item h hb).1)]
  exact hc

theorem ci_perm {ev : Nat → Ev} {idx : RB.State Nat Nat} {ks ks' : List Nat} (h : CI ev idx ks) (hn : ks'.Nodup)
    (he : ∀ k, k ∈ ks ↔ k ∈ ks') : CI ev idx ks' := by
  have hp : List.Perm ks ks' := (List.perm_ext_iff_of_nodup h.nodup hn).2 he
  exact ⟨hn, ⟨h.rb.count, h.rb.rb, h.rb.sorted, h.rb.addrs, h.rb.handles, h.rb.hdist, h.rb.abs.trans (hp.map it)⟩,
    fun k hk => (he k).1 (h.hand k hk)⟩

theorem ci_insert (s : Mgr) (ks : List Nat) (h : CI s.ev s.index ks) (e n : Nat) (he : e ∉ ks) (hn : Fresh s n) :
    ∃ s', insertIndex s e n = some s' ∧ CI s.ev s'.index (ks ++ [e]) ∧ s'.ev = s.ev ∧ s'.mon = s.mon ∧ s'.unmon = s.unmon := by
  have hkey : ∀ i ∈ ks.map it, i.key ≠ e := by
    intro i hi hk
    obtain ⟨k, hk', rfl⟩ := List.mem_map.1 hi
    exact he (by rw [← hk]; exact hk')
  obtain ⟨i, a, h1, h2⟩ := RB.insert_inv (cmp s.ev) (cmp_lawful s.ev) s.index _ h.rb n e e (some e) hn (by
    intro i hi
    obtain ⟨k, hk', rfl⟩ := List.mem_map.1 hi
    right
    simp only [it, ne_eq, Option.some.injEq]
    rintro rfl
    exact he hk')
  refine ⟨{ s with index := i }, by simp [insertIndex, h1], ⟨?_, ?_, ?_⟩, rfl, rfl, rfl⟩
  · rw [List.nodup_append]
    exact ⟨h.nodup, by simp, by intro a ha b hb; simp at hb; subst hb; rintro rfl; exact he ha⟩
  · simp only [RB.specStep] at h2
    rw [if_neg (by rintro ⟨i, hi, hk⟩; exact hkey i hi hk)] at h2
    simpa [it] using h2
  · intro hh hne
    have : i.handles = RB.setHandle (some e) (some n) s.index.handles := by
      unfold RB.State.insert at h1
      simp only at h1
      split at h1
      · simp only [Option.some.injEq, Prod.mk.injEq] at h1; rw [← h1.1]
      · split at h1
        · simp only [Option.some.injEq, Prod.mk.injEq] at h1; rw [← h1.1]
        · split at h1
          · simp only [Option.some.injEq, Prod.mk.injEq] at h1; rw [← h1.1]
          · simp at h1
    rw [this] at hne
    simp only [RB.setHandle] at hne
    by_cases hx : hh = e
    · simp [hx]
    · rw [if_neg hx] at hne
      exact List.mem_append_left _ (h.hand hh hne)

theorem ci_delete (s : Mgr) (ks : List Nat) (h : CI s.ev s.index ks) (e : Nat) :
    ∃ s', deleteIndex s e = some s' ∧ CI s.ev s'.index (ks.filter fun k => k ≠ e) ∧ s'.ev = s.ev ∧ s'.mon = s.mon ∧
      s'.unmon = s.unmon ∧ (e ∉ ks → s'.index = s.index) := by
  by_cases hk : e ∈ ks
  · obtain ⟨x, hx, rfl⟩ := ci_entry h hk
    have hxh := ci_item h hx
    have hhand := h.rb.handles x hx _ hxh.2.2
    obtain ⟨i, h1, h2⟩ := RB.delete_inv (cmp s.ev) (cmp_lawful s.ev) s.index _ h.rb x hx (fun i => i.key ≠ x.key)
      (by simp [RB.Entry.item]) (by
        intro y hy hne
        refine decide_eq_true ?_
        intro he
        exact hne (RB.key_inj (cmp_lawful s.ev) h.rb.sorted hy hx he))
    obtain ⟨i', A, B, g1, g2, g3, g4, g5⟩ := RB.delete_spec (cmp s.ev) s.index _ h.rb x hx
    rw [h1] at g1
    simp only [Option.some.injEq] at g1
    subst g1
    refine ⟨{ s with index := i }, by simp [deleteIndex, hhand, h1], ⟨h.nodup.filter _, ?_, ?_⟩, rfl, rfl, rfl, fun hc => absurd hk hc⟩
    · have : (ks.filter fun k => decide (k ≠ x.key)).map it = (ks.map it).filter fun i => decide (i.key ≠ x.key) := by
        rw [List.filter_map]; rfl
      rw [this]
      exact h2
    · intro hh hne
      show hh ∈ ks.filter _
      have hx' : x.handle = some x.key := hxh.2.2
      rcases g5 with ⟨_, g6⟩ | ⟨y, B', hB, g5, g6⟩
      · have hne' : i.handles hh ≠ none := hne
        rw [g6, hx'] at hne'
        simp only [RB.setHandle] at hne'
        by_cases hq : hh = x.key
        · simp [hq] at hne'
        · rw [if_neg hq] at hne'
          exact List.mem_filter.2 ⟨h.hand hh hne', by simpa using hq⟩
      · have hne' : i.handles hh ≠ none := hne
        have hy : y ∈ s.index.tree.toList := by rw [g2, hB]; simp
        have hyh := ci_item h hy
        have hyx : y.key ≠ x.key := by
          intro he
          have := RB.key_inj (cmp_lawful s.ev) h.rb.sorted hy hx he
          subst this
          have hnd : s.index.tree.toList.Nodup := List.Pairwise.of_map (·.addr) (fun a b h hab => h (by rw [hab])) h.rb.addrs
          rw [g2, hB, List.nodup_append, List.nodup_cons] at hnd
          exact hnd.2.1.1 (by simp)
        rw [g6, hx', hyh.2.2] at hne'
        simp only [RB.setHandle] at hne'
        by_cases hq : hh = y.key
        · subst hq
          exact List.mem_filter.2 ⟨hyh.1, by simpa using hyx⟩
        · rw [if_neg hq] at hne'
          by_cases hq2 : hh = x.key
          · simp [hq2] at hne'
          · rw [if_neg hq2] at hne'
            exact List.mem_filter.2 ⟨h.hand hh hne', by simpa using hq2⟩
  · have hnone : s.index.handles e = none := by
      cases hc : s.index.handles e with
      | none => rfl
      | some a => exact absurd (h.hand e (by rw [hc]; simp)) hk
    refine ⟨s, by simp [deleteIndex, hnone], ?_, rfl, rfl, rfl, fun _ => rfl⟩
    have : (ks.filter fun k => decide (k ≠ e)) = ks := by
      rw [List.filter_eq_self]
      intro k hk'
      simp only [ne_eq, decide_not, Bool.not_eq_true', decide_eq_false_iff_not]
      rintro rfl
      exact hk hk'
    rw [this]
    exact h

/-! ## The manager -/

def finite (w : World) : List Nat := (w.timers.filter fun x => x.deadline.isSome).map (·.e)

structure Inv (s : Mgr) (w : World) : Prop where
  ci : CI s.ev s.index (finite w)
  nodup : (w.timers.map (·.e) ++ w.files).Nodup
  mon : s.mon = w.timers.map (·.e)
  unmon : s.unmon = w.files
  evs : ∀ x ∈ w.timers, (s.ev x.e).monitorable = true ∧ Norm (s.ev x.e).timeout ∧ (s.ev x.e).timeout.us = x.length ∧
    (s.ev x.e).expiredHandler = x.handler ∧ ∀ d, x.deadline = some d → Norm (s.ev x.e).abs ∧ (s.ev x.e).abs.us = d
  fls : ∀ x ∈ w.files, (s.ev x).monitorable = false

theorem add_us (now t : Time) (hn : Norm now) (ht : Norm t) : Norm (addFromNow now t) ∧ (addFromNow now t).us = now.us + t.us := by
  unfold Norm at *
  unfold addFromNow Time.us
  simp only
  split
  · simp only; omega
  · simp only; omega

theorem mem_finite (w : World) (k : Nat) : k ∈ finite w ↔ ∃ x ∈ w.timers, x.e = k ∧ x.deadline ≠ none := by
  simp only [finite, List.mem_map, List.mem_filter]
  constructor
  · rintro ⟨x, ⟨h1, h2⟩, h3⟩
    exact ⟨x, h1, h3, by intro h; rw [h] at h2; simp at h2⟩
  · rintro ⟨x, h1, h3, h2⟩
    refine ⟨x, ⟨h1, ?_⟩, h3⟩
    cases hd : x.deadline with
    | none => exact absurd hd h2
    | some d => rfl

theorem finite_nodup (w : World) (h : (w.timers.map (·.e) ++ w.files).Nodup) : (finite w).Nodup := by
  refine List.Nodup.sublist ?_ h
  exact List.Sublist.trans (List.Sublist.map _ List.filter_sublist) (List.sublist_append_left _ _)

theorem timer_inj (w : World) (h : (w.timers.map (·.e) ++ w.files).Nodup) {x y : Timer} (hx : x ∈ w.timers) (hy : y ∈ w.timers)
    (he : x.e = y.e) : x = y := by
  have hn := (List.nodup_append.1 h).1
  clear h
  revert hx hy hn
  generalize w.timers = l
  intro hx hy hn
  induction l with
  | nil => simp at hx
  | cons z l ih =>
    simp only [List.map_cons, List.nodup_cons, List.mem_map, not_exists, not_and] at hn
    simp only [List.mem_cons] at hx hy
    rcases hx with rfl | hx <;> rcases hy with rfl | hy
    · rfl
    · exact absurd he.symm (hn.1 y hy)
    · exact absurd he (hn.1 x hx)
    · exact ih hx hy hn.2

theorem upd_e (w : World) (e : Nat) (f : Timer → Timer) (hf : ∀ x, (f x).e = e) :
    (w.upd e f).timers.map (·.e) = w.timers.map (·.e) := by
  simp only [World.upd, List.map_map]
  apply List.map_congr_left
  intro x _
  simp only [Function.comp_apply]
  split
  · rename_i h; rw [hf, h]
  · rfl

/-- What `register` with FLY_MODIFY leaves, whatever the deadline was before. -/
theorem modify_inv (s : Mgr) (w : World) (hi : Inv s w) (e : Nat) (v : Ev) (t : Timer) (ht : t ∈ w.timers) (hte : t.e = e) (now : Time)
    (n : Nat) (hnow : Norm now) (hv1 : v.modify = true) (hv2 : v.monitorable = true) (hv3 : Norm v.timeout)
    (hinh : v.infinity = false → v.inherit = true → Norm v.abs)
    (hm : ∀ s', deleteIndex s e = some s' → Fresh s' n) :
    ∃ s', register (s.set e fun _ => v) e now n = some s' ∧
      Inv s' (w.upd e fun _ => ⟨e, if v.infinity then none else if v.inherit then some v.abs.us else some (now.us + v.timeout.us), v.timeout.us, v.expiredHandler⟩) ∧
      ∀ x, (s'.ev x).expired = if x = e then v.expired else (s.ev x).expired := by
  obtain ⟨s1, h1, h2, h3, h4, h5, -⟩ := ci_delete s _ hi.ci e
  have hfr := hm s1 h1
  -- the same deletion after the assignments to `e`
  have h1' : deleteIndex (s.set e fun _ => v) e = some { s1 with ev := (s.set e fun _ => v).ev } := by
    unfold deleteIndex at h1 ⊢
    have : (s.set e fun _ => v).index = s.index := rfl
    rw [this]
    cases hh : s.index.handles e with
    | none =>
      rw [hh] at h1
      simp only [Option.some.injEq] at h1
      subst h1; rfl
    | some a =>
      rw [hh] at h1
      simp only [Option.map_eq_some_iff] at h1 ⊢
      obtain ⟨i, g1, g2⟩ := h1
      exact ⟨i, g1, by rw [← g2]; rfl⟩
  have hev : (s.set e fun _ => v).ev e = v := by simp [Mgr.set]
  generalize hd : (⟨e, if v.infinity then none else if v.inherit then some v.abs.us else some (now.us + v.timeout.us), v.timeout.us, v.expiredHandler⟩ : Timer) = T
  have hTe : T.e = e := by rw [← hd]
  -- the abs field finally
  let v' : Ev := if !v.infinity && !v.inherit then { v with abs := addFromNow now v.timeout } else v
  let s2 : Mgr := { s1 with ev := fun x => if x = e then v' else s.ev x }
  have hs2 : (if !v.infinity && !v.inherit then setDeadline { s1 with ev := (s.set e fun _ => v).ev } e now
      else { s1 with ev := (s.set e fun _ => v).ev }) = s2 := by
    by_cases hc : (!v.infinity && !v.inherit) = true
    · rw [if_pos hc]
      simp only [setDeadline, Mgr.set, s2, v', if_pos hc]
      congr 1
      funext x
      by_cases hx : x = e
      · simp [hx]
      · simp [hx]
    · rw [if_neg hc]
      simp only [Mgr.set, s2, v', if_neg hc]
  have hci2 : CI s2.ev s2.index ((finite w).filter fun k => k ≠ e) := by
    refine ci_congr h2 ?_
    intro k hk
    have hk2 := (List.mem_filter.1 hk).2
    simp only [ne_eq, decide_not, Bool.not_eq_true', decide_eq_false_iff_not] at hk2
    simp only [s2, if_neg hk2]
  have hreg : register (s.set e fun _ => v) e now n = if !v.infinity then insertIndex s2 e n else some s2 := by
    unfold register
    simp only [hev, hv1, hv2, h1', Option.bind_some, Bool.not_true, Bool.false_eq_true, if_false, if_true]
    rw [hs2]
  have hN : Norm v'.timeout ∧ v'.timeout = v.timeout ∧ v'.monitorable = true ∧ v'.expired = v.expired ∧ v'.expiredHandler = v.expiredHandler := by
    simp only [v']
    split
    · exact ⟨hv3, rfl, hv2, rfl, rfl⟩
    · exact ⟨hv3, rfl, hv2, rfl, rfl⟩
  have habs : v.infinity = false → Norm v'.abs ∧ T.deadline = some v'.abs.us := by
    intro hinf
    rw [← hd]
    simp only [hinf, Bool.false_eq_true, if_false]
    by_cases hc : v.inherit = true
    · have hv' : v' = v := by simp [v', hinf, hc]
      rw [hv', if_pos hc]
      exact ⟨hinh hinf hc, rfl⟩
    · have hv' : v'.abs = addFromNow now v.timeout := by simp [v', hinf, hc]
      rw [hv', if_neg hc]
      have := add_us now v.timeout hnow hv3
      exact ⟨this.1, by rw [this.2]⟩
  have hTlen : T.length = v.timeout.us := by rw [← hd]
  have hnd : ((w.upd e fun _ => T).timers.map (·.e) ++ (w.upd e fun _ => T).files).Nodup := by
    rw [upd_e w e _ (fun _ => hTe)]; exact hi.nodup
  have hmemT : ∀ x, x ∈ (w.upd e fun _ => T).timers ↔ x = T ∨ (x ∈ w.timers ∧ x.e ≠ e) := by
    intro x
    simp only [World.upd, List.mem_map]
    constructor
    · rintro ⟨y, hy, rfl⟩
      by_cases hye : y.e = e
      · rw [if_pos hye]; exact Or.inl rfl
      · rw [if_neg hye]; exact Or.inr ⟨hy, hye⟩
    · rintro (rfl | ⟨hx, hxe⟩)
      · exact ⟨t, ht, by rw [if_pos hte]⟩
      · exact ⟨x, hx, by rw [if_neg hxe]⟩
  have hfin : ∀ k, k ∈ finite (w.upd e fun _ => T) ↔ (k = e ∧ v.infinity = false) ∨ (k ∈ finite w ∧ k ≠ e) := by
    intro k
    rw [mem_finite, mem_finite]
    constructor
    · rintro ⟨x, hx, hxe, hxd⟩
      rcases (hmemT x).1 hx with rfl | ⟨hx, hne⟩
      · left
        refine ⟨by rw [← hxe, hTe], ?_⟩
        cases hc : v.infinity with
        | false => rfl
        | true =>
          exfalso; apply hxd
          rw [← hd]; simp [hc]
      · right
        exact ⟨⟨x, hx, hxe, hxd⟩, by rw [← hxe]; exact hne⟩
    · rintro (⟨rfl, hc⟩ | ⟨⟨x, hx, hxe, hxd⟩, hne⟩)
      · exact ⟨T, (hmemT T).2 (Or.inl rfl), hTe, by rw [(habs hc).2]; simp⟩
      · exact ⟨x, (hmemT x).2 (Or.inr ⟨hx, by rw [hxe]; exact hne⟩), hxe, hxd⟩
  have hevs : ∀ x ∈ (w.upd e fun _ => T).timers, (s2.ev x.e).monitorable = true ∧ Norm (s2.ev x.e).timeout ∧
      (s2.ev x.e).timeout.us = x.length ∧ (s2.ev x.e).expiredHandler = x.handler ∧ ∀ d, x.deadline = some d → Norm (s2.ev x.e).abs ∧ (s2.ev x.e).abs.us = d := by
    intro x hx
    rcases (hmemT x).1 hx with rfl | ⟨hx, hne⟩
    · have : s2.ev x.e = v' := by simp [s2, hTe]
      rw [this]
      refine ⟨hN.2.2.1, hN.1, by rw [hN.2.1, hTlen], by rw [hN.2.2.2.2, ← hd], ?_⟩
      intro d hdd
      cases hc : v.infinity with
      | true => rw [← hd] at hdd; simp [hc] at hdd
      | false =>
        have := habs hc
        rw [this.2] at hdd
        simp only [Option.some.injEq] at hdd
        exact ⟨this.1, hdd⟩
    · have : s2.ev x.e = s.ev x.e := by simp [s2, hne]
      rw [this]
      exact hi.evs x hx
  have hfls : ∀ x ∈ (w.upd e fun _ => T).files, (s2.ev x).monitorable = false := by
    intro x hx
    have hx' : x ∈ w.files := hx
    have hne : x ≠ e := by
      rintro rfl
      exact (List.nodup_append.1 hi.nodup).2.2 x (by rw [← hte]; exact List.mem_map_of_mem ht) x hx' rfl
    have : s2.ev x = s.ev x := by simp [s2, hne]
    rw [this]
    exact hi.fls x hx'
  have hmon : s2.mon = (w.upd e fun _ => T).timers.map (·.e) := by
    rw [upd_e w e _ (fun _ => hTe), ← hi.mon]; exact h4
  have hunmon : s2.unmon = (w.upd e fun _ => T).files := by
    show s1.unmon = w.files
    rw [h5, hi.unmon]
  have hexp : ∀ x, (s2.ev x).expired = if x = e then v.expired else (s.ev x).expired := by
    intro x
    by_cases hx : x = e
    · simp only [s2, hx, if_true]; exact hN.2.2.2.1
    · simp only [s2, if_neg hx]
  rw [hreg]
  cases hc : v.infinity with
  | true =>
    refine ⟨s2, by simp, ⟨?_, hnd, hmon, hunmon, hevs, hfls⟩, hexp⟩
    refine ci_perm hci2 (finite_nodup _ hnd) ?_
    intro k
    rw [hfin]
    simp [hc, List.mem_filter]
  | false =>
    obtain ⟨s3, g1, g2, g3, g4, g5⟩ := ci_insert s2 _ hci2 e n (by simp) hfr
    refine ⟨s3, by simpa using g1, ⟨?_, hnd, by rw [g4, hmon], by rw [g5, hunmon], by rw [g3]; exact hevs, by rw [g3]; exact hfls⟩,
      by rw [g3]; exact hexp⟩
    rw [g3]
    refine ci_perm g2 (finite_nodup _ hnd) ?_
    intro k
    rw [hfin]
    simp only [List.mem_append, List.mem_filter, List.mem_singleton, hc]
    simp
    constructor
    · rintro (h | h)
      · exact Or.inr h
      · exact Or.inl h
    · rintro (h | h)
      · exact Or.inr h
      · exact Or.inl h

theorem add_inv (s : Mgr) (w : World) (hi : Inv s w) (e : Nat) (mon inf handler : Bool) (t now : Time) (n : Nat)
    (hl : Legal w (.add e mon inf handler t now n)) (hm : MallocOk s (.add e mon inf handler t now n)) :
    ∃ s', step s (.add e mon inf handler t now n) = some s' ∧ Inv s' (specStep w (.add e mon inf handler t now n)) ∧
      ∀ x, (s'.ev x).expired = if x = e then false else (s.ev x).expired := by
  obtain ⟨he1, he2, hnt, hnn⟩ := hl
  have hm : Fresh s n := hm
  have hek : e ∉ finite w := by
    intro hc
    obtain ⟨x, hx, hxe, _⟩ := (mem_finite w e).1 hc
    exact he1 x hx hxe
  have het : ∀ x ∈ w.timers, x.e ≠ e := he1
  have hef : ∀ x ∈ w.files, x ≠ e := by rintro x hx rfl; exact he2 hx
  let v0 : Ev := ⟨⟨0, 0⟩, t, inf, false, false, mon, false, handler⟩
  have hs0 : (s.set e fun _ => v0).ev e = v0 := by simp [Mgr.set]
  have key : ∀ v : Ev, CI (fun x => if x = e then v else s.ev x) s.index (finite w) := by
    intro v
    refine ci_congr hi.ci ?_
    intro k hk
    have : k ≠ e := by rintro rfl; exact hek hk
    simp [this]
  cases mon with
  | false =>
    refine ⟨{ (s.set e fun _ => v0) with unmon := s.unmon ++ [e] }, ?_, ?_, ?_⟩
    · show register (s.set e fun _ => v0) e now n = _
      unfold register
      simp only [hs0]
      simp [v0, Mgr.set]
    · show Inv _ { w with files := w.files ++ [e] }
      refine ⟨key v0, ?_, hi.mon, by show s.unmon ++ [e] = _; rw [hi.unmon], ?_, ?_⟩
      · show (w.timers.map (·.e) ++ (w.files ++ [e])).Nodup
        rw [← List.append_assoc, List.nodup_append]
        refine ⟨hi.nodup, by simp, ?_⟩
        intro a ha b hb
        simp at hb; subst hb
        rcases List.mem_append.1 ha with ha | ha
        · obtain ⟨x, hx, rfl⟩ := List.mem_map.1 ha
          exact het x hx
        · exact hef a ha
      · intro x hx
        have : ((s.set e fun _ => v0).ev x.e) = s.ev x.e := by simp [Mgr.set, het x hx]
        rw [this]
        exact hi.evs x hx
      · intro x hx
        rcases List.mem_append.1 hx with hx | hx
        · have : ((s.set e fun _ => v0).ev x) = s.ev x := by simp [Mgr.set, hef x hx]
          rw [this]
          exact hi.fls x hx
        · simp at hx; subst hx
          show ((s.set x fun _ => v0).ev x).monitorable = false
          rw [hs0]
    · intro x
      show ((s.set e fun _ => v0).ev x).expired = _
      by_cases hx : x = e
      · subst hx; rw [hs0]; simp [v0]
      · simp [Mgr.set, hx]
  | true =>
    have hnd : ∀ (d : Option Int) (l : Int), ((w.timers ++ [(⟨e, d, l, handler⟩ : Timer)]).map (·.e) ++ w.files).Nodup := by
      intro d l
      have hp : List.Perm ((w.timers.map (·.e) ++ w.files) ++ [e]) ((w.timers ++ [(⟨e, d, l, handler⟩ : Timer)]).map (·.e) ++ w.files) := by
        rw [List.map_append]
        simp only [List.append_assoc, List.map_cons, List.map_nil]
        exact List.Perm.append_left _ List.perm_append_comm
      refine (hp.nodup_iff).1 ?_
      rw [List.nodup_append]
      refine ⟨hi.nodup, by simp, ?_⟩
      intro a ha b hb
      simp at hb; subst hb
      rcases List.mem_append.1 ha with ha | ha
      · obtain ⟨x, hx, rfl⟩ := List.mem_map.1 ha
        exact het x hx
      · exact hef a ha
    cases inf with
    | true =>
      refine ⟨{ (s.set e fun _ => v0) with mon := s.mon ++ [e] }, ?_, ?_, ?_⟩
      · show register (s.set e fun _ => v0) e now n = _
        unfold register
        simp only [hs0]
        simp [v0, Mgr.set]
      · show Inv _ { w with timers := w.timers ++ [⟨e, none, t.us, handler⟩] }
        refine ⟨?_, hnd _ _, by show s.mon ++ [e] = _; rw [hi.mon]; simp, hi.unmon, ?_, ?_⟩
        · have : finite { w with timers := w.timers ++ [⟨e, none, t.us, handler⟩] } = finite w := by simp [finite]
          rw [this]
          exact key v0
        · intro x hx
          rcases List.mem_append.1 hx with hx | hx
          · have : ((s.set e fun _ => v0).ev x.e) = s.ev x.e := by simp [Mgr.set, het x hx]
            rw [this]
            exact hi.evs x hx
          · simp at hx; subst hx
            show ((s.set e fun _ => v0).ev e).monitorable = true ∧ _
            refine ⟨by rw [hs0], by rw [hs0]; exact hnt, by rw [hs0], by rw [hs0], by simp⟩
        · intro x hx
          have : ((s.set e fun _ => v0).ev x) = s.ev x := by simp [Mgr.set, hef x hx]
          rw [this]
          exact hi.fls x hx
      · intro x
        show ((s.set e fun _ => v0).ev x).expired = _
        by_cases hx : x = e
        · subst hx; rw [hs0]; simp [v0]
        · simp [Mgr.set, hx]
    | false =>
      let v1 : Ev := { v0 with abs := addFromNow now t }
      have hs1 : setDeadline (s.set e fun _ => v0) e now = { s with ev := fun x => if x = e then v1 else s.ev x } := by
        simp only [setDeadline, Mgr.set, v1]
        congr 1
        funext x
        by_cases hx : x = e <;> simp [hx, v0]
      obtain ⟨s3, g1, g2, g3, g4, g5⟩ := ci_insert { s with ev := fun x => if x = e then v1 else s.ev x } (finite w) (key v1) e n hek hm
      refine ⟨{ s3 with mon := s3.mon ++ [e] }, ?_, ?_, ?_⟩
      · show register (s.set e fun _ => v0) e now n = _
        unfold register
        simp only [hs0, hs1, v0]
        simp only [Bool.not_false, Bool.and_self, if_true, g1, Option.map_some]
      · have hA := add_us now t hnn hnt
        show Inv _ { w with timers := w.timers ++ [⟨e, some (now.us + t.us), t.us, handler⟩] }
        refine ⟨?_, hnd _ _, ?_, by show s3.unmon = _; rw [g5]; exact hi.unmon, ?_, ?_⟩
        · show CI s3.ev s3.index _
          rw [g3]
          refine ci_perm g2 (finite_nodup _ (hnd _ _)) ?_
          intro k
          simp [finite]
        · show s3.mon ++ [e] = _
          rw [g4]
          show s.mon ++ [e] = _
          rw [hi.mon]; simp
        · intro x hx
          show (s3.ev x.e).monitorable = true ∧ Norm (s3.ev x.e).timeout ∧ _
          rw [g3]
          rcases List.mem_append.1 hx with hx | hx
          · have := hi.evs x hx
            simpa [het x hx] using this
          · simp at hx; subst hx
            simp only [if_true]
            refine ⟨rfl, hnt, rfl, rfl, ?_⟩
            intro d hd
            simp only [Option.some.injEq] at hd
            exact ⟨hA.1, by rw [← hd]; exact hA.2⟩
        · intro x hx
          show (s3.ev x).monitorable = false
          rw [g3]
          have := hi.fls x hx
          simpa [hef x hx] using this
      · intro x
        show (s3.ev x).expired = _
        rw [g3]
        by_cases hx : x = e
        · simp [hx, v1, v0]
        · simp [hx]

theorem filter_erase {l : List Nat} (hn : l.Nodup) (e : Nat) : l.erase e = l.filter fun x => decide (x ≠ e) := by
  rw [hn.erase_eq_filter]
  apply List.filter_congr
  intro x _
  by_cases h : x = e <;> simp [h]

theorem remove_inv (s : Mgr) (w : World) (hi : Inv s w) (e : Nat) (hl : Legal w (.remove e)) :
    ∃ s', unregister s e = some s' ∧ Inv s' (specStep w (.remove e)) ∧ s'.ev = s.ev := by
  have hn := hi.nodup
  have hn1 := (List.nodup_append.1 hn).1
  have hn2 := (List.nodup_append.1 hn).2.1
  have hn3 := (List.nodup_append.1 hn).2.2
  have hnd : ((w.timers.filter fun x => x.e ≠ e).map (·.e) ++ (w.files.filter fun x => x ≠ e)).Nodup := by
    refine List.Nodup.sublist ?_ hn
    exact List.Sublist.append (List.Sublist.map _ List.filter_sublist) List.filter_sublist
  have hmonf : (w.timers.filter fun x => decide (x.e ≠ e)).map (·.e) = (w.timers.map (·.e)).filter fun x => decide (x ≠ e) := by
    rw [List.filter_map]; rfl
  rcases hl with ⟨t, ht, hte⟩ | hf
  · have hmon : (s.ev e).monitorable = true := by rw [← hte]; exact (hi.evs t ht).1
    obtain ⟨s1, h1, h2, h3, h4, h5, -⟩ := ci_delete s _ hi.ci e
    have hef : e ∉ w.files := fun hc => hn3 e (by rw [← hte]; exact List.mem_map_of_mem ht) e hc rfl
    refine ⟨{ s1 with mon := s1.mon.erase e }, by simp [unregister, hmon, h1], ⟨?_, hnd, ?_, ?_, ?_, ?_⟩, h3⟩
    · show CI s1.ev s1.index _
      rw [h3]
      refine ci_perm h2 (finite_nodup _ hnd) ?_
      intro k
      rw [List.mem_filter, mem_finite, mem_finite]
      simp only [specStep, List.mem_filter]
      constructor
      · rintro ⟨⟨x, hx, hxe, hxd⟩, hk⟩
        exact ⟨x, ⟨hx, by rw [hxe]; exact hk⟩, hxe, hxd⟩
      · rintro ⟨x, ⟨hx, hk⟩, hxe, hxd⟩
        exact ⟨⟨x, hx, hxe, hxd⟩, by rw [hxe] at hk; exact hk⟩
    · show s1.mon.erase e = _
      rw [h4, hi.mon, filter_erase hn1]
      exact hmonf.symm
    · show s1.unmon = w.files.filter _
      rw [h5, hi.unmon, List.filter_eq_self.2]
      intro x hx
      simp only [ne_eq, decide_not, Bool.not_eq_true', decide_eq_false_iff_not]
      rintro rfl
      exact hef hx
    · intro x hx
      show (s1.ev x.e).monitorable = true ∧ Norm (s1.ev x.e).timeout ∧ _
      rw [h3]
      exact hi.evs x (List.mem_filter.1 hx).1
    · intro x hx
      show (s1.ev x).monitorable = false
      rw [h3]
      exact hi.fls x (List.mem_filter.1 hx).1
  · have hmon := hi.fls e hf
    have het : ∀ x ∈ w.timers, x.e ≠ e := fun x hx he => hn3 x.e (List.mem_map_of_mem hx) e hf he
    have htf : (w.timers.filter fun x => decide (x.e ≠ e)) = w.timers := by
      rw [List.filter_eq_self]
      intro x hx
      simpa using het x hx
    refine ⟨{ s with unmon := s.unmon.erase e }, by simp [unregister, hmon], ⟨?_, hnd, ?_, ?_, ?_, ?_⟩, rfl⟩
    · have : finite (specStep w (.remove e)) = finite w := by
        simp only [finite, specStep, htf]
      rw [this]
      exact hi.ci
    · show s.mon = _
      simp only [specStep, htf]
      exact hi.mon
    · show s.unmon.erase e = _
      rw [hi.unmon, filter_erase hn2]
      rfl
    · intro x hx
      exact hi.evs x (List.mem_filter.1 hx).1
    · intro x hx
      exact hi.fls x (List.mem_filter.1 hx).1

theorem mark_fields (s : Mgr) (now : Time) (x : Nat) : ((mark s now).ev x).abs = (s.ev x).abs ∧
    ((mark s now).ev x).timeout = (s.ev x).timeout ∧ ((mark s now).ev x).monitorable = (s.ev x).monitorable ∧
    ((mark s now).ev x).expiredHandler = (s.ev x).expiredHandler := by
  unfold mark
  split
  · simp
  · simp only
    split <;> simp

theorem mark_rest (s : Mgr) (now : Time) : (mark s now).index = s.index ∧ (mark s now).mon = s.mon ∧ (mark s now).unmon = s.unmon := by
  unfold mark
  split <;> simp

theorem mark_inv (s : Mgr) (w : World) (hi : Inv s w) (now : Time) : Inv (mark s now) w := by
  obtain ⟨h1, h2, h3⟩ := mark_rest s now
  refine ⟨?_, hi.nodup, by rw [h2]; exact hi.mon, by rw [h3]; exact hi.unmon, ?_, ?_⟩
  · rw [h1]
    exact ci_congr hi.ci fun k _ => (mark_fields s now k).1.symm
  · intro x hx
    obtain ⟨f1, f2, f3, f4⟩ := mark_fields s now x.e
    rw [f1, f2, f3, f4]
    exact hi.evs x hx
  · intro x hx
    rw [(mark_fields s now x).2.2.1]
    exact hi.fls x hx

theorem set_const (s : Mgr) (e : Nat) (f : Ev → Ev) : s.set e f = s.set e fun _ => f (s.ev e) := rfl

theorem upd_congr (w : World) (hn : (w.timers.map (·.e) ++ w.files).Nodup) (e : Nat) (f g : Timer → Timer) (t : Timer) (ht : t ∈ w.timers)
    (hte : t.e = e) (h : f t = g t) : w.upd e f = w.upd e g := by
  unfold World.upd
  congr 1
  apply List.map_congr_left
  intro x hx
  by_cases hxe : x.e = e
  · have : x = t := timer_inj w hn hx ht (by rw [hxe, hte])
    subst this
    rw [if_pos hxe, if_pos hxe, h]
  · rw [if_neg hxe, if_neg hxe]

theorem step_inv (s : Mgr) (w : World) (hi : Inv s w) (o : Op) (hl : Legal w o) (hm : MallocOk s o) :
    ∃ s', step s o = some s' ∧ Inv s' (specStep w o) := by
  cases o with
  | add e mon inf handler t now n =>
    obtain ⟨s', h1, h2, _⟩ := add_inv s w hi e mon inf handler t now n hl hm
    exact ⟨s', h1, h2⟩
  | modify e inf inh clear t now n =>
    obtain ⟨⟨T, hT, hTe, hinh⟩, hnt, hnn⟩ := hl
    have hev := hi.evs T hT
    rw [hTe] at hev
    let v : Ev := { s.ev e with infinity := inf, inherit := inh, modify := true, timeout := t.getD (s.ev e).timeout, expired := (s.ev e).expired && !clear }
    have hvt : Norm v.timeout := by
      show Norm (t.getD _)
      cases t with
      | none => exact hev.2.1
      | some t => exact hnt t rfl
    obtain ⟨s', h1, h2, h3⟩ := modify_inv s w hi e v T hT hTe now n hnn rfl hev.1 hvt (by
      intro hc1 hc2
      rcases hinh hc2 with h | h
      · simp only [v] at hc1; rw [h] at hc1; simp at hc1
      · cases hd : T.deadline with
        | none => exact absurd hd h
        | some d => exact (hev.2.2.2.2 d hd).1) hm
    refine ⟨s', h1, ?_⟩
    have core : ∀ L : Int, L = v.timeout.us →
        (⟨e, if inf = true then none else if inh = true then T.deadline else some (now.us + L), L, T.handler⟩ : Timer) =
        ⟨e, if v.infinity then none else if v.inherit then some v.abs.us else some (now.us + v.timeout.us), v.timeout.us, v.expiredHandler⟩ := by
      intro L hL
      subst hL
      rw [← hev.2.2.2.1]
      show _ = (⟨e, if inf = true then none else if inh = true then some (s.ev e).abs.us else some (now.us + v.timeout.us), v.timeout.us, (s.ev e).expiredHandler⟩ : Timer)
      congr 1
      by_cases hc1 : inf = true
      · simp [hc1]
      · by_cases hc2 : inh = true
        · simp only [if_neg hc1, if_pos hc2]
          rcases hinh hc2 with h | h
          · exact absurd h hc1
          · cases hd : T.deadline with
            | none => exact absurd hd h
            | some d => rw [(hev.2.2.2.2 d hd).2]
        · simp [hc1, hc2]
    have : specStep w (.modify e inf inh clear t now n) =
        w.upd e fun _ => ⟨e, if v.infinity then none else if v.inherit then some v.abs.us else some (now.us + v.timeout.us), v.timeout.us, v.expiredHandler⟩ := by
      refine upd_congr w hi.nodup e _ _ T hT hTe ?_
      cases t with
      | none => exact core _ hev.2.2.1.symm
      | some t => exact core _ rfl
    rw [this]
    exact h2
  | extend e now now' n =>
    obtain ⟨⟨T, hT, hTe⟩, hnn, hnn'⟩ := hl
    have hev := hi.evs T hT
    rw [hTe] at hev
    have hA := add_us now (s.ev e).timeout hnn hev.2.1
    let v : Ev := { s.ev e with abs := addFromNow now (s.ev e).timeout, infinity := false, inherit := true, modify := true }
    obtain ⟨s', h1, h2, h3⟩ := modify_inv s w hi e v T hT hTe now' n hnn' rfl hev.1 hev.2.1 (fun _ _ => hA.1) hm
    refine ⟨s', ?_, ?_⟩
    · have : ((restart s e now).set e fun v => { v with infinity := false, inherit := true, modify := true }) = s.set e fun _ => v := by
        simp only [restart, setDeadline, Mgr.set, v]
        congr 1
        funext x
        by_cases hx : x = e <;> simp [hx]
      show register ((restart s e now).set e fun v => { v with infinity := false, inherit := true, modify := true }) e now' n = _
      rw [this]
      exact h1
    · have : specStep w (.extend e now now' n) =
          w.upd e fun _ => ⟨e, if v.infinity then none else if v.inherit then some v.abs.us else some (now'.us + v.timeout.us), v.timeout.us, v.expiredHandler⟩ := by
        refine upd_congr w hi.nodup e _ _ T hT hTe ?_
        simp only [v]
        simp [hA.2, hev.2.2.1, hev.2.2.2.1]
      rw [this]
      exact h2
  | remove e =>
    obtain ⟨s', h1, h2, _⟩ := remove_inv s w hi e hl
    exact ⟨s', h1, h2⟩
  | tick now => exact ⟨mark s now, rfl, mark_inv s w hi now⟩

theorem run_inv : ∀ (os : List Op) (s : Mgr) (w : World), Inv s w → AllOk s w os →
    ∃ s', run s os = some s' ∧ Inv s' (os.foldl specStep w)
  | [], s, w, hi, _ => ⟨s, rfl, hi⟩
  | o :: os, s, w, hi, ⟨hl, hm, hr⟩ => by
    obtain ⟨s1, h1, h2⟩ := step_inv s w hi o hl hm
    obtain ⟨s2, h3, h4⟩ := run_inv os s1 _ h2 (hr s1 h1)
    exact ⟨s2, by simp [run, h1, h3], h4⟩

theorem init_inv (ev : Nat → Ev) : Inv (init ev) ⟨[], []⟩ :=
  ⟨ci_init ev, by simp, rfl, rfl, by simp, by simp⟩

theorem reach (ev : Nat → Ev) (os : List Op) (hok : AllOk (init ev) ⟨[], []⟩ os) (s : Mgr) (hr : run (init ev) os = some s) :
    Inv s (world os) := by
  obtain ⟨s', h1, h2⟩ := run_inv os _ _ (init_inv ev) hok
  rw [hr] at h1
  simp only [Option.some.injEq] at h1
  subst h1
  exact h2

/-! ## Marking and the nearest event -/

theorem expired_mem (ev : Nat → Ev) (now : Time) : ∀ t : RB.Tree Nat Nat, (∀ x ∈ t.toList, x.data = x.key) →
    t.toList.Pairwise (fun a b => cmp ev a.key b.key = .lt) → ∀ k, k ∈ expiredFrom ev now t ↔
      (∃ x ∈ t.toList, x.key = k) ∧ (ev k).abs.sec ≤ now.sec
  | .nil, _, _, k => by simp [expiredFrom, RB.Tree.toList]
  | .node c l x r, hd, hs, k => by
    simp only [RB.Tree.toList] at hd hs ⊢
    rw [List.pairwise_append, List.pairwise_cons] at hs
    obtain ⟨hl, ⟨hxr, hr⟩, hlx⟩ := hs
    have hdl : ∀ x ∈ l.toList, x.data = x.key := fun y hy => hd y (by simp [hy])
    have hdr : ∀ x ∈ r.toList, x.data = x.key := fun y hy => hd y (by simp [hy])
    have ihl := expired_mem ev now l hdl hl k
    have ihr := expired_mem ev now r hdr hr k
    have hdx : x.data = x.key := hd x (by simp)
    unfold expiredFrom
    by_cases hc : (ev x.key).abs.sec > now.sec
    · rw [if_pos hc, ihl]
      constructor
      · rintro ⟨⟨y, hy, hk⟩, h⟩
        exact ⟨⟨y, by simp [hy], hk⟩, h⟩
      · rintro ⟨⟨y, hy, hk⟩, h⟩
        subst hk
        simp only [List.mem_append, List.mem_cons] at hy
        rcases hy with hy | rfl | hy
        · exact ⟨⟨y, hy, rfl⟩, h⟩
        · omega
        · have := hxr y hy
          rw [cmp_lt] at this
          omega
    · rw [if_neg hc]
      simp only [List.mem_cons, List.mem_append, ihl, ihr, hdx]
      constructor
      · rintro (rfl | ⟨⟨y, hy, hk⟩, h⟩ | ⟨⟨y, hy, hk⟩, h⟩)
        · exact ⟨⟨x, by simp, rfl⟩, by omega⟩
        · exact ⟨⟨y, by simp [hy], hk⟩, h⟩
        · exact ⟨⟨y, by simp [hy], hk⟩, h⟩
      · rintro ⟨⟨y, hy, hk⟩, h⟩
        rcases hy with hy | rfl | hy
        · exact Or.inr (Or.inl ⟨⟨y, hy, hk⟩, h⟩)
        · exact Or.inl hk.symm
        · exact Or.inr (Or.inr ⟨⟨y, hy, hk⟩, h⟩)

theorem ci_count {ev : Nat → Ev} {idx : RB.State Nat Nat} {ks : List Nat} (h : CI ev idx ks) : idx.count = ks.length := by
  have := h.rb.abs.length_eq
  rw [h.rb.count]; simpa using this

/-- The exact effect of marking. -/
theorem mark_spec (s : Mgr) (w : World) (hi : Inv s w) (now : Time) (x : Timer) (hx : x ∈ w.timers) :
    ((mark s now).ev x.e).expired = ((s.ev x.e).expired || decide (x.deadline ≠ none ∧ (s.ev x.e).abs.sec ≤ now.sec)) := by
  have hfin : x.e ∈ finite w ↔ x.deadline ≠ none := by
    rw [mem_finite]
    constructor
    · rintro ⟨y, hy, he, hd⟩
      have := timer_inj w hi.nodup hy hx he
      subst this; exact hd
    · intro h; exact ⟨x, hx, rfl, h⟩
  have hex := expired_mem s.ev now s.index.tree (fun y hy => (ci_item hi.ci hy).2.1) hi.ci.rb.sorted x.e
  have htree : (∃ y ∈ s.index.tree.toList, y.key = x.e) ↔ x.deadline ≠ none := by
    rw [← hfin]
    constructor
    · rintro ⟨y, hy, he⟩; rw [← he]; exact (ci_item hi.ci hy).1
    · intro h; exact ci_entry hi.ci h
  rw [htree] at hex
  unfold mark
  by_cases h0 : s.index.count = 0
  · rw [if_pos h0]
    have : x.deadline = none := by
      rw [ci_count hi.ci] at h0
      have : finite w = [] := List.eq_nil_of_length_eq_zero h0
      cases hd : x.deadline with
      | none => rfl
      | some d => rw [this] at hfin; simp [hd] at hfin
    simp [this]
  · rw [if_neg h0]
    simp only
    by_cases hc : x.e ∈ expiredFrom s.ev now s.index.tree
    · rw [if_pos hc]
      have := hex.1 hc
      simp [this]
    · rw [if_neg hc]
      have : ¬ (x.deadline ≠ none ∧ (s.ev x.e).abs.sec ≤ now.sec) := fun h => hc (hex.2 h)
      rw [decide_eq_false this]
      simp

theorem leftmost_spec : ∀ t : RB.Tree Nat Nat, leftmost t = t.toList.head?.map (·.data)
  | .nil => rfl
  | .node c .nil x r => by simp [leftmost, RB.Tree.toList]
  | .node c (.node c' l y r') x r => by
    rw [leftmost, leftmost_spec (.node c' l y r')]
    · generalize hq : (RB.Tree.node c' l y r').toList = q
      have : q ≠ [] := by rw [← hq]; simp [RB.Tree.toList]
      cases q with
      | nil => exact absurd rfl this
      | cons a q =>
        show _ = ((RB.Tree.node c' l y r').toList ++ x :: r.toList).head?.map _
        rw [hq]; rfl
    · simp

theorem nearest_spec (s : Mgr) (w : World) (hi : Inv s w) :
    (nearest s = none ↔ ∀ x ∈ w.timers, x.deadline = none) ∧
    (∀ e, nearest s = some e → ∃ x ∈ w.timers, x.e = e ∧ ∃ d, x.deadline = some d ∧ ∀ y ∈ w.timers, ∀ d', y.deadline = some d' → d ≤ d') := by
  have hcnt := ci_count hi.ci
  have hnone : (∀ x ∈ w.timers, x.deadline = none) ↔ finite w = [] := by
    constructor
    · intro h
      rw [List.eq_nil_iff_forall_not_mem]
      intro k hk
      obtain ⟨x, hx, _, hd⟩ := (mem_finite w k).1 hk
      exact hd (h x hx)
    · intro h x hx
      cases hd : x.deadline with
      | none => rfl
      | some d =>
        have : x.e ∈ finite w := (mem_finite w _).2 ⟨x, hx, rfl, by rw [hd]; simp⟩
        rw [h] at this
        simp at this
  unfold nearest
  by_cases h0 : s.index.count = 0
  · rw [if_pos h0]
    rw [hcnt] at h0
    have h0 : finite w = [] := List.eq_nil_of_length_eq_zero h0
    exact ⟨by simp [hnone, h0], by simp⟩
  · rw [if_neg h0, leftmost_spec]
    have hne : finite w ≠ [] := by rw [hcnt] at h0; intro h; rw [h] at h0; simp at h0
    cases hl : s.index.tree.toList with
    | nil =>
      exfalso
      apply h0
      rw [hi.ci.rb.count, hl]; rfl
    | cons a l =>
      simp only [List.head?_cons, Option.map_some]
      refine ⟨?_, ?_⟩
      · rw [hnone]
        simp [hne]
      · intro e he
        simp only [Option.some.injEq] at he
        have ha : a ∈ s.index.tree.toList := by rw [hl]; simp
        obtain ⟨h1, h2, h3⟩ := ci_item hi.ci ha
        rw [h2] at he
        subst he
        obtain ⟨x, hx, hxe, hxd⟩ := (mem_finite w _).1 h1
        refine ⟨x, hx, hxe, ?_⟩
        cases hd : x.deadline with
        | none => exact absurd hd hxd
        | some d =>
          refine ⟨d, rfl, ?_⟩
          intro y hy d' hd'
          have hye : y.e ∈ finite w := (mem_finite w _).2 ⟨y, hy, rfl, by rw [hd']; simp⟩
          obtain ⟨b, hb, hbk⟩ := ci_entry hi.ci hye
          have hX := (hi.evs x hx).2.2.2.2 d hd
          have hY := (hi.evs y hy).2.2.2.2 d' hd'
          rw [hxe] at hX
          have hs := hi.ci.rb.sorted
          rw [hl, List.pairwise_cons] at hs
          rw [hl] at hb
          rcases List.mem_cons.1 hb with rfl | hb
          · rw [← hbk] at hY
            rw [← hX.2, ← hY.2]
            omega
          · have := hs.1 b hb
            rw [cmp_lt, hbk] at this
            unfold Norm Time.us at *
            omega

end Fly.Event
