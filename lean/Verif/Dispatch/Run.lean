import Verif.Dispatch.Step

namespace Fly.Dispatch

theorem calls_append (t u : List Obs) : calls (t ++ u) = calls t ++ calls u := by
  induction t with
  | nil => rfl
  | cons x t ih => cases x <;> simp [calls, ih]

theorem written_append (t u : List Obs) : written (t ++ u) = written t ++ written u := by
  induction t with
  | nil => rfl
  | cons x t ih => cases x <;> simp [written, ih]

theorem produced_append (t u : List Obs) : produced (t ++ u) = produced t ++ produced u := by
  induction t with
  | nil => rfl
  | cons x t ih => cases x <;> simp [produced, ih]

theorem mem_calls {a : Nat} {m : Bool} {o : Outcome} : ∀ {t : List Obs}, .call a m o ∈ t → a ∈ calls t
  | [], h => by simp at h
  | y :: t, h => by
    rcases List.mem_cons.1 h with hy | hy
    · subst hy; exact List.mem_cons_self ..
    · cases y
      · exact List.mem_cons_of_mem _ (mem_calls hy)
      · show a ∈ calls t; exact mem_calls hy
      · show a ∈ calls t; exact mem_calls hy

theorem calls_closing (e : Ev) (o : Outcome) : calls (closing e o) = [] ∧ written (closing e o) = [] ∧ produced (closing e o) = [] := by
  unfold closing; split <;> exact ⟨rfl, rfl, rfl⟩

/-- What became of the events of a batch, and of the others. `m` is the signal mask of the calls, `kept` what is kept. -/
structure BEff (kept : Outcome → Bool) (m : Bool) (s : St) (as : List Nat) (t : List Obs) (s' : St) : Prop where
  inv : Inv s'
  clean : Clean s'
  next : s.next ≤ s'.next
  masked : s'.masked = false
  trace : s'.trace = s.trace ++ t
  calls : calls t = as
  written : written t = []
  pend : pend s' = pend s ++ produced t
  mask : ∀ a m' o, .call a m' o ∈ t → m' = m
  others : ∀ b, b < s.next → b ∉ as → s'.heap b = s.heap b
  closes : ∀ fd, .close fd ∈ t → ∃ c ∈ as, ∃ e, s.heap c = some e ∧ e.fd = fd
  own : ∀ a ∈ as, ∃ e o, s.heap a = some e ∧ .call a m o ∈ t ∧ s'.heap a = (if kept o then some { e with flag := o.flag } else none) ∧
    t.count (.close e.fd) = (if o.closes || o.fails then 1 else 0)

theorem BEff.nil {kept : Outcome → Bool} {m : Bool} {s : St} (h : Inv s) (hc : Clean s) (hm : s.masked = false) : BEff kept m s [] [] s :=
  ⟨h, hc, Nat.le_refl _, hm, by simp, rfl, rfl, by simp [produced], by simp, fun _ _ _ => rfl, by simp, by simp⟩

theorem BEff.cons {kept : Outcome → Bool} {m : Bool} {s s1 s' : St} {a : Nat} {as : List Nat} {e : Ev} {o : Outcome} {t : List Obs}
    (hs : Inv s) (hsc : Clean s) (he : s.heap a = some e) (hm : e.monitorable = true) (hnd : (a :: as).Nodup) (has : ∀ c ∈ as, c ∈ s.mon)
    (h1 : Eff s a e o (kept o) m s1) (h2 : BEff kept m s1 as t s') :
    BEff kept m s (a :: as) (.call a m o :: (closing e o ++ t)) s' := by
  have hna : a ∉ as := (List.nodup_cons.1 hnd).1
  have hlt : ∀ c ∈ as, c < s.next ∧ c ≠ a := by
    intro c hc
    obtain ⟨e', g1, _⟩ := (hs.mon c).1 (has c hc)
    exact ⟨hs.next _ _ g1, fun e2 => hna (e2 ▸ hc)⟩
  obtain ⟨k1, k2, k3⟩ := calls_closing e o
  refine ⟨h2.inv, h2.clean, Nat.le_trans h1.next h2.next, h2.masked, ?_, ?_, ?_, ?_, ?_, ?_, ?_, ?_⟩
  · rw [h2.trace, h1.trace]; simp
  · show a :: Fly.Dispatch.calls (closing e o ++ t) = _
    rw [calls_append, k1, h2.calls]; rfl
  · show Fly.Dispatch.written (closing e o ++ t) = _
    rw [written_append, k2, h2.written]; rfl
  · show _ = Fly.Dispatch.pend s ++ (lines o ++ produced (closing e o ++ t))
    rw [h2.pend, h1.pend, produced_append, k3]; simp
  · intro b m' o' hb
    rcases List.mem_cons.1 hb with hb | hb
    · cases hb; rfl
    · rcases List.mem_append.1 hb with hb | hb
      · unfold closing at hb; split at hb <;> simp at hb
      · exact h2.mask b m' o' hb
  · intro b hb hbn
    rw [List.mem_cons, not_or] at hbn
    rw [h2.others b (Nat.lt_of_lt_of_le hb h1.next) hbn.2, h1.others b hb hbn.1]
  · intro fd hfd
    rcases List.mem_cons.1 hfd with hfd | hfd
    · cases hfd
    · rcases List.mem_append.1 hfd with hfd | hfd
      · refine ⟨a, List.mem_cons_self .., e, he, ?_⟩
        unfold closing at hfd; split at hfd
        · simp at hfd; exact hfd.symm
        · simp at hfd
      · obtain ⟨c, c1, e', c2, c3⟩ := h2.closes fd hfd
        rw [h1.others c (hlt c c1).1 (hlt c c1).2] at c2
        exact ⟨c, List.mem_cons_of_mem _ c1, e', c2, c3⟩
  · intro b hb
    have hcount : ∀ fd, (Obs.call a m o :: (closing e o ++ t)).count (.close fd) =
        (if fd = e.fd then (if o.closes || o.fails then 1 else 0) else 0) + t.count (.close fd) := by
      intro fd
      rw [List.count_cons_of_ne (by simp), List.count_append]
      congr 1
      unfold closing
      split
      · by_cases hfd : fd = e.fd
        · rw [if_pos hfd, hfd]; simp
        · rw [if_neg hfd]; rw [List.count_eq_zero]; simp [hfd]
      · split <;> rfl
    rcases List.mem_cons.1 hb with hb | hb
    · subst hb
      refine ⟨e, o, he, List.mem_cons_self .., ?_, ?_⟩
      · rw [h2.others b (Nat.lt_of_lt_of_le (hs.next _ _ he) h1.next) hna, h1.own]
      · rw [hcount, if_pos rfl]
        have : t.count (.close e.fd) = 0 := by
          rw [List.count_eq_zero]
          intro hx
          obtain ⟨c, c1, e', c2, c3⟩ := h2.closes _ hx
          rw [h1.others c (hlt c c1).1 (hlt c c1).2] at c2
          obtain ⟨e2, g1, g2⟩ := (hs.mon c).1 (has c c1)
          rw [c2] at g1; cases g1
          exact (hlt c c1).2 (hs.fds c b e' e c2 he g2 hm (hsc c e' c2 g2) (hsc b e he hm) c3)
        omega
    · obtain ⟨e', o', g1, g2, g3, g4⟩ := h2.own b hb
      rw [h1.others b (hlt b hb).1 (hlt b hb).2] at g1
      refine ⟨e', o', g1, List.mem_cons_of_mem _ (List.mem_append_right _ g2), g3, ?_⟩
      rw [hcount, g4]
      obtain ⟨e2, l1, l2⟩ := (hs.mon b).1 (has b hb)
      rw [g1] at l1; cases l1
      have : e'.fd ≠ e.fd := by
        intro hfd
        exact (hlt b hb).2 (hs.fds b a e' e g1 he l2 hm (hsc b e' g1 l2) (hsc a e he hm) hfd)
      rw [if_neg this]; omega

theorem Eff.mon {s s' : St} {a : Nat} {e : Ev} {o : Outcome} {k m : Bool} (h : Eff s a e o k m s') (hs : Inv s) (b : Nat) (hb : b ∈ s.mon) (hba : b ≠ a) :
    b ∈ s'.mon := by
  obtain ⟨e', g1, g2⟩ := (hs.mon b).1 hb
  exact (h.inv.mon b).2 ⟨e', by rw [h.others b (hs.next _ _ g1) hba]; exact g1, g2⟩

/-- A batch. -/
theorem batch_eff {W : World} (hW : Contract W) : ∀ (as : List Nat) (s : St), Inv s → Clean s → s.masked = false → as.Nodup → (∀ a ∈ as, a ∈ s.mon) →
    (∃ s' t, batch W s as = .run s' ∧ BEff (fun o => !o.fails && o.flag.keep) true s as t s' ∧
      (∀ a o, .call a true o ∈ t → ∀ e, s.heap a = some e → ¬ Fatal e o)) ∨
    (∃ s' t as' a e o u, batch W s as = .ended s' ∧ s'.trace = s.trace ++ t ∧ (as' ++ [a]) <+: as ∧ calls t = as' ++ [a] ∧
      s.heap a = some e ∧ t = u ++ .call a true o :: closing e o ∧ Fatal e o ∧ written t = [] ∧ (∀ b m o, .call b m o ∈ t → m = true)) := by
  intro as
  induction as with
  | nil =>
    intro s h hc hm _ _
    exact .inl ⟨s, [], rfl, BEff.nil h hc hm, by simp⟩
  | cons a as ih =>
    intro s h hc hmk hnd has
    obtain ⟨e, he, hm⟩ := (h.mon a).1 (has a (List.mem_cons_self ..))
    obtain ⟨o, s1, hd⟩ := dispatch_mon hW h hc a e he hm
    obtain ⟨k1, k2, k3⟩ := calls_closing e o
    by_cases hf : fatalB e o = true
    · rw [if_pos hf] at hd
      refine .inr ⟨s1, .call a true o :: closing e o, [], a, e, o, [], ?_, hd.2, ⟨as, rfl⟩, ?_, he, rfl, (fatalB_iff e o).1 hf, ?_, ?_⟩
      · unfold batch; rw [hd.1]; rfl
      · show a :: calls (closing e o) = [a]; rw [k1]
      · show written (closing e o) = []; exact k2
      · intro b m' o' hb
        rcases List.mem_cons.1 hb with hb | hb
        · cases hb; rfl
        · unfold closing at hb; split at hb <;> simp at hb
    · rw [if_neg hf] at hd
      obtain ⟨hd, eff⟩ := hd
      have hna : a ∉ as := (List.nodup_cons.1 hnd).1
      have has' : ∀ c ∈ as, c ∈ s1.mon := fun c hc => eff.mon h c (has c (List.mem_cons_of_mem _ hc)) (fun e2 => hna (e2 ▸ hc))
      have hsame : ∀ c ∈ as, s1.heap c = s.heap c := by
        intro c hcm
        obtain ⟨e', g1, _⟩ := (h.mon c).1 (has c (List.mem_cons_of_mem _ hcm))
        exact eff.others c (h.next _ _ g1) (fun e2 => hna (e2 ▸ hcm))
      rcases ih s1 eff.inv eff.clean eff.masked (List.nodup_cons.1 hnd).2 has' with ⟨s', t, r, b, nf⟩ | ⟨s', t, as', c, ec, oc, u, r, r1, r2, r3, r4, r5, r6, r7, r8⟩
      · refine .inl ⟨s', .call a true o :: (closing e o ++ t), ?_, ?_, ?_⟩
        · unfold batch; rw [hd]; exact r
        · exact BEff.cons h hc he hm hnd (fun c hc => has c (List.mem_cons_of_mem _ hc)) eff b
        · intro a' o' hx e' he'
          rcases List.mem_cons.1 hx with hx | hx
          · cases hx; rw [he] at he'; cases he'; exact fun hh => hf ((fatalB_iff _ _).2 hh)
          · rcases List.mem_append.1 hx with hx | hx
            · unfold closing at hx; split at hx <;> simp at hx
            · have hin : a' ∈ as := by
                have : a' ∈ calls t := by
                  exact mem_calls hx
                rw [b.calls] at this; exact this
              exact nf a' o' hx e' (by rw [hsame a' hin]; exact he')
      · obtain ⟨rest, hrest⟩ := r2
        have hcin : c ∈ as := by rw [← hrest]; simp
        refine .inr ⟨s', .call a true o :: (closing e o ++ t), a :: as', c, ec, oc, .call a true o :: (closing e o ++ u), ?_, ?_, ⟨rest, ?_⟩, ?_, ?_, ?_, r6, ?_, ?_⟩
        · unfold batch; rw [hd]; exact r
        · rw [r1, eff.trace]; simp
        · rw [← hrest]; rfl
        · show a :: calls (closing e o ++ t) = _
          rw [calls_append, k1, r3]; rfl
        · rw [← hsame c hcin]; exact r4
        · rw [r5]; simp
        · show written (closing e o ++ t) = []
          rw [written_append, k2, r7]; rfl
        · intro b m' o' hb
          rcases List.mem_cons.1 hb with hb | hb
          · cases hb; rfl
          · rcases List.mem_append.1 hb with hb | hb
            · unfold closing at hb; split at hb <;> simp at hb
            · exact r8 b m' o' hb

/-- The turn in which the wait ran out. -/
theorem expire_eff {X : World} (hX : Contract X) : ∀ (as : List Nat) (s : St), Inv s → Clean s → s.masked = false → as.Nodup → (∀ a ∈ as, a ∈ s.mon) →
    ∃ s' t, expire X s as = .run s' ∧ BEff (fun _ => false) false s as t s' := by
  intro as
  induction as with
  | nil =>
    intro s h hc hm _ _
    exact ⟨s, [], rfl, BEff.nil h hc hm⟩
  | cons a as ih =>
    intro s h hc hmk hnd has
    obtain ⟨e, he, hm⟩ := (h.mon a).1 (has a (List.mem_cons_self ..))
    obtain ⟨o, s1, hd, eff⟩ := expire1_mon hX h hc hmk a e he hm
    have hna : a ∉ as := (List.nodup_cons.1 hnd).1
    have has' : ∀ c ∈ as, c ∈ s1.mon := fun c hc => eff.mon h c (has c (List.mem_cons_of_mem _ hc)) (fun e2 => hna (e2 ▸ hc))
    obtain ⟨s', t, r, b⟩ := ih s1 eff.inv eff.clean eff.masked (List.nodup_cons.1 hnd).2 has'
    refine ⟨s', .call a false o :: (closing e o ++ t), ?_, ?_⟩
    · unfold expire; rw [hd]; exact r
    · exact BEff.cons h hc he hm hnd (fun c hc => has c (List.mem_cons_of_mem _ hc)) eff b

/-- All waiting log entries are written, in order. -/
theorem drain_eff {W : World} (hW : Contract W) : ∀ (n : Nat) (s : St), Inv s → Clean s → s.masked = false → s.unmon.length ≤ n →
    ∃ s' t, s'.trace = s.trace ++ t ∧ calls t = [] ∧ (∀ fd, .close fd ∉ t) ∧ (∀ l m o, .write l m o ∈ t → m = true) ∧
      ((drain W n s = .run s' ∧ Inv s' ∧ Clean s' ∧ s'.masked = false ∧ s'.unmon = [] ∧ s'.next = s.next ∧ written t = pend s ∧
          (∀ b e, s.heap b = some e → e.monitorable = true → s'.heap b = some e) ∧ (∀ b, s.heap b = none → s'.heap b = none)) ∨
       (drain W n s = .ended s' ∧ written t <+: pend s ∧ ∃ u l o, t = u ++ [.write l true o] ∧ ∃ x ∈ o.errs, x = .emerg ∨ x = .crit ∨ x = .err)) := by
  intro n
  induction n with
  | zero =>
    intro s h hc hm hn
    have hu : s.unmon = [] := List.length_eq_zero_iff.1 (by omega)
    refine ⟨s, [], by simp, rfl, by simp, by simp, .inl ⟨?_, h, hc, hm, hu, rfl, ?_, fun b e he _ => he, fun b hb => hb⟩⟩
    · unfold drain; rw [hu]; rfl
    · unfold pend; rw [hu]; rfl
  | succ n ih =>
    intro s h hc hmk hn
    cases hu : s.unmon with
    | nil =>
      refine ⟨s, [], by simp, rfl, by simp, by simp, .inl ⟨?_, h, hc, hmk, hu, rfl, ?_, fun b e he _ => he, fun b hb => hb⟩⟩
      · unfold drain; rw [hu]
      · unfold pend; rw [hu]; rfl
    | cons a rest =>
      obtain ⟨e, he, hm⟩ := (h.unmon a).1 (by rw [hu]; exact List.mem_cons_self ..)
      obtain ⟨o, s1, htr, hnf, hd⟩ := dispatch_line hW h a e he hm
      have hdr : drain W (n + 1) s = (dispatch W s a).bind fun s => drain W n s := by
        rw [drain.eq_def]; dsimp only; rw [hu]
      have hpend : pend s = e.line :: rest.filterMap (fun a => (s.heap a).map (·.line)) := by
        unfold pend; rw [hu, List.filterMap_cons, he]; rfl
      by_cases hf : fatalB e o = true
      · rw [if_pos hf] at hd
        refine ⟨s1, [.write e.line true o], htr, rfl, by simp, ?_, .inr ⟨by rw [hdr, hd]; rfl, ?_, [], e.line, o, rfl, ?_⟩⟩
        · intro l m' o' hx; simp at hx; exact hx.2.1
        · rw [hpend]; exact ⟨_, rfl⟩
        · rcases (fatalB_iff e o).1 hf with hx | ⟨_, hx⟩
          · exact hx
          · rw [hnf] at hx; cases hx
      · rw [if_neg hf] at hd
        obtain ⟨d0, d1, d2, d3, d4, d5, d6, d7⟩ := hd
        have hrest : s1.unmon = rest := by rw [d6, hu, List.erase_cons_head]
        have hnd : a ∉ rest := by have := h.undup; rw [hu] at this; exact (List.nodup_cons.1 this).1
        have hc1 : Clean s1 := by
          intro b e' hb hm'
          have hba : b ≠ a := by intro e2; subst e2; rw [d3] at hb; cases hb
          exact hc b e' (by rw [← d4 b hba]; exact hb) hm'
        have hp1 : pend s1 = rest.filterMap (fun a => (s.heap a).map (·.line)) := by
          unfold pend; rw [hrest]
          apply filterMap_same
          intro b hb
          have hba : b ≠ a := fun e2 => hnd (e2 ▸ hb)
          rw [d4 b hba]
        obtain ⟨s', t, r1, r2, r3, r4, r5⟩ := ih s1 d1 hc1 d5 (by rw [hrest]; rw [hu] at hn; simp at hn; omega)
        refine ⟨s', .write e.line true o :: t, by rw [r1, htr]; simp, r2, ?_, ?_, ?_⟩
        · intro fd hx; rcases List.mem_cons.1 hx with hx | hx
          · cases hx
          · exact r3 fd hx
        · intro l m' o' hx; rcases List.mem_cons.1 hx with hx | hx
          · cases hx; rfl
          · exact r4 l m' o' hx
        · rcases r5 with ⟨q1, q2, q3, q4, q5, q6, q7, q8, q9⟩ | ⟨q1, q2, u, l, o', q3, q5⟩
          · refine .inl ⟨by rw [hdr, d0]; exact q1, q2, q3, q4, q5, by rw [q6, d2], ?_, ?_, ?_⟩
            · show e.line :: written t = _; rw [q7, hp1, hpend]
            · intro b e' hb hm'
              have hba : b ≠ a := by intro e2; subst e2; rw [he] at hb; cases hb; rw [hm] at hm'; cases hm'
              exact q8 b e' (by rw [d4 b hba]; exact hb) hm'
            · intro b hb
              have hba : b ≠ a := by intro e2; subst e2; rw [he] at hb; cases hb
              exact q9 b (by rw [d4 b hba]; exact hb)
          · refine .inr ⟨by rw [hdr, d0]; exact q1, ?_, .write e.line true o :: u, l, o', by rw [q3]; rfl, q5⟩
            · show (e.line :: written t) <+: _
              rw [hpend, ← hp1]; exact List.cons_prefix_cons.2 ⟨rfl, q2⟩

theorem start_inv {es : List Ev} (h : Begin es) : Inv (start es) ∧ Clean (start es) ∧ (start es).masked = false ∧ (start es).unmon = [] ∧ (start es).trace = [] := by
  have h0 : Inv ⟨fun _ => none, 0, [], [], [], [], false, []⟩ := by
    refine ⟨?_, ?_, List.nodup_nil, List.nodup_nil, ?_, ?_, ?_, ?_⟩
    · intro a; simp
    · intro a; simp
    · intro a e hx; cases hx
    · intro fd a; simp
    · intro a b e e' hx; cases hx
    · intro a e hx; cases hx
  have hfil : es.filter (·.monitorable) = es := List.filter_eq_self.2 fun e he => (h.1 e he).1
  obtain ⟨i1, i2, i3, i4, i5, i6, i7, _⟩ := registers_inv es _ h0 (fun e he _ => ⟨by simp, (h.1 e he).2⟩) (by rw [hfil]; exact h.2)
  have hnomon : ∀ a, a ∉ (start es).unmon := by
    intro a ha
    obtain ⟨e, g1, g2⟩ := (i1.unmon a).1 ha
    rcases i4 a e g1 with hx | hx
    · exact absurd hx (by simp)
    · rw [(h.1 e hx).1] at g2; cases g2
  refine ⟨i1, ?_, i6, ?_, i5⟩
  · intro a e ha _
    rcases i4 a e ha with hx | hx
    · exact absurd hx (by simp)
    · exact (h.1 e hx).2
  · exact List.eq_nil_iff_forall_not_mem.2 hnomon

end Fly.Dispatch
