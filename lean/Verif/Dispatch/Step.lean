import Verif.Dispatch.Lemmas

namespace Fly.Dispatch

/-- The part of the contract about one outcome. -/
structure OkOut (files : List Nat) (o : Outcome) : Prop where
  flagClose : o.closes = o.flag.close
  closeOnly : o.flag.close = true → o.flag = Flag.closeEv
  fresh : ∀ e ∈ o.spawn, e.monitorable = true → e.fd ∉ files ∧ e.flag.close = false
  distinct : ((o.spawn.filter (·.monitorable)).map (·.fd)).Nodup

theorem Contract.ok {W : World} (h : Contract W) (s : St) (a : Nat) : OkOut s.files (W s a) :=
  ⟨h.flagClose s a, h.closeOnly s a, fun e he hm => h.fresh s a e he hm, h.distinct s a⟩

theorem Inv.same {s s' : St} (h : Inv s) (h1 : s'.heap = s.heap) (h2 : s'.next = s.next) (h3 : s'.mon = s.mon) (h4 : s'.unmon = s.unmon)
    (h5 : s'.kern = s.kern) (h6 : s'.files = s.files) : Inv s' := by
  cases s; cases s'; simp only at h1 h2 h3 h4 h5 h6; subst h1; subst h2; subst h3; subst h4; subst h5; subst h6
  exact ⟨h.1, h.2, h.3, h.4, h.5, h.6, h.7, h.8⟩

/-- The log entries an outcome asks for. -/
def lines (o : Outcome) : List Nat := (o.spawn.filter (fun e => !e.monitorable)).map (·.line)

/-- The effects of a handler on the bookkeeping. -/
theorem act_inv {s : St} (h : Inv s) (a : Nat) (e : Ev) (o : Outcome) (he : s.heap a = some e) (hm : e.monitorable = true)
    (hc : e.flag.close = false) (ho : OkOut s.files o) :
    Inv (act s a e o) ∧ s.next ≤ (act s a e o).next ∧ (∀ b, b < s.next → b ≠ a → (act s a e o).heap b = s.heap b) ∧
    (act s a e o).heap a = some { e with flag := o.flag } ∧
    (∀ b e', (act s a e o).heap b = some e' → b < s.next ∨ e' ∈ o.spawn) ∧
    (act s a e o).trace = s.trace ++ (if o.closes then [.close e.fd] else []) ∧ (act s a e o).masked = s.masked ∧
    pend (act s a e o) = pend s ++ lines o := by
  have ha : a < s.next := h.next _ _ he
  have hna : a ∉ s.unmon := by
    intro hx; obtain ⟨e', h1, h2⟩ := (h.unmon a).1 hx; rw [he] at h1; cases h1; rw [hm] at h2; cases h2
  obtain ⟨s1, hs1⟩ : ∃ s1, s1 = if o.closes then closeFd (s.put a (some { e with flag := o.flag })) e.fd else s.put a (some { e with flag := o.flag }) := ⟨_, rfl⟩
  have hact : act s a e o = o.spawn.foldl register s1 := by unfold act; rw [hs1]
  have hheap : s1.heap = fun x => if x = a then some { e with flag := o.flag } else s.heap x := by
    rw [hs1]; split <;> rfl
  have hinv : Inv s1 := by
    rw [hs1]
    by_cases hcl : o.closes = true
    · rw [if_pos hcl]
      exact close_inv h a e o.flag he hm hc (by rw [← ho.flagClose, hcl])
    · rw [if_neg hcl]
      exact flag_inv h a e o.flag he (by rw [hc, ← ho.flagClose]; simpa using hcl)
  have hnext : s1.next = s.next := by rw [hs1]; split <;> rfl
  have hun : s1.unmon = s.unmon := by rw [hs1]; split <;> rfl
  have hmk : s1.masked = s.masked := by rw [hs1]; split <;> rfl
  have htr : s1.trace = s.trace ++ (if o.closes then [.close e.fd] else []) := by
    rw [hs1]; split
    · rfl
    · exact (List.append_nil _).symm
  have hfiles : ∀ fd, fd ∈ s1.files → fd ∈ s.files := by
    intro fd; rw [hs1]; split
    · intro hx; exact (List.mem_filter.1 hx).1
    · exact fun hx => hx
  obtain ⟨i1, i2, i3, i4, i5, i6, i7, _⟩ := registers_inv o.spawn s1 hinv
    (fun e' he' m' => ⟨fun hx => (ho.fresh e' he' m').1 (hfiles _ hx), (ho.fresh e' he' m').2⟩) ho.distinct
  rw [hact]
  refine ⟨i1, by omega, ?_, ?_, ?_, by rw [i5, htr], by rw [i6, hmk], ?_⟩
  · intro b hb hba
    rw [i3 b (by omega), hheap]; simp [hba]
  · rw [i3 a (by omega), hheap]; simp
  · intro b e' hb
    rcases i4 b e' hb with h1 | h1
    · exact .inl (by omega)
    · exact .inr h1
  · rw [i7]
    congr 1
    apply pend_congr hun
    intro b hb
    have : b ≠ a := fun e2 => hna (e2 ▸ hb)
    rw [hheap]; simp [this]

/-- Handler and failure treatment together. -/
theorem act_failure {s : St} (h : Inv s) (a : Nat) (e : Ev) (o : Outcome) (he : s.heap a = some e) (hm : e.monitorable = true)
    (hc : e.flag.close = false) (ho : OkOut s.files o) (m : Bool) :
    ∃ s', (if o.fails then failure { act s a e o with masked := m } a { e with flag := o.flag } else Res.run { act s a e o with masked := m }) = .run s' ∧
    Inv s' ∧ s.next ≤ s'.next ∧ (∀ b, b < s.next → b ≠ a → s'.heap b = s.heap b) ∧
    s'.heap a = some { e with flag := if o.fails then Flag.closeEv else o.flag } ∧
    (∀ b e', s'.heap b = some e' → b < s.next ∨ e' ∈ o.spawn) ∧
    s'.trace = s.trace ++ closing e o ∧ s'.masked = m ∧ pend s' = pend s ++ lines o := by
  obtain ⟨i1, i2, i3, i4, i5, i6, i7, i8⟩ := act_inv h a e o he hm hc ho
  have i1' : Inv { act s a e o with masked := m } := i1.same rfl rfl rfl rfl rfl rfl
  by_cases hf : o.fails = true
  · rw [if_pos hf]
    unfold failure
    by_cases hcl : o.flag = Flag.closeEv
    · rw [if_pos (show ({ e with flag := o.flag } : Ev).flag = Flag.closeEv from hcl)]
      have hclo : o.closes = true := by rw [ho.flagClose, hcl]; rfl
      refine ⟨_, rfl, i1', i2, i3, ?_, i5, ?_, rfl, i8⟩
      · rw [if_pos hf, ← hcl]; exact i4
      · show (act s a e o).trace = _
        rw [i6, hclo]; simp [closing, hclo]
    · have hncl : o.flag.close = false := by
        cases hx : o.flag.close with
        | false => rfl
        | true => exact absurd (ho.closeOnly hx) hcl
      have hclo : o.closes = false := by rw [ho.flagClose, hncl]
      rw [if_neg (show ¬ ({ e with flag := o.flag } : Ev).flag = Flag.closeEv from hcl)]
      have hfile : e.fd ∈ (act s a e o).files := i1.files a { e with flag := o.flag } i4 hm hncl
      rw [if_pos (show (({ act s a e o with masked := m } : St).files.contains ({ e with flag := o.flag } : Ev).fd) = true by simpa using hfile)]
      have hz := close_inv i1' a { e with flag := o.flag } Flag.closeEv i4 hm hncl rfl
      refine ⟨_, rfl, ?_, i2, ?_, ?_, ?_, ?_, rfl, ?_⟩
      · exact hz
      · intro b hb hba
        show (if b = a then _ else (act s a e o).heap b) = _
        rw [if_neg hba]; exact i3 b hb hba
      · show (if a = a then _ else (act s a e o).heap a) = _
        rw [if_pos rfl, if_pos hf]
      · intro b e' hb
        replace hb : (if b = a then some { e with flag := Flag.closeEv } else (act s a e o).heap b) = some e' := hb
        by_cases hba : b = a
        · subst hba; exact .inl (h.next _ _ he)
        · rw [if_neg hba] at hb; exact i5 b e' hb
      · show (act s a e o).trace ++ [.close e.fd] = _
        rw [i6, hclo]; simp [closing, hf]
      · rw [← i8]
        have hna : a ∉ (act s a e o).unmon := by
          intro hx; obtain ⟨e', h1, h2⟩ := (i1.unmon a).1 hx; rw [i4] at h1; cases h1; exact absurd h2 (by simp [hm])
        refine pend_congr (s := act s a e o) (by rfl) ?_
        intro b hb
        have hba : b ≠ a := fun e2 => hna (e2 ▸ hb)
        show Option.map _ (if b = a then _ else (act s a e o).heap b) = _
        rw [if_neg hba]
  · rw [if_neg hf]
    refine ⟨_, rfl, i1', i2, i3, ?_, i5, ?_, rfl, i8⟩
    · rw [if_neg hf]; exact i4
    · show (act s a e o).trace = _
      rw [i6]; simp [closing, hf]

/-- What the process does with an outcome: end or go on. -/
def fatalB (e : Ev) (o : Outcome) : Bool := o.errs.any Level.ends || (e.failTerm && o.fails)

theorem fatalB_iff (e : Ev) (o : Outcome) : fatalB e o = true ↔ Fatal e o := by
  unfold fatalB Fatal
  rw [Bool.or_eq_true, Bool.and_eq_true, List.any_eq_true]
  constructor
  · rintro (⟨l, h1, h2⟩ | h)
    · refine .inl ⟨l, h1, ?_⟩; cases l <;> simp [Level.ends] at h2 ⊢
    · exact .inr h
  · rintro (⟨l, h1, h2⟩ | h)
    · refine .inl ⟨l, h1, ?_⟩; rcases h2 with h2 | h2 | h2 <;> subst h2 <;> rfl
    · exact .inr h

/-- What one pass over a monitorable event does when the process goes on. -/
structure Eff (s : St) (a : Nat) (e : Ev) (o : Outcome) (kept : Bool) (m : Bool) (s' : St) : Prop where
  inv : Inv s'
  clean : Clean s'
  next : s.next ≤ s'.next
  others : ∀ b, b < s.next → b ≠ a → s'.heap b = s.heap b
  own : s'.heap a = if kept then some { e with flag := o.flag } else none
  trace : s'.trace = s.trace ++ (.call a m o :: closing e o)
  masked : s'.masked = false
  pend : pend s' = pend s ++ lines o

theorem finish {s s1 : St} (hcl : Clean s) {a : Nat} {e : Ev} {o : Outcome} (he : s.heap a = some e) (hm : e.monitorable = true) (ho : OkOut s.files o)
    (i1 : Inv s1) (i2 : s.next ≤ s1.next) (i3 : ∀ b, b < s.next → b ≠ a → s1.heap b = s.heap b)
    (i5 : ∀ b e', s1.heap b = some e' → b < s.next ∨ e' ∈ o.spawn) :
    ∀ b e', b ≠ a → s1.heap b = some e' → e'.monitorable = true → e'.flag.close = false := by
  intro b e' hba hb hm'
  rcases i5 b e' hb with h1 | h1
  · rw [i3 b h1 hba] at hb; exact hcl b e' hb hm'
  · exact (ho.fresh e' h1 hm').2

theorem dispatch_mon {W : World} (hW : Contract W) {s : St} (h : Inv s) (hcl : Clean s) (a : Nat) (e : Ev) (he : s.heap a = some e)
    (hm : e.monitorable = true) :
    ∃ o s', (if fatalB e o then dispatch W s a = .ended s' ∧ s'.trace = s.trace ++ (.call a true o :: closing e o)
      else dispatch W s a = .run s' ∧ Eff s a e o (!o.fails && o.flag.keep) true s') := by
  let s0 : St := { s with masked := true }
  let o := W s0 a
  let s1 : St := { s0 with trace := s0.trace ++ [.call a true o] }
  have h1 : Inv s1 := h.same rfl rfl rfl rfl rfl rfl
  have ho : OkOut s1.files o := hW.ok s0 a
  have hc : e.flag.close = false := hcl a e he hm
  obtain ⟨s2, r, i1, i2, i3, i4, i5, i6, i7, i8⟩ := act_failure h1 a e o he hm hc ho false
  have hhandle : handle W s a = if fatalB e o then .ended s2 else .run s2 := by
    unfold handle
    rw [he]
    dsimp only
    have hseen : seen e a true o = .call a true o := by unfold seen; rw [if_pos hm]
    show Res.bind (if o.fails then failure { act { s0 with trace := s0.trace ++ [seen e a true o] } a e o with masked := false } a { e with flag := o.flag }
      else .run { act { s0 with trace := s0.trace ++ [seen e a true o] } a e o with masked := false }) _ = _
    rw [hseen, r]
    show (if o.errs.any Level.ends then Res.ended s2 else if e.failTerm && o.fails then Res.ended s2 else Res.run s2) = _
    unfold fatalB
    cases o.errs.any Level.ends <;> cases (e.failTerm && o.fails) <;> rfl
  have htr : s2.trace = s.trace ++ (.call a true o :: closing e o) := by
    rw [i6]; show (s.trace ++ [_]) ++ _ = _; simp
  refine ⟨o, ?_⟩
  by_cases hfa : fatalB e o = true
  · refine ⟨s2, ?_⟩
    rw [if_pos hfa]
    refine ⟨?_, htr⟩
    unfold dispatch; rw [hhandle, if_pos hfa]; rfl
  · have hd : dispatch W s a = if (if o.fails then Flag.closeEv else o.flag).keep then .run s2 else unregister s2 a := by
      unfold dispatch; rw [hhandle, if_neg hfa]
      show (match s2.heap a with | none => Res.uaf | some e => if e.flag.keep then .run s2 else unregister s2 a) = _
      rw [i4]
    have hkeep : (if o.fails then Flag.closeEv else o.flag).keep = (!o.fails && o.flag.keep) := by
      cases o.fails <;> simp [Flag.keep, Flag.closeEv]
    have hother := finish (s := s1) (s1 := s2) hcl he hm ho i1 i2 i3 i5
    cases hk : (!o.fails && o.flag.keep) with
    | true =>
      refine ⟨s2, ?_⟩
      rw [if_neg hfa, hd, hkeep, hk, if_pos rfl]
      rw [Bool.and_eq_true] at hk
      have hf : o.fails = false := by simpa using hk.1
      refine ⟨rfl, i1, ?_, i2, i3, ?_, htr, i7, i8⟩
      · intro b e' hb hm'
        by_cases hba : b = a
        · subst hba
          rw [i4, hf] at hb; cases hb
          show o.flag.close = false
          cases hx : o.flag.close with
          | false => rfl
          | true => have := ho.closeOnly hx; rw [this] at hk; exact absurd hk.2 (by decide)
        · exact hother b e' hba hb hm'
      · rw [i4, hf]; rfl
    | false =>
      obtain ⟨s3, u0, u1, u2, u3, u4, u5, u6, u7, u8⟩ := unregister_mon i1 a _ i4 hm
      refine ⟨s3, ?_⟩
      rw [if_neg hfa, hd, hkeep, hk]
      refine ⟨u0, u1, ?_, by rw [u2]; exact i2, ?_, u3, by rw [u5, htr], by rw [u6, i7], ?_⟩
      · intro b e' hb hm'
        have hba : b ≠ a := by intro e2; subst e2; rw [u3] at hb; cases hb
        rw [u4 b hba] at hb
        exact hother b e' hba hb hm'
      · intro b hb hba
        rw [u4 b hba]; exact i3 b hb hba
      · have hps : pend s = pend s1 := rfl
        rw [hps, ← i8]
        apply pend_congr u7
        intro b hb
        have hba : b ≠ a := by
          intro e2; subst e2
          obtain ⟨e', g1, g2⟩ := (i1.unmon b).1 hb
          rw [i4] at g1; cases g1; exact absurd g2 (by simp [hm])
        rw [u4 b hba]

theorem expire1_mon {X : World} (hX : Contract X) {s : St} (h : Inv s) (hcl : Clean s) (hmk : s.masked = false) (a : Nat) (e : Ev) (he : s.heap a = some e)
    (hm : e.monitorable = true) :
    ∃ o s', expire1 X s a = .run s' ∧ Eff s a e o false false s' := by
  let o := X s a
  let s1 : St := { s with trace := s.trace ++ [.call a false o] }
  have h1 : Inv s1 := h.same rfl rfl rfl rfl rfl rfl
  have ho : OkOut s1.files o := hX.ok s a
  have hc : e.flag.close = false := hcl a e he hm
  obtain ⟨s2, r, i1, i2, i3, i4, i5, i6, i7, i8⟩ := act_failure h1 a e o he hm hc ho false
  have hactm : ({ act s1 a e o with masked := false } : St) = act s1 a e o := by
    have := (act_inv h1 a e o he hm hc ho).2.2.2.2.2.2.1
    rw [show s1.masked = false from hmk] at this
    generalize act s1 a e o = z at this
    cases z; simp only at this; subst this; rfl
  have htr : s2.trace = s.trace ++ (.call a false o :: closing e o) := by
    rw [i6]; show (s.trace ++ [_]) ++ _ = _; simp
  have hex : expire1 X s a = unregister s2 a := by
    unfold expire1
    rw [he]
    dsimp only
    have hseen : seen e a s.masked o = .call a false o := by unfold seen; rw [if_pos hm, hmk]
    show Res.bind (if o.fails then failure (act { s with trace := s.trace ++ [seen e a s.masked o] } a e o) a { e with flag := o.flag }
      else .run (act { s with trace := s.trace ++ [seen e a s.masked o] } a e o)) _ = _
    rw [hseen]
    rw [hactm] at r
    rw [show act { s with trace := s.trace ++ [Obs.call a false o] } a e o = act s1 a e o from rfl, r]
    rfl
  have hother := finish (s := s1) (s1 := s2) hcl he hm ho i1 i2 i3 i5
  obtain ⟨s3, u0, u1, u2, u3, u4, u5, u6, u7, u8⟩ := unregister_mon i1 a _ i4 hm
  refine ⟨o, s3, by rw [hex, u0], u1, ?_, by rw [u2]; exact i2, ?_, u3, by rw [u5, htr], by rw [u6, i7], ?_⟩
  · intro b e' hb hm'
    have hba : b ≠ a := by intro e2; subst e2; rw [u3] at hb; cases hb
    rw [u4 b hba] at hb
    exact hother b e' hba hb hm'
  · intro b hb hba
    rw [u4 b hba]; exact i3 b hb hba
  · have hps : pend s = pend s1 := rfl
    rw [hps, ← i8]
    apply pend_congr u7
    intro b hb
    have hba : b ≠ a := by
      intro e2; subst e2
      obtain ⟨e', g1, g2⟩ := (i1.unmon b).1 hb
      rw [i4] at g1; cases g1; exact absurd g2 (by simp [hm])
    rw [u4 b hba]

/-- One pass over a log entry. -/
theorem dispatch_line {W : World} (hW : Contract W) {s : St} (h : Inv s) (a : Nat) (e : Ev) (he : s.heap a = some e)
    (hm : e.monitorable = false) :
    ∃ o s', s'.trace = s.trace ++ [.write e.line true o] ∧ o.fails = false ∧ (if fatalB e o then dispatch W s a = .ended s'
      else dispatch W s a = .run s' ∧ Inv s' ∧ s'.next = s.next ∧ s'.heap a = none ∧ (∀ b, b ≠ a → s'.heap b = s.heap b) ∧
        s'.masked = false ∧ s'.unmon = s.unmon.erase a ∧ s'.mon = s.mon) := by
  let s0 : St := { s with masked := true }
  let o := W s0 a
  obtain ⟨c1, c2, c3, c4⟩ := hW.line s0 a e he hm
  let s1 : St := { s0 with trace := s0.trace ++ [.write e.line true o] }
  let s2 : St := { s1.put a (some { e with flag := Flag.zero }) with masked := false }
  have hhandle : handle W s a = if fatalB e o then .ended s2 else .run s2 := by
    unfold handle
    rw [he]
    dsimp only
    have hseen : seen e a true o = .write e.line true o := by unfold seen; rw [if_neg (by simp [hm])]
    show Res.bind (if o.fails then failure { act { s0 with trace := s0.trace ++ [seen e a true o] } a e o with masked := false } a { e with flag := o.flag }
      else .run { act { s0 with trace := s0.trace ++ [seen e a true o] } a e o with masked := false }) _ = _
    have hact : act { s0 with trace := s0.trace ++ [seen e a true o] } a e o = s1.put a (some { e with flag := Flag.zero }) := by
      unfold act
      show (o.spawn.foldl register (if o.closes then _ else _)) = _
      rw [c4, show o.closes = false from c2, hseen, show o.flag = Flag.zero from c1]; rfl
    rw [hact, if_neg (show ¬ o.fails = true by rw [show o.fails = false from c3]; decide)]
    show (if o.errs.any Level.ends then Res.ended s2 else if e.failTerm && o.fails then Res.ended s2 else Res.run s2) = _
    unfold fatalB
    cases o.errs.any Level.ends <;> cases (e.failTerm && o.fails) <;> rfl
  refine ⟨o, ?_⟩
  by_cases hfa : fatalB e o = true
  · refine ⟨s2, rfl, c3, ?_⟩
    rw [if_pos hfa]
    unfold dispatch; rw [hhandle, if_pos hfa]; rfl
  · have h2 : Inv s2 := by
      by_cases hzc : e.flag.close = false
      · exact (flag_inv h a e Flag.zero he (by rw [hzc]; rfl)).same rfl rfl rfl rfl rfl rfl
      · -- the flag of a log entry does not matter
        have hback : ∀ x e', s2.heap x = some e' → ∃ e2, s.heap x = some e2 ∧ e2.monitorable = e'.monitorable ∧ e2.fd = e'.fd ∧
            (e'.monitorable = true → e2 = e') := by
          intro x e' hx
          replace hx : (if x = a then some { e with flag := Flag.zero } else s.heap x) = some e' := hx
          by_cases hxa : x = a
          · rw [if_pos hxa] at hx; cases hx
            exact ⟨e, by rw [hxa, he], rfl, rfl, fun hmm => absurd hmm (by simp [hm])⟩
          · rw [if_neg hxa] at hx; exact ⟨e', hx, rfl, rfl, fun _ => rfl⟩
        have hforth : ∀ x e', s.heap x = some e' → ∃ e2, s2.heap x = some e2 ∧ e2.monitorable = e'.monitorable ∧
            (e'.monitorable = true → e2 = e') := by
          intro x e' hx
          show ∃ e2, (if x = a then some { e with flag := Flag.zero } else s.heap x) = some e2 ∧ _
          by_cases hxa : x = a
          · subst hxa; rw [he] at hx; cases hx
            rw [if_pos rfl]
            exact ⟨_, rfl, rfl, fun hmm => absurd hmm (by simp [hm])⟩
          · rw [if_neg hxa]; exact ⟨e', hx, rfl, fun _ => rfl⟩
        refine ⟨?_, ?_, h.mondup, h.undup, ?_, ?_, ?_, ?_⟩
        · intro x
          refine (h.mon x).trans ⟨?_, ?_⟩
          · rintro ⟨e', g1, g2⟩; obtain ⟨e2, k1, k2, _⟩ := hforth x e' g1; exact ⟨e2, k1, by rw [k2, g2]⟩
          · rintro ⟨e', g1, g2⟩; obtain ⟨e2, k1, k2, _⟩ := hback x e' g1; exact ⟨e2, k1, by rw [k2, g2]⟩
        · intro x
          refine (h.unmon x).trans ⟨?_, ?_⟩
          · rintro ⟨e', g1, g2⟩; obtain ⟨e2, k1, k2, _⟩ := hforth x e' g1; exact ⟨e2, k1, by rw [k2, g2]⟩
          · rintro ⟨e', g1, g2⟩; obtain ⟨e2, k1, k2, _⟩ := hback x e' g1; exact ⟨e2, k1, by rw [k2, g2]⟩
        · intro x e' hx
          obtain ⟨e2, k1, _⟩ := hback x e' hx
          exact h.next _ _ k1
        · intro fd x
          refine (h.kern fd x).trans ⟨?_, ?_⟩
          · rintro ⟨e', g1, g2, g3, g4⟩; obtain ⟨e2, k1, _, k3⟩ := hforth x e' g1
            have := k3 g2; subst this; exact ⟨e2, k1, g2, g3, g4⟩
          · rintro ⟨e', g1, g2, g3, g4⟩; obtain ⟨e2, k1, _, _, k3⟩ := hback x e' g1
            have := k3 g2; subst this; exact ⟨e2, k1, g2, g3, g4⟩
        · intro x y e1 e2 g1 g2 m1 m2
          obtain ⟨f1, k1, _, _, k3⟩ := hback x e1 g1
          obtain ⟨f2, l1, _, _, l3⟩ := hback y e2 g2
          have := k3 m1; subst this; have := l3 m2; subst this
          exact h.fds x y f1 f2 k1 l1 m1 m2
        · intro x e1 g1 m1
          obtain ⟨f1, k1, _, _, k3⟩ := hback x e1 g1
          have := k3 m1; subst this
          exact h.files x f1 k1 m1
    have hat : s2.heap a = some { e with flag := Flag.zero } := by
      show (if a = a then _ else _) = _; rw [if_pos rfl]
    obtain ⟨s3, u0, u1, u2, u3, u4, u5, u6, u7, u8⟩ := unregister_line h2 a _ hat hm
    refine ⟨s3, by rw [u5]; rfl, c3, ?_⟩
    rw [if_neg hfa]
    refine ⟨?_, u1, u2, u3, ?_, u6, u7, u8⟩
    · unfold dispatch; rw [hhandle, if_neg hfa]
      show (match s2.heap a with | none => Res.uaf | some e => if e.flag.keep then .run s2 else unregister s2 a) = _
      rw [hat]
      exact u0
    · intro b hb
      rw [u4 b hb]
      show (if b = a then _ else s.heap b) = _
      rw [if_neg hb]

end Fly.Dispatch
