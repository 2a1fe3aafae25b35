import Verif.Log.Lock

/-! # C107: entries of all processes arrive whole, nothing recorded is lost -/

namespace Fly.Log

abbrev Ent := Bytes × Bytes

/-! ## Specification -/

/-- What one entry looks like in the file: the time stamp and the text behind it. -/
def whole (e : Ent) : Bytes := e.1 ++ e.2

/-- The pieces written by process `p`, in their order in the file. -/
def mine (pcs : List (Nat × Bytes)) (p : Nat) : List Bytes := (pcs.filter (·.1 == p)).map (·.2)

/-- `ws` are the first `k` of the entries `E`, whole, and then possibly the beginning of the next one. -/
def Written (E : List Ent) (ws : List Bytes) (k : Nat) (cut : List Bytes) : Prop :=
  ws = (E.take k).map whole ++ cut ∧ (cut = [] ∨ ∃ e c, E[k]? = some e ∧ c <+: whole e ∧ cut = [c])

/-- The processes write the entries `E p` with the functions of log.c. -/
def prog (E : List Ent) : List Op := E.flatMap entryOps

/-! ## Invariant -/

/-- The stages of an entry from the moment its lock is held. -/
inductive Stage (file : Bytes) (pos : Nat) (pcs : List (Nat × Bytes)) (p : Nat) (E : List Ent) (k : Nat) (e : Ent) : List Op → Prop
  | s1 : mine pcs p = (E.take k).map whole →
      Stage file pos pcs p E k e (.seek :: .write e.1 :: .seek :: .write e.2 :: .unlockAll :: prog (E.drop (k + 1)))
  | s2 : mine pcs p = (E.take k).map whole → pos = file.length →
      Stage file pos pcs p E k e (.write e.1 :: .seek :: .write e.2 :: .unlockAll :: prog (E.drop (k + 1)))
  | s3 (pre) : pcs = pre ++ [(p, e.1)] → mine pre p = (E.take k).map whole →
      Stage file pos pcs p E k e (.seek :: .write e.2 :: .unlockAll :: prog (E.drop (k + 1)))
  | s4 (pre) : pcs = pre ++ [(p, e.1)] → mine pre p = (E.take k).map whole → pos = file.length →
      Stage file pos pcs p E k e (.write e.2 :: .unlockAll :: prog (E.drop (k + 1)))
  | s5 : mine pcs p = (E.take (k + 1)).map whole →
      Stage file pos pcs p E k e (.unlockAll :: prog (E.drop (k + 1)))

inductive Good (K : List Nat) (file : Bytes) (pos : Nat) (pcs : List (Nat × Bytes)) (p : Nat) (E : List Ent) : Proc → Prop
  | dead (k cut) : p ∈ K → Written E (mine pcs p) k cut → Good K file pos pcs p E ⟨[], none, []⟩
  | idle (k w) : mine pcs p = (E.take k).map whole → Good K file pos pcs p E ⟨prog (E.drop k), w, []⟩
  | busy (k e a ops) : E[k]? = some e → Stage file pos pcs p E k e ops → Good K file pos pcs p E ⟨ops, none, [⟨a, none⟩]⟩

structure Inv (K : List Nat) (f0 : Bytes) (n : Nat) (E : Nat → List Ent) (pcs : List (Nat × Bytes)) (s : Sys) : Prop where
  hn : s.n = n
  file : s.file = f0 ++ (pcs.map (·.2)).flatten
  good : ∀ p, p < n → Good K s.file s.pos pcs p (E p) (s.proc p)
  one : ∀ p q, p < n → q < n → (s.proc p).held ≠ [] → (s.proc q).held ≠ [] → p = q

theorem mine_append (a b : List (Nat × Bytes)) (p : Nat) : mine (a ++ b) p = mine a p ++ mine b p := by
  simp [mine]

theorem mine_self (p : Nat) (b : Bytes) : mine [(p, b)] p = [b] := by simp [mine]

theorem mine_other {p q : Nat} (h : q ≠ p) (b : Bytes) : mine [(p, b)] q = [] := by
  have : (p == q) = false := by simpa using fun e => h e.symm
  simp [mine, this]

/-- A process that holds no lock does not depend on the file. -/
theorem good_other {K : List Nat} {file file' : Bytes} {pos pos' : Nat} {pcs pcs' : List (Nat × Bytes)} {p : Nat} {E : List Ent} {x : Proc}
    (h : Good K file pos pcs p E x) (hh : x.held = []) (hm : mine pcs' p = mine pcs p) : Good K file' pos' pcs' p E x := by
  cases h with
  | dead k cut h1 h2 => exact .dead k cut h1 (by rw [hm]; exact h2)
  | idle k w h1 => exact .idle k w (by rw [hm]; exact h1)
  | busy k e a ops h1 h2 => simp at hh

theorem conflict_false {s : Sys} {p a : Nat} (h : s.conflict p a = false) (q : Nat) (hq : q < s.n) (hqp : q ≠ p) :
    (s.proc q).held.any (Range.meets a) = false := by
  rw [Sys.conflict, List.any_eq_false] at h
  have := h q (List.mem_range.2 hq)
  have hne : (q != p) = true := by simpa using hqp
  rw [hne, Bool.true_and] at this
  simpa using this

theorem conflict_true {s : Sys} {p a : Nat} (h : s.conflict p a = true) :
    ∃ q, q < s.n ∧ q ≠ p ∧ (s.proc q).held ≠ [] := by
  rw [Sys.conflict, List.any_eq_true] at h
  obtain ⟨q, hq, h⟩ := h
  rw [Bool.and_eq_true] at h
  refine ⟨q, List.mem_range.1 hq, by simpa using h.1, ?_⟩
  intro e
  rw [e] at h
  simp at h

theorem writeAt_end (f b : Bytes) : writeAt f f.length b = f ++ b := by
  simp [writeAt]

theorem set_same (s : Sys) (p : Nat) (x : Proc) : (s.set p x).proc p = x := by simp [Sys.set]

theorem set_other (s : Sys) {p q : Nat} (x : Proc) (h : q ≠ p) : (s.set p x).proc q = s.proc q := by simp [Sys.set, h]

/-- If nobody else holds a lock, a change of `p` alone keeps the invariant. -/
theorem inv_set {K : List Nat} {f0 : Bytes} {n : Nat} {E : Nat → List Ent} {pcs pcs' : List (Nat × Bytes)} {s : Sys}
    (hi : Inv K f0 n E pcs s) {p : Nat} (hp : p < n) (x : Proc) (file' : Bytes) (pos' : Nat)
    (hf : file' = f0 ++ (pcs'.map (·.2)).flatten)
    (hg : Good K file' pos' pcs' p (E p) x)
    (hother : ∀ q, q < n → q ≠ p → (s.proc q).held = [])
    (hm : ∀ q, q ≠ p → mine pcs' q = mine pcs q) :
    Inv K f0 n E pcs' { s.set p x with file := file', pos := pos' } := by
  refine ⟨hi.hn, hf, ?_, ?_⟩
  · intro q hq
    by_cases h : q = p
    · subst h
      have : ({ s.set q x with file := file', pos := pos' } : Sys).proc q = x := set_same s q x
      rw [this]
      exact hg
    · have : ({ s.set p x with file := file', pos := pos' } : Sys).proc q = s.proc q := set_other s x h
      rw [this]
      exact good_other (hi.good q hq) (hother q hq h) (hm q h)
  · intro a b ha hb h1 h2
    have hx : ∀ c, c < n → ({ s.set p x with file := file', pos := pos' } : Sys).proc c ≠ x → True := fun _ _ _ => trivial
    have key : ∀ c, c < n → (({ s.set p x with file := file', pos := pos' } : Sys).proc c).held ≠ [] → c = p := by
      intro c hc hne
      by_cases h : c = p
      · exact h
      · exfalso
        have : ({ s.set p x with file := file', pos := pos' } : Sys).proc c = s.proc c := set_other s x h
        rw [this] at hne
        exact hne (hother c hc h)
    rw [key a ha h1, key b hb h2]

theorem inv_step {K : List Nat} {f0 : Bytes} {n : Nat} {E : Nat → List Ent} {pcs : List (Nat × Bytes)} {s s' : Sys} {p : Nat}
    (hi : Inv K f0 n E pcs s) (hs : step s p = some s') : ∃ pcs', Inv K f0 n E pcs' s' := by
  rw [step] at hs
  by_cases hp : s.n ≤ p
  · rw [if_pos hp] at hs; simp at hs
  rw [if_neg hp] at hs
  have hpn : p < n := by rw [← hi.hn]; omega
  have hg := hi.good p hpn
  generalize hx : s.proc p = x at hg hs
  have alone : x.held ≠ [] → ∀ q, q < n → q ≠ p → (s.proc q).held = [] := by
    intro hh q hq hqp
    by_cases e : (s.proc q).held = []
    · exact e
    · exact absurd (hi.one q p hq hpn e (by rw [hx]; exact hh)) hqp
  cases hg with
  | dead k cut h1 h2 => simp at hs
  | idle k w h1 =>
    have hcase : prog ((E p).drop k) = [] ∨ ∃ e, (E p)[k]? = some e ∧
        prog ((E p).drop k) = .lock :: .seek :: .write e.1 :: .seek :: .write e.2 :: .unlockAll :: prog ((E p).drop (k + 1)) := by
      by_cases hk : k < (E p).length
      · right
        refine ⟨(E p)[k], by simp [hk], ?_⟩
        rw [List.drop_eq_getElem_cons hk]
        simp only [prog, List.flatMap_cons, entryOps, List.cons_append, List.nil_append]
      · left
        rw [List.drop_eq_nil_of_le (by omega)]
        rfl
    rcases hcase with h | ⟨e, he, h⟩
    · rw [h] at hs; simp at hs
    · rw [h] at hs
      simp only at hs
      have acquire : ∀ a, s.conflict p a = false →
          Inv K f0 n E pcs (s.set p ⟨.seek :: .write e.1 :: .seek :: .write e.2 :: .unlockAll :: prog ((E p).drop (k + 1)), none, [⟨a, none⟩]⟩) := by
        intro a hc
        refine inv_set hi hpn _ s.file s.pos hi.file (.busy k e a _ he (.s1 h1)) ?_ (fun _ _ => rfl)
        intro q hq hqp
        have hcf := conflict_false hc q (by rw [hi.hn]; exact hq) hqp
        have hgq := hi.good q hq
        generalize s.proc q = y at hgq hcf
        cases hgq with
        | dead => rfl
        | idle => rfl
        | busy => simp [Range.meets] at hcf
      cases w with
      | none =>
        simp only at hs
        cases hc : s.conflict p s.file.length with
        | true =>
          rw [hc] at hs
          simp only [if_true, Option.some.injEq] at hs
          subst hs
          refine ⟨pcs, hi.hn, hi.file, ?_, ?_⟩
          · intro q hq
            by_cases hqp : q = p
            · subst hqp
              rw [set_same, ← h]
              exact .idle k _ h1
            · rw [set_other _ _ hqp]
              exact hi.good q hq
          · intro a b ha hb hha hhb
            have hne : ∀ c, ((s.set p ⟨.lock :: .seek :: .write e.1 :: .seek :: .write e.2 :: .unlockAll :: prog ((E p).drop (k + 1)), some s.file.length, []⟩).proc c).held ≠ [] →
                (s.proc c).held ≠ [] := by
              intro c hc'
              by_cases hcp : c = p
              · subst hcp; rw [set_same] at hc'; exact absurd rfl hc'
              · rwa [set_other _ _ hcp] at hc'
            exact hi.one a b ha hb (hne a hha) (hne b hhb)
        | false =>
          rw [hc] at hs
          simp only [Bool.false_eq_true, if_false, Option.some.injEq] at hs
          subst hs
          exact ⟨pcs, acquire _ hc⟩
      | some a =>
        simp only at hs
        cases hc : s.conflict p a with
        | true => rw [hc] at hs; simp at hs
        | false =>
          rw [hc] at hs
          simp only [Bool.false_eq_true, if_false, Option.some.injEq] at hs
          subst hs
          exact ⟨pcs, acquire _ hc⟩
  | busy k e a ops he hst =>
    have hoth := alone (by simp)
    cases hst with
    | s1 h1 =>
      simp only [Option.some.injEq] at hs
      subst hs
      exact ⟨pcs, inv_set hi hpn _ s.file s.file.length hi.file (.busy k e a _ he (.s2 h1 rfl)) hoth (fun _ _ => rfl)⟩
    | s2 h1 h2 =>
      simp only [Option.some.injEq] at hs
      subst hs
      refine ⟨pcs ++ [(p, e.1)], ?_⟩
      rw [h2, writeAt_end]
      refine inv_set hi hpn _ (s.file ++ e.1) _ ?_ (.busy k e a _ he (.s3 pcs rfl h1)) hoth ?_
      · rw [hi.file]; simp
      · intro q hq; rw [mine_append, mine_other hq, List.append_nil]
    | s3 pre h1 h2 =>
      simp only [Option.some.injEq] at hs
      subst hs
      exact ⟨pcs, inv_set hi hpn _ s.file s.file.length hi.file (.busy k e a _ he (.s4 pre h1 h2 rfl)) hoth (fun _ _ => rfl)⟩
    | s4 pre h1 h2 h3 =>
      simp only [Option.some.injEq] at hs
      subst hs
      refine ⟨pre ++ [(p, whole e)], ?_⟩
      rw [h3, writeAt_end]
      refine inv_set hi hpn _ (s.file ++ e.2) _ ?_ (.busy k e a _ he (.s5 ?_)) hoth ?_
      · rw [hi.file, h1]; simp [whole]
      · rw [mine_append, mine_self, h2, List.take_succ, he]
        simp
      · intro q hq; rw [h1, mine_append, mine_append, mine_other hq, mine_other hq]
    | s5 h1 =>
      simp only [Option.some.injEq] at hs
      subst hs
      exact ⟨pcs, inv_set hi hpn _ s.file s.pos hi.file (.idle (k + 1) none h1) hoth (fun _ _ => rfl)⟩

theorem good_mono {K K' : List Nat} (hk : ∀ x, x ∈ K → x ∈ K') {file : Bytes} {pos : Nat} {pcs : List (Nat × Bytes)} {p : Nat} {E : List Ent} {x : Proc}
    (h : Good K file pos pcs p E x) : Good K' file pos pcs p E x := by
  cases h with
  | dead k cut h1 h2 => exact .dead k cut (hk _ h1) h2
  | idle k w h1 => exact .idle k w h1
  | busy k e a ops h1 h2 => exact .busy k e a ops h1 h2

/-- What a process has written is, at every moment, a number of whole entries and possibly the beginning of one. -/
theorem good_written {K : List Nat} {file : Bytes} {pos : Nat} {pcs : List (Nat × Bytes)} {p : Nat} {E : List Ent} {x : Proc}
    (h : Good K file pos pcs p E x) : ∃ k cut, Written E (mine pcs p) k cut := by
  cases h with
  | dead k cut h1 h2 => exact ⟨k, cut, h2⟩
  | idle k w h1 => exact ⟨k, [], by rw [h1, List.append_nil], Or.inl rfl⟩
  | busy k e a ops h1 h2 =>
    cases h2 with
    | s1 h => exact ⟨k, [], by rw [h, List.append_nil], Or.inl rfl⟩
    | s2 h => exact ⟨k, [], by rw [h, List.append_nil], Or.inl rfl⟩
    | s3 pre h h' => exact ⟨k, [e.1], by rw [h, mine_append, mine_self, h'], Or.inr ⟨e, e.1, h1, ⟨e.2, rfl⟩, rfl⟩⟩
    | s4 pre h h' => exact ⟨k, [e.1], by rw [h, mine_append, mine_self, h'], Or.inr ⟨e, e.1, h1, ⟨e.2, rfl⟩, rfl⟩⟩
    | s5 h => exact ⟨k + 1, [], by rw [h, List.append_nil], Or.inl rfl⟩

theorem inv_kill {K : List Nat} {f0 : Bytes} {n : Nat} {E : Nat → List Ent} {pcs : List (Nat × Bytes)} {s : Sys} (p : Nat)
    (hi : Inv K f0 n E pcs s) : Inv (p :: K) f0 n E pcs (s.set p ⟨[], none, []⟩) := by
  refine ⟨hi.hn, hi.file, ?_, ?_⟩
  · intro q hq
    by_cases hqp : q = p
    · subst hqp
      rw [set_same]
      obtain ⟨k, cut, hw⟩ := good_written (hi.good q hq)
      exact .dead k cut (by simp) hw
    · rw [set_other _ _ hqp]
      exact good_mono (fun x hx => List.mem_cons_of_mem _ hx) (hi.good q hq)
  · intro a b ha hb hha hhb
    have hne : ∀ c, ((s.set p ⟨[], none, []⟩).proc c).held ≠ [] → (s.proc c).held ≠ [] := by
      intro c hc'
      by_cases hcp : c = p
      · subst hcp; rw [set_same] at hc'; exact absurd rfl hc'
      · rwa [set_other _ _ hcp] at hc'
    exact hi.one a b ha hb (hne a hha) (hne b hhb)

/-- The processes killed in a history. -/
def killed (as : List Act) : List Nat := as.filterMap fun | .kill p => some p | .run _ => none

theorem inv_exec {f0 : Bytes} {n : Nat} {E : Nat → List Ent} : ∀ (as : List Act) {K : List Nat} {pcs : List (Nat × Bytes)} {s : Sys},
    Inv K f0 n E pcs s → ∃ K' pcs', (∀ x, x ∈ K' → x ∈ K ∨ x ∈ killed as) ∧ Inv K' f0 n E pcs' (exec s as) := by
  intro as
  induction as with
  | nil => intro K pcs s h; exact ⟨K, pcs, fun x hx => Or.inl hx, h⟩
  | cons a as ih =>
    intro K pcs s h
    cases a with
    | run p =>
      have : ∃ pcs', Inv K f0 n E pcs' (act s (.run p)) := by
        simp only [act]
        cases hs : step s p with
        | none => exact ⟨pcs, h⟩
        | some s' => exact inv_step h hs
      obtain ⟨pcs', h'⟩ := this
      obtain ⟨K', pcs'', h1, h2⟩ := ih h'
      exact ⟨K', pcs'', fun x hx => (h1 x hx).imp id (fun y => by simpa [killed] using y), h2⟩
    | kill p =>
      obtain ⟨K', pcs'', h1, h2⟩ := ih (inv_kill p h)
      refine ⟨K', pcs'', fun x hx => ?_, h2⟩
      rcases h1 x hx with h | h
      · rcases List.mem_cons.1 h with h | h
        · right; simp [killed, h]
        · exact Or.inl h
      · right
        have : x ∈ killed as := h
        simp only [killed, List.filterMap_cons] at this ⊢
        exact List.mem_cons_of_mem _ this

theorem inv_start (f0 : Bytes) (pos n : Nat) (E : Nat → List Ent) : Inv [] f0 n E [] (start f0 pos n fun p => prog (E p)) := by
  refine ⟨rfl, by simp [start], ?_, ?_⟩
  · intro p hp
    exact .idle 0 none rfl
  · intro p q hp hq h
    exact absurd rfl h

/-! ## C107 -/

/-- **C107 (entries of log.c: the access log, notices).** However many processes write however many entries to one file, whatever was in it, in
whatever order their calls are made and wherever processes are killed: the old content stays, and behind it are the
entries, each in one piece, those of each process in their order.  Only a process that is writing now or was killed has an incomplete
entry, one at most; a process that has finished and was not killed has written all of its entries. -/
theorem C107_entries_whole_partial (f0 : Bytes) (pos n : Nat) (E : Nat → List Ent) (as : List Act) :
    ∃ pcs : List (Nat × Bytes),
      (exec (start f0 pos n fun p => prog (E p)) as).file = f0 ++ (pcs.map (·.2)).flatten ∧
      ∀ p, p < n → ∃ k cut, Written (E p) (mine pcs p) k cut ∧
        (((exec (start f0 pos n fun p => prog (E p)) as).proc p).ops = [] → .kill p ∉ as → k = (E p).length ∧ cut = []) := by
  obtain ⟨K, pcs, hK, hi⟩ := inv_exec as (inv_start f0 pos n E)
  refine ⟨pcs, hi.file, ?_⟩
  intro p hp
  have hg := hi.good p hp
  generalize (exec (start f0 pos n fun p => prog (E p)) as).proc p = x at hg ⊢
  cases hg with
  | dead k cut h1 h2 =>
    refine ⟨k, cut, h2, ?_⟩
    intro _ hnk
    exfalso
    rcases hK p h1 with h | h
    · simp at h
    · apply hnk
      simp only [killed, List.mem_filterMap] at h
      obtain ⟨a, ha, he⟩ := h
      cases a with
      | run q => simp at he
      | kill q => simp only [Option.some.injEq] at he; rw [← he]; exact ha
  | idle k w h1 =>
    by_cases hk : k < (E p).length
    · refine ⟨k, [], ⟨by rw [h1, List.append_nil], Or.inl rfl⟩, ?_⟩
      intro he
      simp only at he
      rw [List.drop_eq_getElem_cons hk] at he
      simp only [prog, List.flatMap_cons, entryOps, List.cons_append] at he
      exact absurd he (by simp)
    · refine ⟨(E p).length, [], ⟨?_, Or.inl rfl⟩, fun _ _ => ⟨rfl, rfl⟩⟩
      rw [h1, List.append_nil, List.take_of_length_le (by omega), List.take_length]
  | busy k e a ops h1 h2 =>
    obtain ⟨k', cut, hw⟩ := good_written (Good.busy (K := K) k e a ops h1 h2)
    refine ⟨k', cut, hw, ?_⟩
    intro he
    cases h2 <;> simp at he

/-- Is some process able to go on? -/
def CanGo (s : Sys) : Prop := ∃ p s', step s p = some s'

/-- **C107 (no deadlock).** As long as a process has something to write, some process can go on. -/
theorem C107_no_deadlock_partial (f0 : Bytes) (pos n : Nat) (E : Nat → List Ent) (as : List Act) (p : Nat) (hp : p < n)
    (hops : ((exec (start f0 pos n fun p => prog (E p)) as).proc p).ops ≠ []) : CanGo (exec (start f0 pos n fun p => prog (E p)) as) := by
  obtain ⟨K, pcs, hK, hi⟩ := inv_exec as (inv_start f0 pos n E)
  generalize exec (start f0 pos n fun p => prog (E p)) as = s at hi hops ⊢
  by_cases h : ∃ q, q < n ∧ (s.proc q).held ≠ []
  · obtain ⟨q, hq, hh⟩ := h
    have hg := hi.good q hq
    have hs : step s q = step s q := rfl
    conv at hs => rhs; rw [step]
    rw [if_neg (by rw [hi.hn]; omega)] at hs
    generalize hx : s.proc q = x at hg hh hs
    cases hg with
    | dead => exact absurd rfl hh
    | idle => exact absurd rfl hh
    | busy k e a ops h1 h2 =>
      cases h2 <;> exact ⟨q, _, hs⟩
  · have hall : ∀ q, q < n → (s.proc q).held = [] := by
      intro q hq
      by_cases e : (s.proc q).held = []
      · exact e
      · exact absurd ⟨q, hq, e⟩ h
    have hc : ∀ a, s.conflict p a = false := by
      intro a
      cases hc : s.conflict p a with
      | false => rfl
      | true =>
        obtain ⟨q, hq, _, hne⟩ := conflict_true hc
        exact absurd (hall q (by rw [← hi.hn]; exact hq)) hne
    have hg := hi.good p hp
    have hs : step s p = step s p := rfl
    conv at hs => rhs; rw [step]
    rw [if_neg (by rw [hi.hn]; omega)] at hs
    have hheld := hall p hp
    generalize hx : s.proc p = x at hg hops hs hheld
    cases hg with
    | dead => exact absurd rfl hops
    | busy => simp at hheld
    | idle k w h1 =>
      have hk : k < (E p).length := by
        by_cases hk : k < (E p).length
        · exact hk
        · rw [List.drop_eq_nil_of_le (by omega)] at hops
          exact absurd rfl hops
      rw [List.drop_eq_getElem_cons hk] at hs
      simp only [prog, List.flatMap_cons, entryOps, List.cons_append] at hs
      cases w with
      | none => simp only [hc, Bool.false_eq_true, if_false] at hs; exact ⟨p, _, hs⟩
      | some a => simp only [hc, Bool.false_eq_true, if_false] at hs; exact ⟨p, _, hs⟩

/-- Calls left, counting a `lock` that has to wait twice. -/
def Proc.left (x : Proc) : Nat := 2 * x.ops.length + (if x.want = none then 1 else 0)

def Sys.left (s : Sys) : Nat := ((List.range s.n).map fun p => (s.proc p).left).sum

theorem sum_lt {f g : Nat → Nat} {p : Nat} : ∀ (l : List Nat), (∀ q, q ≠ p → g q = f q) → g p < f p → p ∈ l →
    (l.map g).sum < (l.map f).sum := by
  intro l
  induction l with
  | nil => intro _ _ h; simp at h
  | cons a l ih =>
    intro h1 h2 h3
    have hle : (l.map g).sum ≤ (l.map f).sum := by
      clear ih h3
      induction l with
      | nil => simp
      | cons b l ih =>
        simp only [List.map_cons, List.sum_cons]
        by_cases hb : b = p
        · subst hb; omega
        · rw [h1 b hb]; omega
    simp only [List.map_cons, List.sum_cons]
    by_cases ha : a = p
    · subst ha; omega
    · rw [h1 a ha]
      have := ih h1 h2 (by simpa [Ne.symm ha] using h3)
      omega

theorem call_counts (s s' : Sys) (p : Nat) (h : step s p = some s') (hw : (s.proc p).ops.head? ≠ some .lock → (s.proc p).want = none) :
    s'.left < s.left := by
  have key : s'.n = s.n ∧ p < s.n ∧ (∀ q, q ≠ p → s'.proc q = s.proc q) ∧ (s'.proc p).left < (s.proc p).left := by
    rw [step] at h
    by_cases hp : s.n ≤ p
    · rw [if_pos hp] at h; simp at h
    rw [if_neg hp] at h
    have hp : p < s.n := by omega
    generalize hx : s.proc p = x at h hw
    obtain ⟨ops, w, held⟩ := x
    cases ops with
    | nil => simp at h
    | cons o r =>
      cases o with
      | lock =>
        cases w with
        | none =>
          simp only at h
          split at h
          · simp only [Option.some.injEq] at h
            subst h
            refine ⟨rfl, hp, fun q hq => set_other _ _ hq, ?_⟩
            rw [set_same]; simp [Proc.left]
          · simp only [Option.some.injEq] at h
            subst h
            refine ⟨rfl, hp, fun q hq => set_other _ _ hq, ?_⟩
            rw [set_same]; simp [Proc.left]
        | some a =>
          simp only at h
          split at h
          · simp at h
          · simp only [Option.some.injEq] at h
            subst h
            refine ⟨rfl, hp, fun q hq => set_other _ _ hq, ?_⟩
            rw [set_same]; simp [Proc.left]; omega
      | seek =>
        have hw := hw (by simp)
        simp only at hw
        subst hw
        simp only [Option.some.injEq] at h
        subst h
        refine ⟨rfl, hp, fun q hq => set_other s ⟨r, none, held⟩ hq, ?_⟩
        have : ({ s.set p ⟨r, none, held⟩ with pos := s.file.length } : Sys).proc p = ⟨r, none, held⟩ := set_same s p _
        rw [this]; simp [Proc.left]
      | write b =>
        have hw := hw (by simp)
        simp only at hw
        subst hw
        simp only [Option.some.injEq] at h
        subst h
        refine ⟨rfl, hp, fun q hq => set_other s ⟨r, none, held⟩ hq, ?_⟩
        have : ({ s.set p ⟨r, none, held⟩ with file := writeAt s.file s.pos b, pos := s.pos + b.length } : Sys).proc p = ⟨r, none, held⟩ := set_same s p _
        rw [this]; simp [Proc.left]
      | unlockAll =>
        have hw := hw (by simp)
        simp only at hw
        subst hw
        simp only [Option.some.injEq] at h
        subst h
        refine ⟨rfl, hp, fun q hq => set_other _ _ hq, ?_⟩
        rw [set_same]; simp [Proc.left]
      | unlockTail =>
        have hw := hw (by simp)
        simp only at hw
        subst hw
        simp only [Option.some.injEq] at h
        subst h
        refine ⟨rfl, hp, fun q hq => set_other _ _ hq, ?_⟩
        rw [set_same]; simp [Proc.left]
  obtain ⟨h1, h2, h3, h4⟩ := key
  rw [Sys.left, Sys.left, h1]
  exact sum_lt _ (fun q hq => by rw [h3 q hq]) h4 (List.mem_range.2 h2)

/-- **C107 (no livelock).** Every call made reduces the number of calls left (a lock that has to wait counts twice): no history has more calls than
twice those of the entries. -/
theorem C107_every_call_counts (f0 : Bytes) (pos n : Nat) (E : Nat → List Ent) (as : List Act) (p : Nat) (s' : Sys)
    (h : step (exec (start f0 pos n fun p => prog (E p)) as) p = some s') : s'.left < (exec (start f0 pos n fun p => prog (E p)) as).left := by
  obtain ⟨K, pcs, hK, hi⟩ := inv_exec as (inv_start f0 pos n E)
  generalize exec (start f0 pos n fun p => prog (E p)) as = s at hi h ⊢
  refine call_counts s s' p h ?_
  by_cases hp : p < n
  · have hg := hi.good p hp
    rw [step, if_neg (by rw [hi.hn]; omega)] at h
    generalize s.proc p = x at hg h
    intro hl
    cases hg with
    | dead => rfl
    | busy => rfl
    | idle k w h1 =>
      by_cases hk : k < (E p).length
      · rw [List.drop_eq_getElem_cons hk] at hl
        simp only [prog, List.flatMap_cons, entryOps, List.cons_append, List.head?_cons] at hl
        exact absurd rfl hl
      · rw [List.drop_eq_nil_of_le (by omega)] at h
        simp [prog] at h
  · rw [step, if_pos (by rw [hi.hn]; omega)] at h
    simp at h

/-- Two workers, the second waits for the lock of the first and is killed while it writes. -/
def twoWorkers : Sys := start b!"old\n" 0 2 fun p => prog (if p = 0 then [(b!"A ", b!"one\n")] else [(b!"B ", b!"two\n"), (b!"C ", b!"three\n")])

example : (exec twoWorkers ([0, 0, 1, 0, 0, 1, 0, 0, 1, 1, 1, 1, 1, 1].map Act.run)).file = b!"old\nA one\nB two\n" := by decide +kernel

example : (exec twoWorkers ([0, 0, 1, 0, 0].map Act.run ++ [.kill 0] ++ [1, 1, 1, 1, 1, 1].map Act.run)).file = b!"old\nA B two\n" := by decide +kernel

/-! ### What goes wrong -/

theorem act_lock {s : Sys} {p : Nat} {r : List Op} {h : List Range} (hp : p < s.n) (hx : s.proc p = ⟨.lock :: r, none, h⟩)
    (hc : s.conflict p s.file.length = false) : act s (.run p) = s.set p ⟨r, none, ⟨s.file.length, none⟩ :: h⟩ := by
  simp only [act, step, if_neg (Nat.not_le.2 hp), hx, hc, Bool.false_eq_true, if_false, Option.getD_some]

theorem act_wait {s : Sys} {p : Nat} {r : List Op} {h : List Range} (hp : p < s.n) (hx : s.proc p = ⟨.lock :: r, none, h⟩)
    (hc : s.conflict p s.file.length = true) : act s (.run p) = s.set p ⟨.lock :: r, some s.file.length, h⟩ := by
  simp only [act, step, if_neg (Nat.not_le.2 hp), hx, hc, if_true, Option.getD_some]

theorem act_write {s : Sys} {p : Nat} {b : Bytes} {r : List Op} {w : Option Nat} {h : List Range} (hp : p < s.n) (hx : s.proc p = ⟨.write b :: r, w, h⟩) :
    act s (.run p) = { file := writeAt s.file s.pos b, pos := s.pos + b.length, n := s.n, proc := (s.set p ⟨r, w, h⟩).proc } := by
  simp only [act, step, if_neg (Nat.not_le.2 hp), hx, Option.getD_some]
  rfl

theorem act_tail {s : Sys} {p : Nat} {r : List Op} {w : Option Nat} {h : List Range} (hp : p < s.n) (hx : s.proc p = ⟨.unlockTail :: r, w, h⟩) :
    act s (.run p) = s.set p ⟨r, w, h.flatMap (Range.without s.file.length)⟩ := by
  simp only [act, step, if_neg (Nat.not_le.2 hp), hx, Option.getD_some]

/-- **C107 refuted (entries of err.c).** The first error recorded after the server was started again is written over the beginning of the log of its
predecessor: the position of the open file is 0 and is not moved to the end. -/
theorem C107_old_log_overwritten_refuted (old msg : Bytes) (n : Nat) (hn : 0 < n) (others : Nat → List Op) :
    (exec (start old 0 n fun p => if p = 0 then directOps msg else others p) [.run 0, .run 0, .run 0]).file = msg ++ old.drop msg.length := by
  have hc : (start old 0 n fun p => if p = 0 then directOps msg else others p).conflict 0 old.length = false := by
    cases hc : (start old 0 n fun p => if p = 0 then directOps msg else others p).conflict 0 old.length with
    | false => rfl
    | true =>
      obtain ⟨q, _, _, h⟩ := conflict_true hc
      exact absurd rfl h
  rw [exec, List.foldl_cons, List.foldl_cons, List.foldl_cons, List.foldl_nil]
  have e1 := act_lock hn rfl hc
  rw [e1, act_write (by exact hn) (set_same _ _ _)]
  rw [act_tail (p := 0) (r := []) (w := none) (h := [⟨old.length, none⟩]) (by exact hn) rfl]
  simp [writeAt, start, Sys.set]

example : (exec (start b!"20 May: fire\n" 0 1 fun _ => directOps b!"ok\n") [.run 0, .run 0, .run 0]).file = b!"ok\nMay: fire\n" := by decide +kernel

theorem C107_old_log_lost (old msg : Bytes) (h : msg ≠ []) (h2 : old ≠ []) (h3 : old.take msg.length ≠ msg.take old.length) :
    ¬ old <+: msg ++ old.drop msg.length := by
  rintro ⟨t, ht⟩
  apply h3
  have := congrArg (List.take (min old.length msg.length)) ht
  rw [List.take_append_of_le_length (by omega), List.take_append_of_le_length (by omega)] at this
  have e1 : old.take (min old.length msg.length) = old.take msg.length := by
    rw [List.take_eq_take_iff]; omega
  have e2 : msg.take (min old.length msg.length) = msg.take old.length := by
    rw [List.take_eq_take_iff]; omega
  rw [← e1, ← e2]
  exact this

/-- **C107 refuted (lock not released).** A process that waits for the lock while another one writes a message with the functions of err.c waits for
as long as that other process lives: the end of the file is unlocked, not the range that was locked. -/
theorem C107_waits_for_ever_refuted (old msg : Bytes) (pos : Nat) (hm : msg ≠ []) (hpos : pos = old.length) (rest : List Op) (as : List Act)
    (hk : .kill 0 ∉ as) :
    let s := exec (start old pos 2 fun p => if p = 0 then directOps msg else .lock :: rest) ([0, 1, 0, 0].map Act.run)
    (s.proc 0).ops = [] ∧ s.file = old ++ msg ∧ (exec s as).file = old ++ msg ∧ (.kill 1 ∉ as → (exec s as).proc 1 = ⟨.lock :: rest, some old.length, []⟩) := by
  intro s
  have hlen : 0 < msg.length := List.length_pos_iff.2 hm
  have hs : s = ⟨old ++ msg, old.length + msg.length, 2,
      fun q => if q = 0 then ⟨[], none, [⟨old.length, some (old.length + msg.length)⟩]⟩ else if q = 1 then ⟨.lock :: rest, some old.length, []⟩
        else ⟨.lock :: rest, none, []⟩⟩ := by
    subst hpos
    have hc : (start old old.length 2 fun p => if p = 0 then directOps msg else .lock :: rest).conflict 0 old.length = false := by
      simp [Sys.conflict, start, List.range, List.range.loop]
    show exec (start old old.length 2 fun p => if p = 0 then directOps msg else .lock :: rest) ([0, 1, 0, 0].map Act.run) = _
    rw [exec, List.map_cons, List.map_cons, List.map_cons, List.map_cons, List.map_nil, List.foldl_cons, List.foldl_cons, List.foldl_cons,
      List.foldl_cons, List.foldl_nil]
    rw [act_lock (p := 0) (r := [.write msg, .unlockTail]) (h := []) (by exact (by decide : 0 < 2)) rfl hc]
    rw [act_wait (p := 1) (r := rest) (h := []) (by exact (by decide : 1 < 2)) rfl (by simp [Sys.conflict, start, Sys.set, List.range, List.range.loop, Range.meets])]
    generalize hT : Sys.set _ 1 _ = T
    have hT0 : T.proc 0 = ⟨[.write msg, .unlockTail], none, [⟨old.length, none⟩]⟩ := by rw [← hT]; rfl
    have hTn : T.n = 2 := by rw [← hT]; rfl
    have e3 := act_write (s := T) (p := 0) (by omega) hT0
    rw [e3]
    rw [act_tail (p := 0) (r := []) (w := none) (h := [⟨old.length, none⟩]) (by rw [hTn]; decide) rfl]
    subst hT
    have hr : List.flatMap (Range.without (old.length + msg.length)) [⟨old.length, none⟩] = [⟨old.length, some (old.length + msg.length)⟩] := by
      simp only [List.flatMap_cons, List.flatMap_nil, Range.without, List.append_nil]
      rw [if_pos (by omega)]
    simp only [start, Sys.set, writeAt_end]
    congr 1
    funext q
    by_cases h0 : q = 0
    · simp only [h0, if_true, List.length_append, hr]
    · by_cases h1 : q = 1
      · simp [h1]
      · simp [h0, h1]
  have keep : ∀ (as : List Act) (t : Sys), .kill 0 ∉ as → t.n = 2 → t.file = old ++ msg →
      (t.proc 0) = ⟨[], none, [⟨old.length, some (old.length + msg.length)⟩]⟩ →
      (t.proc 1 = ⟨.lock :: rest, some old.length, []⟩ ∨ t.proc 1 = ⟨[], none, []⟩) →
      (exec t as).file = old ++ msg ∧ (t.proc 1 = ⟨.lock :: rest, some old.length, []⟩ → .kill 1 ∉ as → (exec t as).proc 1 = ⟨.lock :: rest, some old.length, []⟩) := by
    intro as
    induction as with
    | nil => intro t _ _ hf _ h1; exact ⟨hf, fun h _ => h⟩
    | cons a as ih =>
      intro t hk hn hf h0 h1
      have hstuck : ∀ p, step t p = none := by
        intro p
        rw [step]
        by_cases hp : t.n ≤ p
        · rw [if_pos hp]
        · rw [if_neg hp]
          have : p = 0 ∨ p = 1 := by omega
          rcases this with rfl | rfl
          · rw [h0]
          · have hc : t.conflict 1 old.length = true := by
              rw [Sys.conflict, hn]
              simp [List.range, List.range.loop, h0, Range.meets]
              omega
            rcases h1 with h1 | h1
            · rw [h1]; simp only [hc, if_true]
            · rw [h1]
      cases a with
      | run p =>
        have e : exec t (.run p :: as) = exec t as := by
          simp only [exec, List.foldl_cons, act, hstuck, Option.getD_none]
        rw [e]
        obtain ⟨ha, hb⟩ := ih t (fun h => hk (List.mem_cons_of_mem _ h)) hn hf h0 h1
        exact ⟨ha, fun h hk1 => hb h (fun h' => hk1 (List.mem_cons_of_mem _ h'))⟩
      | kill p =>
        have hp0 : p ≠ 0 := by intro h; subst h; exact hk (List.mem_cons_self)
        have e : exec t (.kill p :: as) = exec (t.set p ⟨[], none, []⟩) as := rfl
        rw [e]
        have h1' : (t.set p ⟨[], none, []⟩).proc 1 = ⟨.lock :: rest, some old.length, []⟩ ∨ (t.set p ⟨[], none, []⟩).proc 1 = ⟨[], none, []⟩ := by
          by_cases hp1 : p = 1
          · subst hp1; right; exact set_same _ _ _
          · rw [set_other _ _ (Ne.symm hp1)]; exact h1
        obtain ⟨ha, hb⟩ := ih (t.set p ⟨[], none, []⟩) (fun h => hk (List.mem_cons_of_mem _ h)) hn hf
          (by rw [set_other _ _ (Ne.symm hp0)]; exact h0) h1'
        refine ⟨ha, fun h hk1 => ?_⟩
        have hp1 : p ≠ 1 := by intro h'; subst h'; exact hk1 (List.mem_cons_self)
        refine hb ?_ (fun h' => hk1 (List.mem_cons_of_mem _ h'))
        rw [set_other _ _ (Ne.symm hp1)]; exact h
  have hk' := keep as s hk (by rw [hs]) (by rw [hs]) (by rw [hs]; rfl) (Or.inl (by rw [hs]; rfl))
  refine ⟨by rw [hs]; rfl, by rw [hs], hk'.1, fun h => hk'.2 (by rw [hs]; rfl) h⟩

end Fly.Log
