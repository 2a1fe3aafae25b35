import Verif.Signals.Model
import Verif.Master.Lemmas

namespace Fly.Signals

theorem ready_blocked (t : List (Nat × Option Handler)) (s : Settings) {k : Nat} (h : settable k = true) :
    (ready t s).set.blocked k = true := by
  simp only [ready, blockAll, h, if_true]

/-- What signals with a descriptor can do to a process that runs or was ended by its default handler. -/
structure Good (t : List (Nat × Option Handler)) (p : Proc) : Prop where
  tab : p.table = t
  blk : ∀ k, settable k = true → p.set.blocked k = true
  life : p.life = .runs ∨ ∃ g, p.life = .ends g

theorem ready_good (t : List (Nat × Option Handler)) (s : Settings) : Good t (ready t s) :=
  ⟨rfl, fun _ hk => ready_blocked t s hk, .inl rfl⟩

theorem settable_ne {k : Nat} (h : settable k = true) : k ≠ SIGKILL ∧ k ≠ SIGSTOP := by
  simp only [settable, Bool.and_eq_true, decide_eq_true_eq] at h
  simp only [SIGKILL, SIGSTOP]
  omega

/-- A delivered signal is pending, and nothing else changes. -/
theorem deliver_blocked {t : List (Nat × Option Handler)} {p : Proc} (hp : Good t p) {i : Info}
    (hi : settable i.sig = true) (hr : p.life = .runs) :
    deliver p i = if i.sig < 32 ∧ i.sig ∈ p.pending.map Info.sig then p else { p with pending := p.pending ++ [i] } := by
  obtain ⟨h1, h2⟩ := settable_ne hi
  have hb := hp.blk _ hi
  unfold deliver
  rw [hr]
  simp only [if_neg h1, if_neg h2]
  by_cases hc : i.sig = SIGCONT
  · have : ({ p with life := .runs } : Proc) = p := by cases p; simp_all
    simp only [if_pos hc, this, hb, hr, if_true]
  · simp only [if_neg hc, hb, hr, if_true]

theorem deliver_ended {p : Proc} {g : Nat} (i : Info) (h : p.life = .ends g) : deliver p i = p := by
  unfold deliver
  rw [h]

theorem read_ended {p : Proc} {g : Nat} (k : Nat) (h : p.life = .ends g) : read p k = p := by
  unfold read
  rw [h]

theorem read_runs {p : Proc} (k : Nat) (h : p.life = .runs) :
    read p k = match p.pending[k]? with
      | none => p
      | some i => match find p.table i.sig with
        | none => { p with pending := p.pending.eraseIdx k, life := .ends i.sig }
        | some f => { p with pending := p.pending.eraseIdx k, called := p.called ++ [(f, i)] } := by
  unfold read
  rw [h]
  cases p.pending[k]? with
  | none => rfl
  | some i => dsimp only; cases find p.table i.sig <;> rfl

theorem Good.step {t : List (Nat × Option Handler)} {p : Proc} (hp : Good t p) (e : Ev)
    (he : ∀ i, e = .signal i → settable i.sig = true) : Good t (step p e) := by
  cases e with
  | signal i =>
    have hi := he i rfl
    rcases hp.life with hr | ⟨g, hg⟩
    · simp only [Signals.step]
      rw [deliver_blocked hp hi hr]
      split
      · exact hp
      · exact ⟨hp.tab, hp.blk, .inl hr⟩
    · simp only [Signals.step]
      rw [deliver_ended i hg]
      exact hp
  | read k =>
    simp only [Signals.step]
    rcases hp.life with hr | ⟨g, hg⟩
    · rw [read_runs k hr]
      split
      · exact hp
      · split
        · exact ⟨hp.tab, hp.blk, .inr ⟨_, rfl⟩⟩
        · exact ⟨hp.tab, hp.blk, .inl hr⟩
    · rw [read_ended k hg]
      exact hp

/-- The signals of a history are all of the kind a process can block. -/
def Usual (evs : List Ev) : Prop := ∀ i, Ev.signal i ∈ evs → settable i.sig = true

theorem Good.run {t : List (Nat × Option Handler)} : ∀ (evs : List Ev) {p : Proc}, Good t p → Usual evs →
    Good t (run p evs)
  | [], _, hp, _ => hp
  | e :: es, p, hp, h => by
    show Good t (Signals.run (Signals.step p e) es)
    exact Good.run es (hp.step e (fun i hi => h i (by rw [hi]; exact List.mem_cons_self)))
      (fun i hi => h i (List.mem_cons_of_mem _ hi))

/-- It runs, and everything pending has a function. -/
def Safe (t : List (Nat × Option Handler)) (p : Proc) : Prop :=
  p.life = .runs ∧ ∀ i ∈ p.pending, (find t i.sig).isSome = true

theorem Safe.step {t : List (Nat × Option Handler)} {p : Proc} (hg : Good t p) (hp : Safe t p) (e : Ev)
    (he : ∀ i, e = .signal i → settable i.sig = true ∧ (find t i.sig).isSome = true) : Safe t (step p e) := by
  cases e with
  | signal i =>
    obtain ⟨hi, hf⟩ := he i rfl
    simp only [Signals.step]
    rw [deliver_blocked hg hi hp.1]
    split
    · exact hp
    · refine ⟨hp.1, ?_⟩
      intro j hj
      simp only [List.mem_append, List.mem_singleton] at hj
      rcases hj with hj | hj
      · exact hp.2 j hj
      · subst hj; exact hf
  | read k =>
    simp only [Signals.step]
    rw [read_runs k hp.1]
    cases hk : p.pending[k]? with
    | none => exact hp
    | some i =>
      have hm : i ∈ p.pending := List.mem_of_getElem? hk
      have hf := hp.2 i hm
      simp only [hg.tab]
      cases hfi : find t i.sig with
      | none => rw [hfi] at hf; cases hf
      | some f =>
        refine ⟨hp.1, ?_⟩
        intro j hj
        exact hp.2 j (List.mem_of_mem_eraseIdx hj)

theorem Safe.run {t : List (Nat × Option Handler)} : ∀ (evs : List Ev) {p : Proc}, Good t p → Safe t p →
    (∀ i, Ev.signal i ∈ evs → settable i.sig = true ∧ (find t i.sig).isSome = true) → Safe t (run p evs)
  | [], _, _, hp, _ => hp
  | e :: es, p, hg, hp, h => by
    have he : ∀ i, e = .signal i → settable i.sig = true ∧ (find t i.sig).isSome = true :=
      fun i hi => h i (by rw [hi]; exact List.mem_cons_self)
    show Safe t (Signals.run (Signals.step p e) es)
    exact Safe.run es (hg.step e (fun i hi => (he i hi).1)) (hp.step hg e he)
      (fun i hi => h i (List.mem_cons_of_mem _ hi))

/-- It was ended, or a signal without function is pending. -/
def Doomed (t : List (Nat × Option Handler)) (p : Proc) : Prop :=
  (∃ g, p.life = .ends g) ∨ ∃ i ∈ p.pending, find t i.sig = none

theorem mem_eraseIdx_of_ne {α} {l : List α} {k : Nat} {a b : α} (ha : a ∈ l) (hk : l[k]? = some b) (hne : a ≠ b) :
    a ∈ l.eraseIdx k := by
  rw [List.mem_eraseIdx_iff_getElem?]
  obtain ⟨n, hn⟩ := List.mem_iff_getElem?.mp ha
  refine ⟨n, ?_, hn⟩
  intro h
  subst h
  rw [hk] at hn
  exact hne (Option.some.inj hn).symm

theorem Doomed.step {t : List (Nat × Option Handler)} {p : Proc} (hg : Good t p) (hp : Doomed t p) (e : Ev)
    (he : ∀ i, e = .signal i → settable i.sig = true) : Doomed t (step p e) := by
  rcases hg.life with hr | ⟨g, hgl⟩
  · rcases hp with ⟨g, hgl⟩ | ⟨j, hj, hn⟩
    · rw [hr] at hgl; cases hgl
    · cases e with
      | signal i =>
        simp only [Signals.step]
        rw [deliver_blocked hg (he i rfl) hr]
        split
        · exact .inr ⟨j, hj, hn⟩
        · exact .inr ⟨j, List.mem_append_left _ hj, hn⟩
      | read k =>
        simp only [Signals.step]
        rw [read_runs k hr]
        cases hk : p.pending[k]? with
        | none => exact .inr ⟨j, hj, hn⟩
        | some i =>
          simp only [hg.tab]
          cases hf : find t i.sig with
          | none => exact .inl ⟨_, rfl⟩
          | some f =>
            refine .inr ⟨j, mem_eraseIdx_of_ne hj hk ?_, hn⟩
            intro h
            subst h
            rw [hn] at hf
            cases hf
  · cases e with
    | signal i =>
      simp only [Signals.step]
      rw [deliver_ended i hgl]
      exact .inl ⟨g, hgl⟩
    | read k =>
      simp only [Signals.step]
      rw [read_ended k hgl]
      exact .inl ⟨g, hgl⟩

theorem Doomed.run {t : List (Nat × Option Handler)} : ∀ (evs : List Ev) {p : Proc}, Good t p → Doomed t p →
    Usual evs → Doomed t (run p evs)
  | [], _, _, hp, _ => hp
  | e :: es, p, hg, hp, h => by
    have he : ∀ i, e = .signal i → settable i.sig = true := fun i hi => h i (by rw [hi]; exact List.mem_cons_self)
    show Doomed t (Signals.run (Signals.step p e) es)
    exact Doomed.run es (hg.step e he) (hp.step hg e he) (fun i hi => h i (List.mem_cons_of_mem _ hi))

/-- A signal without function dooms a process that runs. -/
theorem doomed_of {t : List (Nat × Option Handler)} {p : Proc} (hg : Good t p) {i : Info}
    (hi : settable i.sig = true) (hn : find t i.sig = none) : Doomed t (deliver p i) := by
  rcases hg.life with hr | ⟨g, hgl⟩
  · rw [deliver_blocked hg hi hr]
    split
    · rename_i h
      obtain ⟨_, hm⟩ := h
      rw [List.mem_map] at hm
      obtain ⟨j, hj, hs⟩ := hm
      exact .inr ⟨j, hj, by rw [hs]; exact hn⟩
    · exact .inr ⟨i, List.mem_append_right _ (List.mem_singleton.mpr rfl), hn⟩
  · rw [deliver_ended i hgl]
    exact .inl ⟨g, hgl⟩

theorem run_append (p : Proc) (a b : List Ev) : run p (a ++ b) = run (run p a) b := by
  simp only [run, List.foldl_append]

/-- Once everything was read, a process runs if and only if all its signals have functions. -/
theorem runs_iff (t : List (Nat × Option Handler)) (s : Settings) (evs : List Ev) (hu : Usual evs)
    (hd : (run (ready t s) evs).pending = []) :
    (run (ready t s) evs).life = .runs ↔ ∀ i, Ev.signal i ∈ evs → (find t i.sig).isSome = true := by
  constructor
  · intro hr i hi
    cases hf : find t i.sig with
    | some f => rfl
    | none =>
      obtain ⟨a, b, hab⟩ := List.append_of_mem hi
      subst hab
      have ha : Usual a := fun j hj => hu j (List.mem_append_left _ hj)
      have hb : Usual b := fun j hj => hu j (List.mem_append_right _ (List.mem_cons_of_mem _ hj))
      have hga := Good.run a (ready_good t s) ha
      have hs := hu i (List.mem_append_right _ List.mem_cons_self)
      have hdm := doomed_of hga hs hf
      have hg2 : Good t (step (run (ready t s) a) (.signal i)) :=
        hga.step _ (fun j hj => by cases hj; exact hs)
      have := Doomed.run b (p := step (run (ready t s) a) (.signal i)) hg2 hdm hb
      have he : run (ready t s) (a ++ Ev.signal i :: b) = run (step (run (ready t s) a) (.signal i)) b := by
        rw [run_append]; rfl
      rw [he] at hr hd
      rcases this with ⟨g, hgl⟩ | ⟨j, hj, _⟩
      · rw [hr] at hgl; cases hgl
      · rw [hd] at hj; cases hj
  · intro h
    exact (Safe.run evs (ready_good t s) ⟨rfl, by intro i hi; cases hi⟩ (fun i hi => ⟨hu i hi, h i hi⟩)).1

/-! ## Settings -/

theorem refreshList_act : ∀ (l : List Nat) (s : Settings) (k : Nat),
    (refreshList l s).act k = if k ∈ l ∧ k ≠ SIGKILL ∧ k ≠ SIGSTOP then .dfl else s.act k
  | [], s, k => by simp [refreshList]
  | a :: l, s, k => by
    rw [refreshList, refreshList_act l]
    by_cases ha : a ≠ SIGKILL ∧ a ≠ SIGSTOP
    · rw [if_pos ha]
      simp only [setAct, List.mem_cons]
      by_cases hka : k = a
      · subst hka
        by_cases hl : k ∈ l <;> simp [hl, ha]
      · simp [hka]
    · rw [if_neg ha]
      simp only [List.mem_cons]
      by_cases hka : k = a
      · subst hka
        simp [ha]
      · simp [hka]

theorem refreshList_blocked : ∀ (l : List Nat) (s : Settings), (refreshList l s).blocked = s.blocked
  | [], _ => rfl
  | a :: l, s => by
    rw [refreshList, refreshList_blocked l]
    split <;> rfl

theorem restoreList_blocked : ∀ (l : List (Nat × Act)) (s : Settings), (restoreList l s).blocked = s.blocked
  | [], _ => rfl
  | (k, a) :: l, s => by
    rw [restoreList, restoreList_blocked l]
    split <;> rfl

theorem restoreList_save : ∀ (l : List Nat) (s0 s : Settings) (k : Nat),
    (restoreList (saveList l s0) s).act k
      = if k ∈ l ∧ k ≠ SIGKILL ∧ k ≠ SIGSTOP then s0.act k else s.act k
  | [], s0, s, k => by simp [saveList, restoreList]
  | a :: l, s0, s, k => by
    rw [saveList]
    by_cases ha : a = SIGKILL ∨ a = SIGSTOP
    · rw [if_pos ha, restoreList_save l]
      simp only [List.mem_cons]
      by_cases hka : k = a
      · subst hka
        have : ¬ (k ≠ SIGKILL ∧ k ≠ SIGSTOP) := by
          rintro ⟨h1, h2⟩
          rcases ha with h | h
          · exact h1 h
          · exact h2 h
        simp [this]
      · simp [hka]
    · have ha' : a ≠ SIGKILL ∧ a ≠ SIGSTOP := ⟨fun h => ha (.inl h), fun h => ha (.inr h)⟩
      rw [if_neg ha, restoreList, if_pos ha', restoreList_save l]
      simp only [List.mem_cons, setAct]
      by_cases hka : k = a
      · subst hka
        by_cases hl : k ∈ l <;> simp [hl, ha']
      · simp [hka]

/-- A run of the server leaves the actions of all signals as they were. -/
theorem serve_act (j : Bool) (s : Settings) (k : Nat) : (serve j s).act k = s.act k := by
  have h : (serve j s).act k = (restoreList (save s) (blockAll (refresh (blockAll s)))).act k := by
    unfold serve restore unblockAll
    cases j <;> rfl
  rw [h]
  unfold save
  rw [restoreList_save]
  split
  · rfl
  · rename_i hn
    show (refresh (blockAll s)).act k = s.act k
    unfold refresh
    rw [refreshList_act, if_neg hn]
    rfl

theorem serve_blocked (j : Bool) (s : Settings) (k : Nat) :
    (serve j s).blocked k = if settable k then j else s.blocked k := by
  unfold serve restore unblockAll
  cases j with
  | true =>
    show (blockAll (refresh (blockAll s))).blocked k = _
    simp only [blockAll, refresh, refreshList_blocked]
    split <;> rfl
  | false =>
    show (if settable k = true then false else (restoreList (save s) (blockAll (refresh (blockAll s)))).blocked k) = _
    simp only [restoreList_blocked, blockAll, refresh, refreshList_blocked]
    split <;> rfl

end Fly.Signals
