import Verif.Signals.Lemmas

set_option linter.all false

/-! # C154 – C160: signals -/

namespace Fly.Signals

/-! ## C154: who is ended by a signal -/

/-- A signal that does not ask a process to end: what it does by default is nothing, stopping, or continuing
(signal(7)). -/
abbrev Mild (sig : Nat) : Prop := defaultAction sig ≠ .term

/-- **C154** (partial: SIGINT, SIGPIPE, SIGWINCH and SIGUSR1 only).  A worker that has set up its signals
survives all histories of these signals, in whatever order and number they arrive and are read. -/
theorem C154_worker_partial (s : Settings) (evs : List Ev)
    (h : ∀ i, Ev.signal i ∈ evs → i.sig = SIGINT ∨ i.sig = SIGPIPE ∨ i.sig = SIGWINCH ∨ i.sig = SIGUSR1) :
    (run (worker s) evs).life = .runs := by
  refine (Safe.run (t := workerSignals) evs (ready_good _ s) ⟨rfl, by intro i hi; cases hi⟩ ?_).1
  intro i hi
  rcases h i hi with h | h | h | h <;> rw [h] <;> exact ⟨rfl, rfl⟩

/-- **C154** (partial: SIGCHLD, SIGWINCH and SIGUSR1 only).  The same for the master. -/
theorem C154_master_partial (s : Settings) (evs : List Ev)
    (h : ∀ i, Ev.signal i ∈ evs → i.sig = SIGCHLD ∨ i.sig = SIGWINCH ∨ i.sig = SIGUSR1) :
    (run (master s) evs).life = .runs := by
  refine (Safe.run (t := masterSignals) evs (ready_good _ s) ⟨rfl, by intro i hi; cases hi⟩ ?_).1
  intro i hi
  rcases h i hi with h | h | h <;> rw [h] <;> exact ⟨rfl, rfl⟩

theorem find_worker (sig : Nat) :
    (find workerSignals sig).isSome = true ↔ sig = SIGINT ∨ sig = SIGPIPE ∨ sig = SIGWINCH ∨ sig = SIGUSR1 := by
  simp only [find, workerSignals]
  repeat' split
  all_goals simp_all [SIGINT, SIGPIPE, SIGWINCH, SIGUSR1]
  all_goals omega

theorem find_master (sig : Nat) :
    (find masterSignals sig).isSome = true ↔ sig = SIGCHLD ∨ sig = SIGWINCH ∨ sig = SIGUSR1 := by
  simp only [find, masterSignals]
  repeat' split
  all_goals simp_all [SIGINT, SIGPIPE, SIGWINCH, SIGUSR1, SIGCHLD, SIGTERM]
  all_goals omega

/-- **C154**, exactly: once a worker has read all the signals it was sent, it runs if and only if they were all
among SIGINT, SIGPIPE, SIGWINCH and SIGUSR1; the master, if and only if they were among SIGCHLD, SIGWINCH and
SIGUSR1. -/
theorem C154_exact_partial (s : Settings) (evs : List Ev) (hu : Usual evs) :
    ((run (worker s) evs).pending = [] →
      ((run (worker s) evs).life = .runs ↔
        ∀ i, Ev.signal i ∈ evs → i.sig = SIGINT ∨ i.sig = SIGPIPE ∨ i.sig = SIGWINCH ∨ i.sig = SIGUSR1)) ∧
    ((run (master s) evs).pending = [] →
      ((run (master s) evs).life = .runs ↔
        ∀ i, Ev.signal i ∈ evs → i.sig = SIGCHLD ∨ i.sig = SIGWINCH ∨ i.sig = SIGUSR1)) := by
  constructor
  · intro hd
    have := runs_iff workerSignals s evs hu hd
    simp only [find_worker] at this
    exact this
  · intro hd
    have := runs_iff masterSignals s evs hu hd
    simp only [find_master] at this
    exact this

/-- Settings of a Python program: SIGINT has a function, SIGPIPE is ignored, nothing is blocked. -/
def python : Settings :=
  { act := fun k => if k = SIGINT then .fn 0 else if k = SIGPIPE then .ign else .dfl, blocked := fun _ => false }

example : (run (worker python) [.signal ⟨SIGINT, 1, 0⟩, .signal ⟨SIGPIPE, 1, 0⟩, .signal ⟨SIGINT, 1, 0⟩, .read 1,
    .signal ⟨SIGUSR1, 9, 0⟩, .read 0, .read 0, .read 0]).called =
    [(.ignore, ⟨SIGPIPE, 1, 0⟩), (.ignore, ⟨SIGINT, 1, 0⟩), (.change, ⟨SIGUSR1, 9, 0⟩)] := by decide +kernel
example : (run (worker python) [.signal ⟨SIGTERM, 1, 0⟩, .read 0]).life = .ends SIGTERM := by decide +kernel

/-- **C154 refuted: children of the application.**  When a function of the application starts another program
(`subprocess.run`) and this ends, the worker gets SIGCHLD, which it has no entry for: whatever the worker was
sent before and after, it has ended by the time it has read its signals, and its connections with it. -/
theorem C154_child_ends_worker_refuted (s : Settings) (before after : List Ev) (hb : Usual before)
    (ha : Usual after) (child status : Nat)
    (hd : (run (worker s) (before ++ .signal ⟨SIGCHLD, child, status⟩ :: after)).pending = []) :
    ∃ g, (run (worker s) (before ++ .signal ⟨SIGCHLD, child, status⟩ :: after)).life = .ends g := by
  have hu : Usual (before ++ .signal ⟨SIGCHLD, child, status⟩ :: after) := by
    intro i hi
    simp only [List.mem_append, List.mem_cons, Ev.signal.injEq] at hi
    rcases hi with hi | hi | hi
    · exact hb i hi
    · subst hi; rfl
    · exact ha i hi
  have hg := (Good.run (t := workerSignals) _ (ready_good _ s) hu).life
  rcases hg with hr | hg
  · exfalso
    have := ((C154_exact_partial s _ hu).1 hd).mp hr ⟨SIGCHLD, child, status⟩
      (List.mem_append_right _ List.mem_cons_self)
    simp only at this
    revert this
    decide
  · exact hg

example : Mild SIGCHLD := by decide
example : (run (worker python) ([] ++ .signal ⟨SIGCHLD, 77, 0⟩ :: [.read 0])).pending = [] := by decide +kernel

/-- **C154 refuted: stopping and continuing.**  SIGCONT, and the signals of a terminal that stop a process
(SIGTSTP, SIGTTIN, SIGTTOU), and SIGURG end the worker and the whole server when they are read: a server that is
sent to the background and back is gone. -/
theorem C154_mild_signals_end_refuted (s : Settings) (before after : List Ev) (hb : Usual before)
    (ha : Usual after) (i : Info)
    (hi : i.sig = SIGCONT ∨ i.sig = SIGTSTP ∨ i.sig = SIGTTIN ∨ i.sig = SIGTTOU ∨ i.sig = SIGURG) :
    Mild i.sig ∧
    ((run (worker s) (before ++ .signal i :: after)).pending = [] →
      (run (worker s) (before ++ .signal i :: after)).life ≠ .runs) ∧
    ((run (master s) (before ++ .signal i :: after)).pending = [] →
      (run (master s) (before ++ .signal i :: after)).life ≠ .runs) := by
  have hset : settable i.sig = true := by
    rcases hi with h | h | h | h | h <;> rw [h] <;> rfl
  have hu : Usual (before ++ .signal i :: after) := by
    intro j hj
    simp only [List.mem_append, List.mem_cons, Ev.signal.injEq] at hj
    rcases hj with hj | hj | hj
    · exact hb j hj
    · subst hj; exact hset
    · exact ha j hj
  have hm : Ev.signal i ∈ before ++ .signal i :: after := List.mem_append_right _ List.mem_cons_self
  refine ⟨?_, ?_, ?_⟩
  · rcases hi with h | h | h | h | h <;> rw [h] <;> decide
  · intro hd hr
    have := ((C154_exact_partial s _ hu).1 hd).mp hr i hm
    revert this
    rcases hi with h | h | h | h | h <;> rw [h] <;> decide
  · intro hd hr
    have := ((C154_exact_partial s _ hu).2 hd).mp hr i hm
    revert this
    rcases hi with h | h | h | h | h <;> rw [h] <;> decide

/-- SIGSTOP does stop the process, and the SIGCONT that lets it go on is what it then reads. -/
example : (run (worker python) [.signal ⟨SIGSTOP, 1, 0⟩]).life = .stopped ∧
    (run (worker python) [.signal ⟨SIGSTOP, 1, 0⟩, .signal ⟨SIGCONT, 1, 0⟩]).life = .runs ∧
    (run (worker python) [.signal ⟨SIGSTOP, 1, 0⟩, .signal ⟨SIGCONT, 1, 0⟩, .read 0]).life = .ends SIGCONT ∧
    (run (master python) [.signal ⟨SIGTSTP, 1, 0⟩, .read 0]).life = .ends SIGTSTP := by decide +kernel

/-- **C154 refuted: a change of a file while a worker starts.**  The master tells workers of changed files with
SIGUSR1; a worker that has not set up its signals yet, in a server with the usual settings, is killed by it. -/
theorem C154_change_kills_starting_refuted (s : Settings) (hs : s.act SIGUSR1 = .dfl) (master value : Nat) :
    (run (starting s) [.signal ⟨SIGUSR1, master, value⟩]).life = .killed SIGUSR1 := by
  show (deliver (starting s) ⟨SIGUSR1, master, value⟩).life = _
  have hb : (unblockAll s).blocked SIGUSR1 = false := rfl
  have ha : (unblockAll s).act SIGUSR1 = .dfl := hs
  simp [deliver, starting, hb, ha, SIGKILL, SIGSTOP, SIGCONT, SIGUSR1, defaultAction, SIGCHLD, SIGURG, SIGWINCH,
    SIGTSTP, SIGTTIN, SIGTTOU] at *

example : python.act SIGUSR1 = .dfl := by decide

/-! ## C155: the actions of signals afterwards -/

/-- **C155**: whatever a program does with signals and however often it runs the server in between (a reload is
such a run), the action of every signal is the one the program has set: the server leaves no trace. -/
theorem C155_actions_kept (sigjmp : Bool) (evs : List UserEv) (s : Settings) (sig : Nat) :
    (userRun sigjmp s evs).act sig = (userRun sigjmp s (evs.filter (· ≠ .serve))).act sig := by
  suffices H : ∀ (evs : List UserEv) (s t : Settings), (∀ k, s.act k = t.act k) → ∀ k,
      (userRun sigjmp s evs).act k = (userRun sigjmp t (evs.filter (· ≠ .serve))).act k from
    H evs s s (fun _ => rfl) sig
  intro evs
  induction evs with
  | nil => intro s t h k; exact h k
  | cons e es ih =>
    intro s t h k
    cases e with
    | action g a =>
      rw [List.filter_cons_of_pos (by simp)]
      show (userRun sigjmp (userStep sigjmp s (.action g a)) es).act k
        = (userRun sigjmp (userStep sigjmp t (.action g a)) _).act k
      apply ih
      intro j
      simp only [userStep]
      split
      · simp only [setAct, h j]
      · exact h j
    | mask g b =>
      rw [List.filter_cons_of_pos (by simp)]
      show (userRun sigjmp (userStep sigjmp s (.mask g b)) es).act k
        = (userRun sigjmp (userStep sigjmp t (.mask g b)) _).act k
      apply ih
      intro j
      simp only [userStep]
      split <;> exact h j
    | serve =>
      rw [List.filter_cons_of_neg (by simp)]
      show (userRun sigjmp (serve sigjmp s) es).act k = _
      apply ih
      intro j
      rw [serve_act]
      exact h j

example : (userRun true python [.serve, .action SIGUSR1 (.fn 7), .serve, .action SIGTERM .ign, .serve]).act SIGINT
      = .fn 0 ∧
    (userRun true python [.serve, .action SIGUSR1 (.fn 7), .serve, .action SIGTERM .ign, .serve]).act SIGUSR1
      = .fn 7 ∧ (refresh python).act SIGINT = .dfl := by decide +kernel

/-! ## C156: the mask afterwards -/

/-- **C156** (partial: signals that were blocked before, or, in a build without `sigsetjmp`, that were not). -/
theorem C156_mask_partial (sigjmp : Bool) (s : Settings) (sig : Nat)
    (h : settable sig = true → s.blocked sig = sigjmp) : (serve sigjmp s).blocked sig = s.blocked sig := by
  rw [serve_blocked]
  split
  · rename_i hs
    exact (h hs).symm
  · rfl

/-- **C156 refuted.**  After the server has returned, because of a signal or for a reload, all signals are
blocked, whatever the program had set: the mask that `sigsetjmp` kept is the server's own.  A signal that the
program has a function for, or that would end it, is not delivered any more. -/
theorem C156_all_blocked_refuted (s : Settings) (sig : Nat) (h : settable sig = true) :
    (serve true s).blocked sig = true ∧
    ∀ (p : Proc) (i : Info), p.set = serve true s → p.life = .runs → i.sig = sig →
      (deliver p i).ran = p.ran ∧ (deliver p i).life = .runs := by
  have hb : (serve true s).blocked sig = true := by rw [serve_blocked, if_pos h]
  refine ⟨hb, ?_⟩
  intro p i hp hr hi
  obtain ⟨h1, h2⟩ := settable_ne h
  unfold deliver
  rw [hr]
  simp only [hi, if_neg h1, if_neg h2]
  by_cases hc : sig = SIGCONT
  · simp only [if_pos hc, hp, hb, if_true]
    split <;> exact ⟨rfl, rfl⟩
  · simp only [if_neg hc, hp, hb, if_true]
    split <;> exact ⟨rfl, hr⟩

/-- In a build without `sigsetjmp` it is the other way round: what the program had blocked is not any more. -/
theorem C156_all_unblocked_refuted (s : Settings) (sig : Nat) (h : settable sig = true) :
    (serve false s).blocked sig = false := by
  rw [serve_blocked, if_pos h]

example : (serve true python).blocked SIGINT = true ∧ python.blocked SIGINT = false := by decide +kernel

example : settable 40 = true ∧ settable SIGKILL = false ∧ settable 64 = true := by decide

/-! ## C157, C158: waiting for a better application file -/

/-- **C157**: while the server waits for a correction of its application file, it tries again in the first turn
in which the file has changed, unless SIGINT or, where signals are not blocked, a signal came before; SIGINT ends
it in the turn it is seen, unless the file has changed too.  `quiet`: turns without change and without SIGINT. -/
theorem C157_change_or_interrupt (quiet rest : List (List Nat × Bool)) (pending arrived : List Nat) (changed : Bool)
    (hp : SIGINT ∉ pending) (hq : ∀ t ∈ quiet, t.2 = false ∧ SIGINT ∉ t.1) :
    watchDog true pending (quiet ++ (arrived, changed) :: rest) =
      if changed then .again
      else if SIGINT ∈ arrived then .exits
      else watchDog true (pending ++ (quiet.map Prod.fst).flatten ++ arrived) rest := by
  induction quiet generalizing pending with
  | nil =>
    simp only [List.nil_append, watchDog, dogTurn, if_true, List.map_nil, List.flatten_nil, List.append_nil,
      List.mem_append, hp, false_or]
    by_cases hi : SIGINT ∈ arrived
    · cases changed <;> simp [hi]
    · cases changed <;> simp [hi]
  | cons t ts ih =>
    obtain ⟨h1, h2⟩ := hq t List.mem_cons_self
    obtain ⟨ta, tc⟩ := t
    dsimp only at h1 h2
    subst h1
    have hn : SIGINT ∉ pending ++ ta := by
      rw [List.mem_append]
      rintro (h | h)
      · exact hp h
      · exact h2 h
    rw [List.cons_append, watchDog]
    simp only [dogTurn, if_true, if_neg hn, Bool.false_eq_true, if_false]
    rw [ih (pending ++ ta) hn (fun t ht => hq t (List.mem_cons_of_mem _ ht))]
    simp only [List.map_cons, List.flatten_cons, List.append_assoc]

/-- The same where signals are not blocked (the first load failed), as long as no other signal comes. -/
theorem C157_before_first_start (quiet rest : List (List Nat × Bool)) (arrived : List Nat) (changed : Bool)
    (hq : ∀ t ∈ quiet, t.2 = false ∧ t.1 = []) (ha : ∀ s ∈ arrived, s = SIGINT) :
    watchDog false [] (quiet ++ (arrived, changed) :: rest) =
      if changed then .again
      else if SIGINT ∈ arrived then .exits
      else watchDog false [] rest := by
  induction quiet with
  | nil =>
    have hany : arrived.any (fun s => s ≠ SIGINT ∧ s ≠ SIGPIPE) = false := by
      rw [List.any_eq_false]
      intro x hx
      simp [ha x hx]
    simp only [List.nil_append, watchDog, dogTurn, Bool.false_eq_true, if_false]
    rw [hany]
    by_cases hi : SIGINT ∈ arrived
    · cases changed <;> simp [hi]
    · cases changed <;> simp [hi]
  | cons t ts ih =>
    obtain ⟨h1, h2⟩ := hq t List.mem_cons_self
    obtain ⟨ta, tc⟩ := t
    dsimp only at h1 h2
    subst h1 h2
    rw [List.cons_append, watchDog]
    simp only [dogTurn, Bool.false_eq_true, if_false, List.any_nil, List.not_mem_nil]
    exact ih (fun t ht => hq t (List.mem_cons_of_mem _ ht))

example : watchDog true [] ([([SIGTERM], false), ([], false)] ++ ([], true) :: []) = .again := by decide
example : watchDog true [] ([([], false)] ++ ([SIGHUP, SIGINT], false) :: []) = .exits := by decide
example : watchDog false [] ([([], false)] ++ ([SIGINT], false) :: [([], true)]) = .exits := by decide

/-- **C158** (partial: before the server ran for the first time in this process). SIGTERM ends the server while
it waits. -/
theorem C158_terminated_partial (quiet rest : List (List Nat × Bool)) (arrived : List Nat) (changed : Bool)
    (hq : ∀ t ∈ quiet, t.2 = false ∧ t.1 = []) (ha : SIGTERM ∈ arrived) :
    watchDog false [] (quiet ++ (arrived, changed) :: rest) = .killed := by
  induction quiet with
  | nil =>
    have hany : arrived.any (fun s => s ≠ SIGINT ∧ s ≠ SIGPIPE) = true := by
      rw [List.any_eq_true]
      exact ⟨SIGTERM, ha, by decide⟩
    simp only [List.nil_append, watchDog, dogTurn, Bool.false_eq_true, if_false, hany, if_true]
  | cons t ts ih =>
    obtain ⟨h1, h2⟩ := hq t List.mem_cons_self
    obtain ⟨ta, tc⟩ := t
    dsimp only at h1 h2
    subst h1 h2
    rw [List.cons_append, watchDog]
    simp only [dogTurn, Bool.false_eq_true, if_false, List.any_nil, List.not_mem_nil]
    exact ih (fun t ht => hq t (List.mem_cons_of_mem _ ht))

example : watchDog false [] ([([], false)] ++ ([SIGTERM], false) :: []) = .killed := by decide

/-- **C158 refuted.**  When the application file has an error after a reload, all signals are blocked while the
server waits for a correction (C156), and it only ever looks at SIGINT: it goes on waiting whatever other signals
it is sent, however many and however often. -/
theorem C158_cannot_be_terminated_refuted (turns : List (List Nat × Bool)) (pending : List Nat)
    (hp : SIGINT ∉ pending) (h : ∀ t ∈ turns, t.2 = false ∧ SIGINT ∉ t.1) :
    watchDog true pending turns = .waits (pending ++ (turns.map Prod.fst).flatten) := by
  induction turns generalizing pending with
  | nil => simp [watchDog]
  | cons t ts ih =>
    obtain ⟨h1, h2⟩ := h t List.mem_cons_self
    obtain ⟨ta, tc⟩ := t
    dsimp only at h1 h2
    subst h1
    have hn : SIGINT ∉ pending ++ ta := by
      rw [List.mem_append]
      rintro (h | h)
      · exact hp h
      · exact h2 h
    rw [watchDog]
    simp only [dogTurn, if_true, if_neg hn, Bool.false_eq_true, if_false]
    rw [ih (pending ++ ta) hn (fun t ht => h t (List.mem_cons_of_mem _ ht))]
    simp only [List.map_cons, List.flatten_cons, List.append_assoc]

example : watchDog true [] [([SIGTERM], false), ([SIGTERM, SIGHUP], false)] = .waits [SIGTERM, SIGTERM, SIGHUP] := by
  decide

/-! ## C159: a reload ends the old workers -/

open Fly.Master (St OnlyEnds Benign Change kernel)

/-- Every child of the master is in its table, and the other way round. -/
def Family (s : St) : Prop := s.table.Perm (s.live ++ s.zombies)

theorem erase_append_perm {l z : List Nat} {c : Nat} (h : c ∈ l ++ z) :
    (l.erase c ++ (if c ∈ l then z else z.erase c)).Perm ((l ++ z).erase c) := by
  by_cases hc : c ∈ l
  · rw [if_pos hc, List.erase_append_left _ hc]
  · rw [if_neg hc, List.erase_append_right _ hc, List.erase_of_not_mem hc]

theorem killLoop_done : ∀ (n : Nat) (s : St) (told ended : List Nat), s.table.length < n →
    ended.length = s.table.length → (s.live ++ s.zombies).Perm ended → s.table.length = (s.live ++ s.zombies).length →
    ∃ t, killLoop n s told ended = .done t (told ++ s.table) ∧ t.table = [] ∧ t.live = [] ∧ t.zombies = [] ∧ t.now = 0
  | 0, s, told, ended, h, _, _, _ => absurd h (by omega)
  | n + 1, s, told, ended, h, he, hp, hl => by
    rw [killLoop]
    cases ht : s.table with
    | nil =>
      rw [ht] at hl
      have : s.live ++ s.zombies = [] := List.eq_nil_of_length_eq_zero hl.symm
      rw [List.append_eq_nil_iff] at this
      refine ⟨{ s with now := 0 }, ?_, ht, this.1, this.2, rfl⟩
      rw [List.append_nil, ht]
    | cons p ps =>
      have hne : ¬ (s.live = [] ∧ s.zombies = []) := by
        rintro ⟨h1, h2⟩
        rw [h1, h2, ht] at hl
        simp at hl
      simp only [if_neg hne]
      cases ended with
      | nil => rw [ht] at he; simp at he
      | cons c cs =>
        dsimp only
        have hc : c ∈ s.live ++ s.zombies := hp.symm.subset List.mem_cons_self
        have hperm := erase_append_perm hc
        have hlen : ((s.live ++ s.zombies).erase c).length + 1 = (s.live ++ s.zombies).length := by
          rw [List.length_erase_of_mem hc]
          have := List.length_pos_of_mem hc
          omega
        obtain ⟨u, hu⟩ : ∃ u : St, u = reap s c := ⟨_, rfl⟩
        rw [← hu]
        have hut : u.table = p :: ps := by rw [hu]; exact ht
        have hrm : Master.removeWorker u p = { u with table := ps, now := u.now - 1 } := by
          unfold Master.removeWorker
          rw [hut, if_pos List.mem_cons_self, List.erase_cons_head]
        have hulz : u.live ++ u.zombies = s.live.erase c ++ (if c ∈ s.live then s.zombies else s.zombies.erase c) := by
          rw [hu]; rfl
        rw [hrm]
        have hcs : (u.live ++ u.zombies).Perm cs := by
          rw [hulz]
          refine hperm.trans ?_
          have := hp.erase c
          rwa [List.erase_cons_head] at this
        have hl2 : (u.live ++ u.zombies).length = ps.length := by
          rw [hulz, hperm.length_eq]
          rw [ht, List.length_cons] at hl
          omega
        obtain ⟨t, h1, h2⟩ := killLoop_done n { u with table := ps, now := u.now - 1 } (told ++ [p]) cs
          (by show ps.length < n; rw [ht, List.length_cons] at h; omega)
          (by show cs.length = ps.length; rw [ht, List.length_cons, List.length_cons] at he; omega) hcs hl2.symm
        refine ⟨t, ?_, h2⟩
        rw [h1, List.append_assoc]
        rfl

theorem family_kernel {s : St} (h : Family s) (p : Nat) (c : Change) (hc : c.ends = true) : Family (kernel s p c) := by
  unfold Master.kernel
  split
  · rename_i hm
    unfold Family
    simp only [hc, if_true]
    refine h.trans ?_
    have h1 : s.live.Perm (p :: s.live.erase p) := List.perm_cons_erase hm
    have h2 : (s.live ++ s.zombies).Perm (p :: s.live.erase p ++ s.zombies) := h1.append_right _
    refine h2.trans ?_
    have h3 : (p :: s.live.erase p ++ s.zombies) = [p] ++ (s.live.erase p ++ s.zombies) := rfl
    rw [h3, ← List.append_assoc (s.live.erase p)]
    exact List.perm_append_comm
  · exact h

theorem family_forkN {s : St} (k : Nat) (h : Family s) : Family (Master.forkN k s) := by
  unfold Family
  simp only [Master.forkN]
  have h1 : (s.table ++ List.range' s.next k).Perm ((s.live ++ s.zombies) ++ List.range' s.next k) :=
    List.Perm.append_right _ h
  refine h1.trans ?_
  rw [List.append_assoc, List.append_assoc]
  exact List.Perm.append_left _ List.perm_append_comm

theorem family_remove {s : St} (hi : Master.Inv s) (h : Family s) {p : Nat} (hz : p ∈ s.zombies) (hl : p ∉ s.live) :
    Family (Master.removeWorker { s with pending := none, zombies := s.zombies.erase p } p) := by
  have hm : p ∈ s.table := h.symm.subset (List.mem_append_right _ hz)
  unfold Family Master.removeWorker
  simp only [hm, if_true]
  have := h.erase p
  rwa [List.erase_append_right _ hl] at this

theorem family_run : ∀ (es : List Master.Ev) {s t : St}, Master.Inv s → Family s → OnlyEnds es →
    Master.run s es = .run t → Family t
  | [], s, t, _, h, _, hr => by
    simp only [Master.run, Master.Out.run.injEq] at hr
    exact hr ▸ h
  | e :: es, s, t, hi, h, ho, hr => by
    have ho' : OnlyEnds es := fun x hx => ho x (List.mem_cons_of_mem _ hx)
    rw [Master.run] at hr
    rcases ho e List.mem_cons_self with he | ⟨p, c, he⟩
    · subst he
      cases hp : s.pending with
      | none =>
        simp only [Master.step, hp] at hr
        exact family_run es hi h ho' hr
      | some i =>
        rcases Master.step_cases hi hp with ⟨u, h1, h2, v, hv, huv⟩ | ⟨u, k, h1⟩ | h1
        · rw [h1] at hr
          refine family_run es h2 ?_ ho' hr
          rw [huv]
          apply family_forkN
          rw [hv]
          exact family_remove hi h (hi.pend i hp).2.2 (hi.pend i hp).1
        · rw [h1] at hr
          cases hr
        · rw [h1] at hr
          cases hr
    · have hc := Master.ends_of he
      rw [he.1] at hr
      simp only [Master.step] at hr
      exact family_run es (hi.kernel p c hc) (family_kernel h p c hc) ho' hr

theorem family_early : ∀ (es : List (Nat × Change)) {s : St}, Master.Inv s → Family s → (∀ e ∈ es, e.2.ends = true) →
    Master.Inv (es.foldl (fun s e => kernel s e.1 e.2) s) ∧ Family (es.foldl (fun s e => kernel s e.1 e.2) s)
  | [], s, hi, h, _ => ⟨hi, h⟩
  | e :: es, s, hi, h, hb =>
    family_early es (hi.kernel e.1 e.2 (hb e List.mem_cons_self))
      (family_kernel h e.1 e.2 (hb e List.mem_cons_self)) (fun x hx => hb x (List.mem_cons_of_mem _ hx))

/-- **C159** (partial: no worker was stopped before; workers that are told to end do end).  When the application
file has changed, every worker of the old application is told to end, once, and has ended before the new one is
loaded, whatever workers ended before, noticed or not, and in whatever order `wait` returns them: no process of the
old server is left. -/
theorem C159_old_workers_gone_partial (req max : Int) (first : Nat) (h : 0 < req) (early : List (Nat × Change))
    (late : List Master.Ev) (he : ∀ e ∈ early, Benign e.2) (hl : OnlyEnds late) (s : St)
    (hs : Master.serve req max first early late = .run s) (order : List Nat)
    (ho : order.Perm (s.live ++ s.zombies)) :
    ∃ t told, killWorkers s order = .done t told ∧ t.live = [] ∧ t.zombies = [] ∧ t.table = [] ∧
      told = s.table ∧ told.Nodup ∧ ∀ p ∈ s.live, p ∈ told := by
  unfold Master.serve at hs
  rw [Master.boot_eq req max first h] at hs
  simp only at hs
  have he' : ∀ e ∈ early, e.2.ends = true := by
    intro e hm
    rcases he e hm with h | h | h | h <;> rw [h] <;> rfl
  have hb := Master.booted_inv req max first h
  have hf : Family (Master.booted req max first) := by
    unfold Family Master.booted
    exact family_forkN _ (List.Perm.refl _)
  obtain ⟨h1, h2⟩ := family_early early hb hf he'
  have h4 := (h1.refresh).run late hl hs
  have h5 : Family s := family_run late h1.refresh h2 hl hs
  obtain ⟨t, a, b, c, d, _⟩ := killLoop_done (s.table.length + 1) s [] order (by omega)
    (by rw [ho.length_eq, h5.length_eq]) ho.symm h5.length_eq
  refine ⟨t, s.table, ?_, c, d, b, rfl, h4.nd, fun p hp => h4.sub.subset hp⟩
  simpa [killWorkers] using a

example : ∃ s, Master.serve 3 100 1000 [(1000, .killed)] [.child 1001 .killed, .handle] = .run s ∧
    s.live = [1002, 1003] ∧ s.zombies = [1000] ∧
    killWorkers s [1003, 1000, 1002] =
      .done { s with live := [], zombies := [], table := [], now := 0 } [1000, 1002, 1003] :=
  ⟨_, rfl, by decide, by decide, by decide⟩

/-- **C159 refuted: a worker the master has forgotten.**  A worker that is a child of the master but not in its
table (one that was stopped, C83) and does not end by itself is there when the new application is loaded. -/
theorem C159_forgotten_worker_stays_refuted : ∀ (n : Nat) (s : St) (told ended : List Nat) (p : Nat),
    p ∈ s.live → p ∉ s.table → p ∉ ended → ∀ t k, killLoop n s told ended = .done t k → p ∈ t.live ∧ (p ∈ k → p ∈ told)
  | 0, s, told, ended, p, _, _, _, t, k, hk => by rw [killLoop] at hk; cases hk
  | n + 1, s, told, ended, p, hl, ht, he, t, k, hk => by
    rw [killLoop] at hk
    cases htab : s.table with
    | nil =>
      rw [htab] at hk
      simp only [Kill.done.injEq] at hk
      rw [← hk.1, ← hk.2]
      exact ⟨hl, id⟩
    | cons q qs =>
      rw [htab] at hk
      dsimp only at hk
      rw [if_neg (by rintro ⟨h1, _⟩; rw [h1] at hl; cases hl)] at hk
      cases ended with
      | nil => cases hk
      | cons c cs =>
        dsimp only at hk
        have hpc : p ≠ c := fun h => he (h ▸ List.mem_cons_self)
        have hpq : p ≠ q := fun h => ht (by rw [htab, h]; exact List.mem_cons_self)
        have := C159_forgotten_worker_stays_refuted n _ _ cs p ?_ ?_ ?_ t k hk
        · refine ⟨this.1, fun h => ?_⟩
          have h2 := this.2 h
          rw [List.mem_append, List.mem_singleton] at h2
          rcases h2 with h2 | h2
          · exact h2
          · exact absurd h2 hpq
        · have h1 : p ∈ (reap s c).live := (List.mem_erase_of_ne hpc).mpr hl
          unfold Master.removeWorker
          split <;> exact h1
        · have h1 : p ∉ (reap s c).table := ht
          unfold Master.removeWorker
          split
          · exact fun h => h1 (List.mem_of_mem_erase h)
          · exact h1
        · exact fun h => he (List.mem_cons_of_mem _ h)

/-- Such a worker: it was stopped and the master heard of it. -/
example : ∃ s, Master.serve 1 100 1000 [] [.child 1000 .stopped, .handle] = .run s ∧ 1000 ∈ s.live ∧
    1000 ∉ s.table ∧ ∃ t, killWorkers s [1001] = .done t [1001] ∧ t.live = [1000] :=
  ⟨_, rfl, by decide, by decide, _, rfl, by decide⟩

/-- **C159 refuted: a worker that does not end.**  As long as one of the workers does not end, because it is
stopped or a function of the application does not return (the worker reads its signals only between requests), the
master waits in `wait` and the new application is not loaded: with fewer ends than workers it is never done. -/
theorem C159_busy_worker_blocks_refuted : ∀ (n : Nat) (s : St) (told ended : List Nat),
    ended.length < s.table.length → ∀ t k, killLoop n s told ended ≠ .done t k
  | 0, s, told, ended, _, t, k => by rw [killLoop]; exact fun h => by cases h
  | n + 1, s, told, ended, h, t, k => by
    rw [killLoop]
    cases htab : s.table with
    | nil => rw [htab] at h; exact absurd h (by simp)
    | cons q qs =>
      dsimp only
      split
      · exact fun h => by cases h
      · cases ended with
        | nil => exact fun h => by cases h
        | cons c cs =>
          apply C159_busy_worker_blocks_refuted n
          rw [htab, List.length_cons, List.length_cons] at h
          have h1 : (reap s c).table = q :: qs := htab
          unfold Master.removeWorker
          simp only [h1, List.mem_cons_self, if_true, List.erase_cons_head]
          omega

example : ∃ s, Master.serve 2 100 1000 [] [] = .run s ∧ s.table = [1000, 1001] ∧
    killWorkers s [1001] = .waiting { s with live := [1000], table := [1001], now := 1 } [1000, 1001] :=
  ⟨_, rfl, by decide, by decide⟩

/-! ## C160: the table of workers and SIGUSR1 -/

theorem notice_same : ∀ (ws : List Nat) (i : Info), i.value = i.pid ∨ i.value ∉ ws → notice ws i = ws
  | [], _, _ => rfl
  | w :: ws, i, h => by
    rw [notice]
    split
    · rename_i hw
      rcases h with h | h
      · rw [← h, hw]
      · exact absurd (hw ▸ List.mem_cons_self) h
    · rw [notice_same ws i]
      rcases h with h | h
      · exact .inl h
      · exact .inr (fun hm => h (List.mem_cons_of_mem _ hm))

/-- **C160** (partial: SIGUSR1 from workers that tell their own process id, and from anybody with a value that is
no worker's process id, such as 0 from `kill`).  The master's table names the same workers afterwards. -/
theorem C160_table_kept_partial : ∀ (calls : List (Handler × Info)) (ws : List Nat),
    (∀ c ∈ calls, c.2.value = c.2.pid ∨ c.2.value ∉ ws) → tableAfter ws calls = ws
  | [], ws, _ => rfl
  | (f, i) :: cs, ws, h => by
    have hi : i.value = i.pid ∨ i.value ∉ ws := h (f, i) List.mem_cons_self
    have ih := C160_table_kept_partial cs ws (fun c hc => h c (List.mem_cons_of_mem _ hc))
    cases f <;> simp only [tableAfter]
    · exact ih
    · exact ih
    · rw [notice_same ws i hi]; exact ih
    · exact ih

/-- **C160 refuted.**  Any process that may send the master a signal can have it forget a worker, and have itself
told to end in its place: `sigqueue` of SIGUSR1 with the worker's process id as value. -/
theorem C160_worker_replaced_refuted (before after : List Nat) (w sender : Nat) (hw : w ∉ before) :
    tableAfter (before ++ w :: after) [(.notice, ⟨SIGUSR1, sender, w⟩)] = before ++ sender :: after := by
  simp only [tableAfter]
  induction before with
  | nil => simp [notice]
  | cons b bs ih =>
    have hb : b ≠ w := fun h => hw (h ▸ List.mem_cons_self)
    rw [List.cons_append, notice, if_neg hb, ih (fun h => hw (List.mem_cons_of_mem _ h))]
    rfl

example : (run (master python) [.signal ⟨SIGUSR1, 77, 1001⟩, .read 0]).called = [(.notice, ⟨SIGUSR1, 77, 1001⟩)] ∧
    tableAfter [1000, 1001, 1002] [(.notice, ⟨SIGUSR1, 77, 1001⟩)] = [1000, 77, 1002] ∧
    tableAfter [1000, 1001] [(.notice, ⟨SIGUSR1, 1001, 1001⟩), (.notice, ⟨SIGUSR1, 5, 0⟩)] = [1000, 1001] := by
  decide +kernel

end Fly.Signals
