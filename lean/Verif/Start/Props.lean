import Verif.Start.Lemmas

/-! # Properties C134–C141: starting a server -/

namespace Fly.Start

open Response (decimal)

/-! ## C134: at most one server per pid file -/

/-- **C134.**  In every history of starts, ends, crashes and forks, with every interleaving of the system
calls of different processes, and also when the pid file is deleted by hand: two processes never own the
same pid file. -/
theorem C134_one_owner (evs : List Ev) (p q i : Nat) (hp : Owns (run fresh evs) p i) (hq : Owns (run fresh evs) q i) :
    p = q :=
  (inv_run evs fresh inv_fresh).one p q i ((owns_iff _ _ _).1 hp) ((owns_iff _ _ _).1 hq)

/-- **C134.**  If nobody deletes the pid file by hand, at most one server runs, and the file at the path is
its file. -/
theorem C134_one_server (evs : List Ev) (hu : Untouched evs) (p q : Nat) (hp : Serves (run fresh evs) p)
    (hq : Serves (run fresh evs) q) : p = q ∧ ∃ i, (run fresh evs).path = some i ∧ Owns (run fresh evs) p i := by
  obtain ⟨d, i, hp⟩ := hp
  obtain ⟨d', j, hq⟩ := hq
  have ho := owner_run evs fresh (fun _ _ h => by simp [fresh, Phase.ino] at h) hu
  have h1 := ho p i (by rw [hp]; rfl)
  have h2 := ho q j (by rw [hq]; rfl)
  rw [h1] at h2
  injection h2 with h2
  subst h2
  exact ⟨(inv_run evs fresh inv_fresh).one p q i (by rw [hp]; rfl) (by rw [hq]; rfl), i, h1, .inr ⟨d, .inr (.inr (.inr hp))⟩⟩

/-- Two starts at the same time: the calls interleave, one of them serves. -/
def race : List Ev := [.launch 11 false, .launch 12 false, .openPid 12, .openPid 11, .write 12 2, .closePid 12 true, .serve 12]

example : Ev.rm ∉ race ∧ (run fresh race).procs 12 = .serving false 0 ∧ (run fresh race).procs 11 = .gone := by decide

/-! ## C135: the pid file names the server -/

/-- **C135, the part that holds.**  In every history in which writes take everything and nobody deletes the
file: while a server that is no daemon runs, the pid file contains its number in decimal, and a reader
gets that number. -/
theorem C135_names_server_partial (evs : List Ev) (hu : Untouched evs) (hw : WholeWrites evs) (p i : Nat)
    (hp : (run fresh evs).procs p = .serving false i) :
    ∃ text, pidText (run fresh evs) = some text ∧ text = decimal p ∧ atoll text = p := by
  have ho := owner_run evs fresh (fun _ _ h => by simp [fresh, Phase.ino] at h) hu p i (by rw [hp]; rfl)
  have hd := wrote_run evs fresh inv_fresh wrote_fresh hw p i (.inr hp)
  exact ⟨decimal p, by rw [pidText, ho, Option.map_some, hd], rfl, atoll_decimal p⟩

example : WholeWrites race ∧ pidText (run fresh race) = some b!"12" := by
  refine ⟨fun p n h => ?_, by decide⟩
  simp [race] at h
  obtain ⟨rfl, rfl⟩ := h
  decide

/-- **C135 refuted: daemons.**  Whatever the history: when a server whose start has got as far as its
configuration becomes a daemon, the file names the process that was started, which is gone, and not the
daemon (unless the system gives the daemon just that number again). -/
theorem C135_daemon_refuted (evs : List Ev) (hu : Untouched evs) (hw : WholeWrites evs) (p c g i : Nat)
    (hp : (run fresh evs).procs p = .configured true i) (hc : (run fresh evs).procs c = .gone)
    (hg : (run fresh evs).procs g = .gone) (hgp : g ≠ p) (hgc : g ≠ c) :
    let w := run fresh (evs ++ [.fork1 p c, .fork2 c g])
    Serves w g ∧ w.procs p = .gone ∧ pidText w = some (decimal p) ∧ decimal p ≠ decimal g := by
  have ho := owner_run evs fresh (fun _ _ h => by simp [fresh, Phase.ino] at h) hu p i (by rw [hp]; rfl)
  have hd := wrote_run evs fresh inv_fresh wrote_fresh hw p i (.inl ⟨true, .inr hp⟩)
  have hcp : c ≠ p := fun e => by rw [e, hp] at hc; cases hc
  intro w
  have e1 : step (run fresh evs) (.fork1 p c) = ((run fresh evs).setProc p .gone).setProc c (.middle i) := by
    simp only [step, hp, hc, if_true]
  have e2 : w = (((((run fresh evs).setProc p .gone).setProc c (.middle i)).setProc c .gone).setProc g (.serving true i)) := by
    show run fresh (evs ++ [.fork1 p c, .fork2 c g]) = _
    have hcw : (((run fresh evs).setProc p .gone).setProc c (.middle i)).procs c = .middle i := by simp [World.setProc]
    have hgw : (((run fresh evs).setProc p .gone).setProc c (.middle i)).procs g = .gone := by
      simp only [World.setProc]; rw [if_neg hgc, if_neg hgp, hg]
    rw [run_append, run_cons, e1, run_cons]
    generalize ((run fresh evs).setProc p .gone).setProc c (.middle i) = v at hcw hgw
    simp only [run, List.foldl_nil, step, hcw, hgw, if_true]
  refine ⟨⟨true, i, by rw [e2]; simp [World.setProc]⟩, ?_, ?_, fun e => hgp (decimal_inj e).symm⟩
  · rw [e2]; simp [World.setProc, Ne.symm hgp, Ne.symm hcp]
  · rw [e2]; simp only [pidText, World.setProc]; rw [ho, Option.map_some, hd]

/-- A daemon 4103 with the pid file of the shell's child 4101. -/
def asDaemon : List Ev := [.launch 4101 true, .openPid 4101, .write 4101 4, .closePid 4101 true]

example : (run fresh asDaemon).procs 4101 = .configured true 0 ∧ (run fresh asDaemon).procs 4103 = .gone ∧
    pidText (run fresh (asDaemon ++ [.fork1 4101 4102, .fork2 4102 4103])) = some b!"4101" := by decide

/-- **C135 refuted: short writes.**  Whatever the history: when the system takes only a part of the number,
the server starts all the same, and the file holds that part. -/
theorem C135_short_write_refuted (evs : List Ev) (p i n : Nat) (hp : (run fresh evs).procs p = .opened false i)
    (hi : (run fresh evs).path = some i) (hl : (decimal p).length < pidMax) (hn : n < (decimal p).length) :
    let w := run fresh (evs ++ [.write p n, .closePid p true, .serve p])
    Serves w p ∧ ∃ text, pidText w = some text ∧ text ≠ decimal p := by
  intro w
  have e : w.procs p = .serving false i ∧ w.path = some i ∧ w.data i = (decimal p).take n := by
    show (run fresh (evs ++ [.write p n, .closePid p true, .serve p])).procs p = _ ∧
      (run fresh (evs ++ [.write p n, .closePid p true, .serve p])).path = _ ∧
      (run fresh (evs ++ [.write p n, .closePid p true, .serve p])).data i = _
    rw [run_append]
    generalize run fresh evs = v at hp hi
    have h1 : step v (.write p n) = { (v.setProc p (.written false i)) with
        data := fun j => if j = i then (decimal p).take n else v.data j } := by
      simp only [step, hp]; rw [if_neg (by omega)]
    rw [run_cons, h1]
    simp [run, step, World.setProc, hi]
  refine ⟨⟨false, i, e.1⟩, (decimal p).take n, by rw [pidText, e.2.1, Option.map_some, e.2.2], fun h => ?_⟩
  have := congrArg List.length h
  rw [List.length_take] at this
  omega

example : (run fresh [.launch 12 false, .openPid 12]).procs 12 = .opened false 0 ∧
    pidText (run fresh [.launch 12 false, .openPid 12, .write 12 1, .closePid 12 true, .serve 12]) = some b!"1" := by decide

/-! ## C136: a server can be started again -/

/-- **C136, the part that holds.**  When there is no pid file, a start whose system calls work leads to a
running server, whatever happened before. -/
theorem C136_start_partial (w : World) (p : Nat) (hw : w.path = none) (hp : w.procs p = .gone)
    (hl : (decimal p).length < pidMax) :
    Serves (run w [.launch p false, .openPid p, .write p (decimal p).length, .closePid p true, .serve p]) p := by
  have h1 : step w (.launch p false) = w.setProc p (.starting false) := by simp only [step, hp, if_true]
  rw [run_cons, h1]
  refine ⟨false, w.nextIno, ?_⟩
  have hl' : ¬ (decimal p).length ≥ pidMax := by omega
  simp [run, step, World.setProc, hw, hl']

example : fresh.path = none ∧ (decimal 12).length < pidMax := by decide

/-- **C136 refuted.**  Whatever the history `evs` in which a server has started, and however all servers
then ended (`ends`: a clean end, a signal, a crash, a failing start), no server ever runs again, however
often it is tried, until somebody deletes the pid file by hand. -/
theorem C136_no_restart_refuted (evs ends later : List Ev) (hu : Untouched (evs ++ ends ++ later)) (p : Nat)
    (hp : Serves (run fresh evs) p) (hend : ∀ q i, ¬ Owns (run fresh (evs ++ ends)) q i) :
    ∀ q, ¬ Serves (run fresh (evs ++ ends ++ later)) q := by
  obtain ⟨d, i, hp⟩ := hp
  have hu1 : Untouched evs := fun c => hu (by simp [c])
  have hu2 : Untouched ends := fun c => hu (by simp [c])
  have hu3 : Untouched later := fun c => hu (by simp [c])
  have ho := owner_run evs fresh (fun _ _ h => by simp [fresh, Phase.ino] at h) hu1 p i (by rw [hp]; rfl)
  have hpath := path_run ends _ i ho hu2
  rw [← run_append] at hpath
  intro q ⟨d', j, hq⟩
  rw [run_append] at hq
  exact nobody_run later _ i hpath (fun a b hab => hend a b ((owns_iff _ _ _).2 hab)) hu3 q j (by rw [hq]; rfl)

example : Ev.rm ∉ (race ++ [.exit 12] ++ [.launch 13 false, .openPid 13]) ∧ Serves (run fresh race) 12 ∧
    (run fresh (race ++ [.exit 12] ++ [.launch 13 false, .openPid 13])).procs 13 = .gone :=
  ⟨by decide, ⟨false, 0, by decide⟩, by decide⟩

example : ∀ q i, ¬ Owns (run fresh (race ++ [.exit 12])) q i := by
  intro q i h
  rw [owns_iff] at h
  simp [race, run, step, fresh, World.setProc] at h
  grind [Phase.ino]

/-- **C136 refuted: a failed start.**  The same after a start that failed behind the creation of the file,
for a missing mount, a wrong route or a missing log directory: the next start is refused for the pid file. -/
theorem C136_failed_start_refuted (evs later : List Ev) (hu : Untouched (evs ++ later)) (i : Nat)
    (hi : (run fresh evs).path = some i) (hend : ∀ q i, ¬ Owns (run fresh evs) q i) :
    ∀ q, ¬ Serves (run fresh (evs ++ later)) q := by
  intro q ⟨d', j, hq⟩
  rw [run_append] at hq
  exact nobody_run later _ i hi (fun a b hab => hend a b ((owns_iff _ _ _).2 hab)) (fun c => hu (by simp [c])) q j
    (by rw [hq]; rfl)

example : (run fresh [.launch 12 false, .openPid 12, .writeFails 12]).path = some 0 ∧
    ∀ q i, ¬ Owns (run fresh [.launch 12 false, .openPid 12, .writeFails 12]) q i := by
  refine ⟨by decide, fun q i h => ?_⟩
  rw [owns_iff] at h
  simp [run, step, fresh, World.setProc] at h
  grind [Phase.ino]

/-- **C136 refuted: reload.**  When the application file of a running server changes, the server ends: its
own pid file keeps it from starting again. -/
theorem C136_reload_ends_server_refuted (evs : List Ev) (hu : Untouched evs) (p : Nat) (hp : Serves (run fresh evs) p) :
    (run fresh (evs ++ [.reload p, .openPid p])).procs p = .gone := by
  obtain ⟨d, i, hp⟩ := hp
  have ho := owner_run evs fresh (fun _ _ h => by simp [fresh, Phase.ino] at h) hu p i (by rw [hp]; rfl)
  rw [run_append]
  generalize run fresh evs = v at hp ho
  cases d <;> simp [run, step, hp, World.setProc, ho]

/-! ## C137: removal -/

/-- **C137.**  The removal routine, called by process `self` when the file holds the number of process `p`
as a start writes it, deletes the file if it is the own one and leaves it as it is otherwise. -/
theorem C137_removes_own_only (self p : Nat) (hl : (decimal p).length < pidMax) :
    removePid self (some (decimal p)) = if self = p then .returns none else .returns (some (decimal p)) := by
  have h0 : (decimal p).length ≠ 0 := fun h => decimal_ne_nil p (List.length_eq_zero_iff.1 h)
  rw [removePid, if_neg (by omega), atoll_decimal]
  by_cases h : self = p
  · rw [if_pos (by omega), if_pos h]
  · rw [if_neg (by omega), if_neg h]

/-- **C137.**  Whatever the file holds, it is left as it is, deleted, or the process ends; it is deleted
only if it reads as the own number. -/
theorem C137_never_foreign (self : Nat) (content : Bytes) :
    (removePid self (some content) = .returns none → atoll content = self) ∧
      (removePid self (some content) = .ends ∨ removePid self (some content) = .returns none ∨
        removePid self (some content) = .returns (some content)) := by
  by_cases h1 : content.length = 0 ∨ content.length ≥ pidMax
  · have e : removePid self (some content) = .ends := by rw [removePid, if_pos h1]
    rw [e]; exact ⟨(fun h => by cases h), .inl rfl⟩
  · by_cases h2 : atoll content = self
    · have e : removePid self (some content) = .returns none := by rw [removePid, if_neg h1, if_pos h2]
      rw [e]; exact ⟨fun _ => h2, .inr (.inl rfl)⟩
    · have e : removePid self (some content) = .returns (some content) := by rw [removePid, if_neg h1, if_neg h2]
      rw [e]; exact ⟨(fun h => by cases h), .inr (.inr rfl)⟩

example : removePid 12 (some b!"12") = .returns none ∧ removePid 13 (some b!"12") = .returns (some b!"12") ∧
    (decimal 2147483647).length < pidMax := by decide

/-! ## C138: the descriptors of a daemon -/

/-- **C138, the part that holds.**  If `fly_daemon` reports success, the three standard streams are
`/dev/null`, the listening socket and the log files are what they were, and every other descriptor is
closed — if none of the kept descriptors is a standard stream and none is open above the limit. -/
theorem C138_descriptors_partial (s : Sys) (k : Keep) (t : Fds) (h : (daemon s k t).1 = 0)
    (hk : ∀ j, j = k.listen ∨ some j ∈ k.logs → 2 < j) (hl : ∀ j, s.limit ≤ j → j ≠ k.listen → some j ∉ k.logs → t j = none) (j : Nat) :
    (daemon s k t).2 j =
      if j ≤ 2 then some .null else if j = k.listen ∨ some j ∈ k.logs then t j else none := by
  obtain ⟨t1, h1, h2, h3⟩ := daemon_zero s k t h
  have hc := closeAll_spec s k s.limit 0 t t1 h1 j
  have hhas : k.has j = true ↔ j = k.listen ∨ some j ∈ k.logs := by
    simp [Keep.has, or_comm]
  rw [h3]
  by_cases hj : j ≤ 2
  · rw [if_pos hj]
    simp only [Fds.set]
    split
    · rfl
    · split
      · rfl
      · rw [if_pos (by omega)]
  · rw [if_neg hj]
    simp only [Fds.set]
    rw [if_neg (by omega), if_neg (by omega), if_neg (by omega), hc]
    by_cases hh : j = k.listen ∨ some j ∈ k.logs
    · rw [if_pos hh, if_neg (fun c => by rw [hhas.2 hh] at c; exact absurd c.2.2 (by decide))]
    · rw [if_neg hh]
      by_cases hlim : j < s.limit
      · rw [if_pos ⟨by omega, by omega, by
          cases e : k.has j with
          | false => rfl
          | true => exact absurd (hhas.1 e) hh⟩]
      · rw [if_neg (by omega)]
        exact hl j (by omega) (fun c => hh (.inl c)) (fun c => hh (.inr c))

/-- **C138, the part that holds.**  Success is reported whenever the system calls work, under the same
condition. -/
theorem C138_succeeds_partial (s : Sys) (k : Keep) (t : Fds) (h1 : s.fork1 = true) (h2 : s.setsid = true)
    (h3 : s.fork2 = true) (h4 : s.chdir = true) (h5 : s.getrlimit = true) (h6 : ∀ i, s.close i = true)
    (h7 : s.openNull = true) (h8 : s.dupOut = true) (h9 : s.dupErr = true) (hlim : 0 < s.limit)
    (hk : ∀ j, j = k.listen ∨ some j ∈ k.logs → 2 < j) : (daemon s k t).1 = 0 := by
  obtain ⟨t1, ht1⟩ := closeAll_ok s k h6 s.limit 0 t
  have h0 : t1 0 = none := by
    have hh : k.has 0 = false := by
      cases e : k.has 0 with
      | false => rfl
      | true =>
        have : 0 = k.listen ∨ some 0 ∈ k.logs := by simpa [Keep.has, or_comm] using e
        have := hk 0 this
        omega
    rw [closeAll_spec s k s.limit 0 t t1 ht1 0, if_pos ⟨by omega, by omega, hh⟩]
  have hlow : lowest t1 s.limit = some 0 := by
    unfold lowest
    obtain ⟨m, hm⟩ : ∃ m, s.limit = m + 1 := ⟨s.limit - 1, by omega⟩
    rw [hm, List.range_succ_eq_map, List.find?_cons]
    simp [h0]
  unfold daemon
  simp [h1, h2, h3, h4, h5, ht1, h7, hlow, h8, h9]

/-- An ordinary start: standard streams on a terminal, socket 3, two log files, a file of the interpreter. -/
def usual : Fds := fun j => if j < 7 then some (.other j) else none

def calm : Sys := ⟨true, true, true, true, true, 1024, fun _ => true, true, true, true⟩

def kept : Keep := ⟨3, [some 4, some 5, none]⟩

example : (daemon calm kept usual).1 = 0 ∧ (List.range 8).map (daemon calm kept usual).2 =
    [some .null, some .null, some .null, some (.other 3), some (.other 4), some (.other 5), none, none] := by
  decide +kernel

example : (∀ j, j = kept.listen ∨ some j ∈ kept.logs → 2 < j) := by
  intro j h
  simp [kept] at h
  omega

/-- **C138 refuted.**  If the server was started with a closed standard stream, so that the listening socket
or a log file has the number 1 or 2, a daemon that reports success has lost it. -/
theorem C138_low_descriptor_lost_refuted (s : Sys) (k : Keep) (t : Fds) (h : (daemon s k t).1 = 0) (j n : Nat)
    (hj : j = 1 ∨ j = 2) (ht : t j = some (.other n)) : (daemon s k t).2 j = some .null ∧ (daemon s k t).2 j ≠ t j := by
  obtain ⟨t1, -, -, h3⟩ := daemon_zero s k t h
  have : (daemon s k t).2 j = some .null := by
    rw [h3]
    simp only [Fds.set]
    rcases hj with e | e
    · rw [if_neg (by omega), if_pos e]
    · rw [if_pos e]
  exact ⟨this, by rw [this, ht]; simp⟩

example : (daemon calm ⟨1, []⟩ usual).1 = 0 ∧ (daemon calm ⟨1, []⟩ usual).2 1 = some .null ∧ usual 1 = some (.other 1) := by
  decide +kernel

/-! ## C139: failures of a daemon start are reported -/

/-- **C139, the part that holds.**  If the first `fork` fails, `run` raises an exception. -/
theorem C139_first_fork_partial (s : Sys) (k : Keep) (t : Fds) (h : s.fork1 = false) : runDaemon s k t = .raised := by
  unfold runDaemon daemon
  simp [h]

example : (runDaemon { calm with fork1 := false } kept usual) = .raised := C139_first_fork_partial _ _ _ rfl

/-- **C139 refuted: errors ignored.**  If the session, the working directory, the limit, `/dev/null` or a
standard stream cannot be had, the server is started all the same, and the shell told that all is well. -/
theorem C139_failure_serves_refuted (s : Sys) (k : Keep) (t : Fds) (h1 : s.fork1 = true)
    (h : s.setsid = false ∨ s.fork2 = true ∧ (s.chdir = false ∨ s.getrlimit = false ∨ s.openNull = false ∨ s.dupOut = false ∨ s.dupErr = false)) :
    (daemon s k t).1 ≠ 0 ∧ shellStatus s = some 0 ∧ ∃ t', runDaemon s k t = .serves t' := by
  have key : (daemon s k t).1 ≠ 0 ∧ (daemon s k t).1 ≠ -1 := by
    unfold daemon
    rw [if_neg (by simp [h1])]
    split
    · exact ⟨by simp, by simp⟩
    · next h2 =>
      have h2 : s.setsid = true := by simpa using h2
      obtain ⟨h3, h⟩ : s.fork2 = true ∧ (s.chdir = false ∨ s.getrlimit = false ∨ s.openNull = false ∨ s.dupOut = false ∨ s.dupErr = false) := by
        rcases h with h | h
        · rw [h2] at h; cases h
        · exact h
      rw [if_neg (by simp [h3])]
      split
      · exact ⟨by simp, by simp⟩
      · next h4 =>
        split
        · exact ⟨by simp, by simp⟩
        · next h5 =>
          split
          · exact ⟨by simp, by simp⟩
          · split
            · exact ⟨by simp, by simp⟩
            · next fd hfd =>
              dsimp only
              split
              · exact ⟨by simp, by simp⟩
              · split
                · exact ⟨by simp, by simp⟩
                · split
                  · exact ⟨by simp, by simp⟩
                  · next h7 h8 =>
                    exfalso
                    have h4 : s.chdir = true := by simpa using h4
                    have h5 : s.getrlimit = true := by simpa using h5
                    have h7 : s.dupOut = true := by simpa using h7
                    have h8 : s.dupErr = true := by simpa using h8
                    cases h6 : s.openNull with
                    | false => rw [h6] at hfd; cases hfd
                    | true =>
                      rw [h4, h5, h6, h7, h8] at h
                      rcases h with h | h | h | h | h <;> cases h
  exact ⟨key.1, by simp [shellStatus, h1], (daemon s k t).2, by unfold runDaemon; rw [if_neg key.2]⟩

example : (daemon { calm with openNull := false } kept usual).1 = -6 := by decide +kernel

/-- **C139 refuted: exit status.**  If the second `fork` fails there is no server, but the shell is told that
the start has worked. -/
theorem C139_second_fork_refuted (s : Sys) (k : Keep) (t : Fds) (h1 : s.fork1 = true) (h2 : s.setsid = true)
    (h3 : s.fork2 = false) : runDaemon s k t = .raised ∧ shellStatus s = some 0 := by
  unfold runDaemon daemon shellStatus
  simp [h1, h2, h3]

example : (daemon { calm with fork2 := false } kept usual).1 = -1 ∧ shellStatus { calm with fork2 := false } = some 0 := by
  decide +kernel

/-! ## C140: the listening socket -/

/-- **C140, the part that holds.**  If sockets can be made non-blocking and reusable: a success returns the
one descriptor that is left open, for the first usable address, and it listens, with certificate and key in
place where TLS is on; a failure leaves nothing open, and a usable
address makes it a failure only if a later call fails. -/
theorem C140_listening_partial (s : SockSys) (fd0 : Nat) (ha : ∀ r ∈ s.addrs, r.nonblocking = true ∧ r.reuse = true) :
    match socketInit s fd0 with
    | .ok fd a opened => opened = [fd] ∧ ∃ r, s.addrs[a]? = some r ∧ r.usable = true ∧
        (∀ b r', b < a → s.addrs[b]? = some r' → r'.usable = false) ∧ s.getnameinfo = true ∧ s.listen = true ∧
        (s.ssl = true → s.paths = true ∧ s.crt = true ∧ s.key = true)
    | .failed message opened => opened = [] ∧ message = true ∧
        ((∀ r ∈ s.addrs, r.usable = false) ∨ s.getaddrinfo = false ∨ s.getnameinfo = false ∨ s.listen = false ∨
          s.ssl = true ∧ (s.paths = false ∨ s.crt = false ∨ s.key = false)) := by
  unfold socketInit
  cases hg : s.getaddrinfo with
  | false => simp
  | true =>
    rcases bindLoop_clean s.addrs 0 fd0 ha with ⟨i, r, e1, e2, e3, f, e4⟩ | ⟨e1, e2⟩
    · rw [e4]
      cases hn : s.getnameinfo with
      | false => simp
      | true =>
        cases hl : s.listen with
        | false => simp
        | true =>
          by_cases hs : (s.ssl && (!s.paths || !s.crt || !s.key)) = true
          · simp only [hs, if_true, Bool.not_true, Bool.false_eq_true, if_false, List.erase_cons_head, true_and]
            simp at hs
            simp only [hs.1, true_and]
            rcases hs.2 with (h | h) | h <;> simp [h]
          · simp only [hs, Bool.not_true, Bool.false_eq_true, if_false, Nat.zero_add, true_and]
            refine ⟨r, e1, e2, e3, fun h => ?_⟩
            simpa [h, not_or, and_assoc] using hs
    · rw [e2]
      simp only [Bool.not_true, Bool.false_eq_true, if_false, true_and]
      exact .inl e1

/-- Two addresses, the first in use by another program. -/
def two : SockSys := ⟨true, [⟨true, true, true, false⟩, ⟨true, true, true, true⟩], true, true, false, false, false, false⟩

example : (∀ r ∈ two.addrs, r.nonblocking = true ∧ r.reuse = true) ∧ socketInit two 3 = .ok 4 1 [4] := by decide

/-- **C140 refuted: leak.**  An address whose socket cannot be made non-blocking leaves its descriptor open,
whether the call succeeds or fails. -/
theorem C140_leak_refuted (s : SockSys) (fd0 : Nat) (pre post : List Addr) (x : Addr) (hs : s.addrs = pre ++ x :: post)
    (hpre : ∀ r ∈ pre, Skipped r) (hx : x.socket = true ∧ x.nonblocking = false) (hg : s.getaddrinfo = true) :
    match socketInit s fd0 with
    | .ok fd _ opened => ∃ lost ∈ opened, lost ≠ fd
    | .failed _ opened => opened ≠ [] := by
  obtain ⟨fd', -, h⟩ := bindLoop_skip pre (x :: post) 0 fd0 [] hpre
  rw [bindLoop] at h
  simp only [hx.1, hx.2, Bool.not_true, Bool.not_false, Bool.false_eq_true, if_false, if_true] at h
  obtain ⟨k1, k2⟩ := bindLoop_keeps post (0 + pre.length + 1) (fd' + 1) [fd'] fd' (by omega) (by simp)
  unfold socketInit
  rw [hs, h]
  simp only [hg, Bool.not_true, Bool.false_eq_true, if_false]
  cases hb : bindLoop post (0 + pre.length + 1) (fd' + 1) [fd'] with
  | nobody o =>
    rw [hb] at k1
    exact fun c => by rw [Bound.opened, c] at k1; cases k1
  | noReuse o =>
    rw [hb] at k1
    exact fun c => by rw [Bound.opened, c] at k1; cases k1
  | bound f b o =>
    rw [hb] at k1
    have hne : fd' ≠ f := by have := k2 f b o hb; omega
    have he : o.erase f ≠ [] := fun c => by
      have : fd' ∈ o.erase f := (List.mem_erase_of_ne hne).2 k1
      rw [c] at this; cases this
    dsimp only
    split
    · next heq =>
      split at heq
      · cases heq
      · split at heq
        · cases heq
        · split at heq
          · cases heq
          · injection heq with h1 _ h3
            exact ⟨fd', by rw [← h3]; exact k1, by rw [← h1]; exact hne⟩
    · next heq =>
      split at heq
      · injection heq with _ h3; rw [← h3]; exact he
      · split at heq
        · injection heq with _ h3; rw [← h3]; exact he
        · split at heq
          · injection heq with _ h3; rw [← h3]; exact he
          · cases heq

example : socketInit { two with addrs := [⟨true, false, true, true⟩, ⟨true, true, true, true⟩] } 3 = .ok 4 1 [4, 3] := by decide

/-- **C140 refuted: one bad address.**  A `setsockopt` that fails for one address ends the start, though
other addresses could be used, and the reason reported to the application is an uninitialised pointer. -/
theorem C140_no_reason_refuted (s : SockSys) (fd0 : Nat) (pre post : List Addr) (x : Addr) (hs : s.addrs = pre ++ x :: post)
    (hpre : ∀ r ∈ pre, Skipped r) (hx : x.socket = true ∧ x.nonblocking = true ∧ x.reuse = false) (hg : s.getaddrinfo = true) :
    masterInit s fd0 = .undefined := by
  obtain ⟨fd', -, h⟩ := bindLoop_skip pre (x :: post) 0 fd0 [] hpre
  rw [bindLoop] at h
  simp only [hx.1, hx.2.1, hx.2.2, Bool.not_true, Bool.not_false, Bool.false_eq_true, if_false, if_true] at h
  unfold masterInit socketInit
  rw [hs, h]
  simp [hg]

example : masterInit { two with addrs := [⟨true, true, false, true⟩, ⟨true, true, true, true⟩] } 3 = .undefined := by decide

/-! ## C141: `fly_sendfile` without `sendfile(2)` -/

/-- **C141, the part that holds.**  Where the system has no `sendfile`, a call for a number of whole blocks
of 4096 bytes that the file has, on a connection that takes everything, sends exactly these bytes and moves
the offset behind them. -/
theorem C141_whole_blocks_partial (file : Bytes) (o k pos fuel : Nat) (h : o + k * block ≤ file.length) (hf : k < fuel) :
    sendfile file pos (some o) (k * block) fuel [] = .done (wanted file o (k * block)) (o + k * block) := by
  have hb : 0 < block := by decide
  unfold sendfile wanted
  rw [sendLoop_blocks file o (k * block) k _ 0 fuel [] h (by omega) ?_ (by omega) hf]
  · simp
  · intro hk
    obtain ⟨m, rfl⟩ : ∃ m, k = m + 1 := ⟨k - 1, by omega⟩
    have : (m + 1) * block = m * block + block := by rw [Nat.add_mul]; simp
    simp only [Nat.add_sub_cancel]
    omega

example (b : Nat) : sendfile (List.replicate 5000 b) 0 (some 900) 4096 2 [] = .done (List.replicate 4096 b) 4996 := by
  have := C141_whole_blocks_partial (List.replicate 5000 b) 900 1 0 2 (by rw [List.length_replicate]; decide) (by omega)
  rw [wanted, List.drop_replicate, List.take_replicate] at this
  exact this

/-- **C141 refuted: too much.**  For every other number the last block is sent in full: more bytes than asked
for, and than the response announces. -/
theorem C141_too_much_refuted (file : Bytes) (o count pos fuel : Nat) (hc : count % block ≠ 0)
    (h : o + (count / block + 1) * block ≤ file.length) (hf : count / block + 1 < fuel) :
    ∃ out, sendfile file pos (some o) count fuel [] = .done out (o + count) ∧ count < out.length := by
  have hb : 0 < block := by decide
  have e := Nat.div_add_mod count block
  have hm := Nat.mod_lt count hb
  have e2 : (count / block + 1) * block = block * (count / block) + block := by rw [Nat.add_mul, Nat.mul_comm]; simp
  refine ⟨(file.drop o).take ((count / block + 1) * block), ?_, ?_⟩
  · unfold sendfile
    rw [sendLoop_blocks file o count (count / block + 1) _ 0 fuel [] h (by omega) ?_ (by omega) hf]
    · simp
    · intro _
      have : (count / block + 1 - 1) * block = block * (count / block) := by rw [Nat.add_sub_cancel, Nat.mul_comm]
      omega
  · rw [List.length_take, List.length_drop]
    omega

example (b : Nat) : (100 : Nat) % block ≠ 0 ∧ 0 + (100 / block + 1) * block ≤ (List.replicate 5000 b).length := by
  rw [List.length_replicate]; decide

/-- **C141 refuted: endless.**  If the file has fewer bytes than asked for (it was cut meanwhile, for
instance), the call never returns. -/
theorem C141_endless_refuted (file : Bytes) (o count pos : Nat) (h : file.length - o < count) (fuel : Nat) :
    ∃ out, sendfile file pos (some o) count fuel [] = .running out := by
  unfold sendfile
  exact sendLoop_short file (some o) count fuel o 0 [] (by omega)

example : sendfile [1, 2, 3] 0 (some 0) 4 50 [] = .running [1, 2, 3] := by decide +kernel

/-- **C141 refuted: repetition.**  If the connection takes only a part of the block, the bytes that follow
are again those from the beginning of the block. -/
theorem C141_repeats_refuted (file : Bytes) (o n pos : Nat) (h : o + block ≤ file.length) (hn : n + 1 < block) :
    sendfile file pos (some o) block 2 [some n] =
      .done ((file.drop o).take (n + 1) ++ (file.drop o).take (block - (n + 1))) (o + block) := by
  have hl : ((file.drop o).take block).length = block := by
    rw [List.length_take, List.length_drop]; omega
  have hw : writeLoop ((file.drop o).take block) block 0 [some n] =
      ((file.drop o).take (n + 1) ++ (file.drop o).take (block - (n + 1)), [], true) := by
    have hb : block = 4094 + 1 + 1 := rfl
    conv => lhs; arg 2; rw [hb]
    rw [writeLoop, hl, if_pos (by decide)]
    dsimp only
    rw [writeLoop, hl, if_pos (by omega), show min (n + 1) (block - 0) = n + 1 by omega, List.take_take, List.take_take,
      show min (n + 1) block = n + 1 by omega, Nat.zero_add, show min (block - (n + 1)) block = block - (n + 1) by omega]
  unfold sendfile
  rw [sendLoop.eq_def]
  dsimp only
  rw [if_pos (by decide), hl, hw]
  simp only [if_true, List.nil_append, Nat.zero_add]
  rw [sendLoop.eq_def]
  dsimp only
  rw [if_neg (by omega)]

/-- … so the byte behind the part is the first one of the block instead of the next one of the file. -/
theorem C141_repeats_wrong_refuted (file : Bytes) (o n pos : Nat) (h : o + block ≤ file.length) (hn : n + 1 < block)
    (hd : file[o + (n + 1)]? ≠ file[o]?) :
    sendfile file pos (some o) block 2 [some n] ≠ .done (wanted file o block) (o + block) := by
  rw [C141_repeats_refuted file o n pos h hn]
  intro he
  injection he with he _
  have h1 := congrArg (fun l : Bytes => l[n + 1]?) he
  have hlen : ((file.drop o).take (n + 1)).length = n + 1 := by rw [List.length_take, List.length_drop]; omega
  simp only [wanted] at h1
  rw [List.getElem?_append_right (by omega), hlen, Nat.sub_self, List.getElem?_take, if_pos (by omega), List.getElem?_take,
    if_pos (by omega), List.getElem?_drop, List.getElem?_drop, Nat.add_zero] at h1
  exact hd h1.symm

example (m : Nat) (h : 4096 ≤ m) : 0 + block ≤ (0 :: List.replicate m 7).length ∧
    (0 :: List.replicate m 7)[0 + (9 + 1)]? ≠ (0 :: List.replicate m 7)[0]? := by
  simp [List.getElem?_replicate, block]
  omega

/-- **C141 refuted: no offset.**  `sendfile(2)` allows a null offset; here a call that has sent everything
writes through the null pointer. -/
theorem C141_null_offset_refuted (file : Bytes) (pos count fuel : Nat) (sched : List (Option Nat)) (out : Bytes) (n : Nat) :
    sendfile file pos none count fuel sched ≠ .done out n := by
  unfold sendfile
  have key : ∀ (fuel pos total : Nat) (sched : List (Option Nat)) (acc : Bytes),
      sendLoop file count none fuel pos total sched acc ≠ .done out n := by
    intro fuel
    induction fuel with
    | zero => intro pos total sched acc h; cases h
    | succ fuel ih =>
      intro pos total sched acc
      rw [sendLoop.eq_def]
      dsimp only
      split
      · split
        · exact ih _ _ _ _
        · intro h; cases h
      · intro h; cases h
  exact key _ _ _ _ _

example : sendfile [1, 2, 3] 0 none 3 50 [] = .crash [1, 2, 3] := by decide +kernel

end Fly.Start
