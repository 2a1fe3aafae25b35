import Verif.Master.Model

/-! # Signals: what they do to the master and to workers, and what the server leaves of the settings

src/fsignal.c, src/master.c and src/worker.c for Linux (signalfd, sigqueue, sigsetjmp), with the kernel's side
of signals (signal(7), sigprocmask(2), signalfd(2)), and `_watch_dog` of fly/app.py. -/

namespace Fly.Signals

/-- Signal numbers of Linux on x86 and ARM (signal(7)). -/
def SIGHUP : Nat := 1
def SIGINT : Nat := 2
def SIGQUIT : Nat := 3
def SIGKILL : Nat := 9
def SIGUSR1 : Nat := 10
def SIGUSR2 : Nat := 12
def SIGPIPE : Nat := 13
def SIGALRM : Nat := 14
def SIGTERM : Nat := 15
def SIGCHLD : Nat := 17
def SIGCONT : Nat := 18
def SIGSTOP : Nat := 19
def SIGTSTP : Nat := 20
def SIGTTIN : Nat := 21
def SIGTTOU : Nat := 22
def SIGURG : Nat := 23
def SIGWINCH : Nat := 28

/-- `fly_signals` (src/fsignal.c:7-43) up to the closing -1: all standard signals but 16 (SIGSTKFLT) and 20
(SIGTSTP), in the order of the source. -/
def flySignals : List Nat :=
  [1, 2, 3, 4, 5, 6, 7, 8, 9, 10, 11, 12, 13, 14, 15, 17, 18, 19, 21, 22, 23, 24, 25, 26, 27, 28, 29, 30, 31]

/-- The action of a signal: SIG_DFL, SIG_IGN, or a function; the number stands for the function together with
flags and mask of its `struct sigaction`. -/
inductive Act where
  | dfl
  | ign
  | fn (id : Nat)
deriving DecidableEq, Repr

/-- What a process has set for its signals. -/
structure Settings where
  act : Nat → Act
  blocked : Nat → Bool

/-- Whether the action of a signal can be set and the signal be blocked: not for SIGKILL and SIGSTOP, nor for
32 and 33, which glibc keeps for itself and leaves out of `sigfillset`. -/
def settable (sig : Nat) : Bool :=
  sig ≠ 0 && sig ≤ 64 && sig ≠ 9 && sig ≠ 19 && sig ≠ 32 && sig ≠ 33

/-- `sigaction(sig, act, NULL)` (and `signal`). -/
def setAct (s : Settings) (sig : Nat) (a : Act) : Settings :=
  { s with act := fun k => if k = sig then a else s.act k }

/-- `fly_refresh_signal` (src/fsignal.c:71-83). -/
def refreshList : List Nat → Settings → Settings
  | [], s => s
  | k :: ks, s => refreshList ks (if k ≠ SIGKILL ∧ k ≠ SIGSTOP then setAct s k .dfl else s)

def refresh (s : Settings) : Settings := refreshList flySignals s

/-- `__fly_master_get_now_sighandler` (src/master.c:578-606): the list `orig_sighandler`. -/
def saveList : List Nat → Settings → List (Nat × Act)
  | [], _ => []
  | k :: ks, s => if k = SIGKILL ∨ k = SIGSTOP then saveList ks s else (k, s.act k) :: saveList ks s

def save (s : Settings) : List (Nat × Act) := saveList flySignals s

/-- `sigprocmask(SIG_BLOCK, …)` with a full set. -/
def blockAll (s : Settings) : Settings :=
  { s with blocked := fun k => if settable k then true else s.blocked k }

/-- `sigprocmask(SIG_UNBLOCK, …)` with a full set. -/
def unblockAll (s : Settings) : Settings :=
  { s with blocked := fun k => if settable k then false else s.blocked k }

/-- `__fly_master_set_orig_sighandler` (src/master.c:608-645): the actions of the list in its order, then every
signal is unblocked. -/
def restoreList : List (Nat × Act) → Settings → Settings
  | [], s => s
  | (k, a) :: r, s => restoreList r (if k ≠ SIGKILL ∧ k ≠ SIGSTOP then setAct s k a else s)

def restore (l : List (Nat × Act)) (s : Settings) : Settings := unblockAll (restoreList l s)

/-- One run of the server in the master's process, from `_configure` to the return of `run`: `fly_master_init`
saves the actions (src/master.c:671), `__fly_master_fork` blocks all signals before it forks
(src/master.c:955-958), `__fly_master_signal_event` sets the actions to SIG_DFL and blocks
(src/master.c:400, 409, src/fsignal.c:86-95), `sigsetjmp(env, 1)` keeps the mask (src/master.c:748), and at the
end, by a signal or for a reload, `fly_master_release` restores (src/master.c:543, 263, 1649), whereupon
`siglongjmp` sets the mask that was kept (src/master.c:267, 1653).  `sigjmp` is whether the build has
`sigsetjmp`; otherwise `setjmp` and `longjmp` leave the mask alone (glibc). -/
def serve (sigjmp : Bool) (s : Settings) : Settings :=
  let old := save s
  let serving := blockAll (refresh (blockAll s))
  let released := restore old serving
  if sigjmp then { released with blocked := serving.blocked } else released

/-- What a Python program does: set an action (`signal.signal`), block or unblock a signal
(`signal.pthread_sigmask`), run the server. -/
inductive UserEv where
  | action (sig : Nat) (a : Act)
  | mask (sig : Nat) (b : Bool)
  | serve
deriving DecidableEq, Repr

/-- One step of the program; setting what cannot be set is an error and changes nothing. -/
def userStep (sigjmp : Bool) (s : Settings) : UserEv → Settings
  | .action sig a => if settable sig then setAct s sig a else s
  | .mask sig b => if settable sig then { s with blocked := fun k => if k = sig then b else s.blocked k } else s
  | .serve => serve sigjmp s

def userRun (sigjmp : Bool) (s : Settings) (evs : List UserEv) : Settings :=
  evs.foldl (userStep sigjmp) s

/-! ## Receiving signals -/

/-- `struct signalfd_siginfo`: number, sender, and the value given to `sigqueue` (0 with `kill`). -/
structure Info where
  sig : Nat
  pid : Nat
  value : Nat
deriving DecidableEq, Repr

/-- Default actions (signal(7)). -/
inductive Default where
  | term
  | ignore
  | stop
  | cont
deriving DecidableEq, Repr

def defaultAction (sig : Nat) : Default :=
  if sig = SIGCHLD ∨ sig = SIGURG ∨ sig = SIGWINCH then .ignore
  else if sig = SIGSTOP ∨ sig = SIGTSTP ∨ sig = SIGTTIN ∨ sig = SIGTTOU then .stop
  else if sig = SIGCONT then .cont
  else .term

/-- The functions of the tables of signals. -/
inductive Handler where
  /-- `FLY_SIG_IGN` (src/fsignal.h:50-52) -/
  | ignore
  /-- `__fly_sigchld`, modelled in `Fly.Master` -/
  | sigchld
  /-- `fly_master_notice_worker_daemon_pid` -/
  | notice
  /-- `fly_worker_signal_change_mnt_content`, modelled in `Fly.Scan` -/
  | change
deriving DecidableEq, Repr

/-- `fly_master_signals` (src/master.c:51-61); `none` is NULL. -/
def masterSignals : List (Nat × Option Handler) :=
  [(SIGCHLD, some .sigchld), (SIGINT, none), (SIGTERM, none), (SIGWINCH, some .ignore), (SIGUSR1, some .notice)]

/-- `fly_worker_signals` (src/worker.c:56-63). -/
def workerSignals : List (Nat × Option Handler) :=
  [(SIGINT, some .ignore), (SIGPIPE, some .ignore), (SIGWINCH, some .ignore), (SIGUSR1, some .change)]

/-- The loops of `__fly_msignal_handle` and `__fly_wsignal_handle` (src/master.c:273-303,
src/worker.c:428-457): the first entry with the number; without one, or without function, the default handler
(`none`). -/
def find : List (Nat × Option Handler) → Nat → Option Handler
  | [], _ => none
  | (n, h) :: r, sig => if n = sig then h else find r sig

/-- What became of a process. -/
inductive Life where
  | runs
  /-- by the kernel -/
  | killed (sig : Nat)
  | stopped
  /-- by the default handler: the worker exits (src/worker.c:411-426); the master ends the server
  (src/master.c:236-271) -/
  | ends (sig : Nat)
deriving DecidableEq, Repr

/-- A process of the server. -/
structure Proc where
  table : List (Nat × Option Handler)
  set : Settings
  pending : List Info
  life : Life
  /-- the functions of the table that were called -/
  called : List (Handler × Info)
  /-- functions of the application (`signal.signal`) that were called by the kernel -/
  ran : List Nat

/-- The kernel delivers a signal.  A standard signal that is pending is not made pending again.  SIGCONT
continues a stopped process.  Simplified: SIGSTOP and SIGCONT do not drop each other. -/
def deliver (p : Proc) (i : Info) : Proc :=
  match p.life with
  | .killed _ => p
  | .ends _ => p
  | _ =>
    if i.sig = SIGKILL then { p with life := .killed SIGKILL }
    else if i.sig = SIGSTOP then { p with life := .stopped }
    else
      let p := if i.sig = SIGCONT then { p with life := .runs } else p
      if p.set.blocked i.sig then
        if i.sig < 32 ∧ i.sig ∈ p.pending.map Info.sig then p else { p with pending := p.pending ++ [i] }
      else
        match p.set.act i.sig with
        | .ign => p
        | .fn f => { p with ran := p.ran ++ [f] }
        | .dfl =>
          match defaultAction i.sig with
          | .term => { p with life := .killed i.sig }
          | .ignore => p
          | .stop => { p with life := .stopped }
          | .cont => p

/-- One round of the loop of `__fly_master_signal_handler` and `__fly_worker_signal_handler`
(src/master.c:368-386, src/worker.c:460-489): one pending signal is read, the kernel decides which (`k`), and
handled.  With no signal the loop ends. -/
def read (p : Proc) (k : Nat) : Proc :=
  match p.life with
  | .runs =>
    match p.pending[k]? with
    | none => p
    | some i =>
      let p := { p with pending := p.pending.eraseIdx k }
      match find p.table i.sig with
      | none => { p with life := .ends i.sig }
      | some h => { p with called := p.called ++ [(h, i)] }
  | _ => p

inductive Ev where
  | signal (i : Info)
  | read (k : Nat)
deriving DecidableEq, Repr

def step (p : Proc) : Ev → Proc
  | .signal i => deliver p i
  | .read k => read p k

def run (p : Proc) (evs : List Ev) : Proc := evs.foldl step p

/-- A process with a signal descriptor: `__fly_master_signal_event`, `__fly_worker_signal_event`
(src/master.c:394-437, src/worker.c:513-558): actions SIG_DFL, all signals blocked. -/
def ready (table : List (Nat × Option Handler)) (s : Settings) : Proc :=
  { table, set := blockAll (refresh s), pending := [], life := .runs, called := [], ran := [] }

/-- The master. -/
def master (s : Settings) : Proc := ready masterSignals s

/-- A worker once it has set up its signals. -/
def worker (s : Settings) : Proc := ready workerSignals s

/-- A worker before that: the child's side of `__fly_master_fork` has unblocked all signals
(src/master.c:976-979), the actions are those of the master, which it had when it forked. -/
def starting (s : Settings) : Proc :=
  { table := workerSignals, set := unblockAll s, pending := [], life := .runs, called := [], ran := [] }

/-- `fly_master_notice_worker_daemon_pid` (src/master.c:317-360): the first entry whose process id is the value
gets the sender's. -/
def notice : List Nat → Info → List Nat
  | [], _ => []
  | w :: ws, i => if w = i.value then i.pid :: ws else w :: notice ws i

/-- The master's table of workers after the calls it made. -/
def tableAfter (ws : List Nat) : List (Handler × Info) → List Nat
  | [] => ws
  | (.notice, i) :: r => tableAfter (notice ws i) r
  | _ :: r => tableAfter ws r

/-! ## Waiting for a better application file -/

/-- What `_watch_dog` ends with. -/
inductive Dog where
  /-- it returns, and the file is loaded again -/
  | again
  /-- `sys.exit(1)` -/
  | exits
  /-- the process was killed by a signal -/
  | killed
  /-- it still waits -/
  | waits (pending : List Nat)
deriving DecidableEq, Repr

/-- One turn of the loop of `_watch_dog` (fly/app.py:56-82): the signals that arrived since the last turn, and
whether the file has another modification time than at the beginning, when SIGINT is looked at and at the end.
`blocked` is whether signals are blocked: then they are pending, `signal.sigpending()` shows them, SIGINT raises
KeyboardInterrupt, and `signal.raise_signal` of another one makes it pending, which it is.  Otherwise nothing is
ever pending: the default action of a signal kills the process, and SIGINT raises KeyboardInterrupt from
Python's own function.  Simplified: only signals with Python's settings at the start (SIGINT: its own function,
SIGPIPE ignored) that end a process by default. -/
def dogTurn (blocked : Bool) (pending arrived : List Nat) (changed : Bool) : Dog :=
  if blocked then
    if SIGINT ∈ pending ++ arrived then (if changed then .again else .exits)
    else if changed then .again
    else .waits (pending ++ arrived)
  else
    if arrived.any (fun s => s ≠ SIGINT ∧ s ≠ SIGPIPE) then .killed
    else if SIGINT ∈ arrived then (if changed then .again else .exits)
    else if changed then .again
    else .waits []

/-- The loop. -/
def watchDog (blocked : Bool) : List Nat → List (List Nat × Bool) → Dog
  | pending, [] => .waits pending
  | pending, (arrived, changed) :: r =>
    match dogTurn blocked pending arrived changed with
    | .waits q => watchDog blocked q r
    | d => d

/-! ## Ending the workers for a reload -/

open Fly.Master (St removeWorker)

/-- What becomes of the master in `fly_kill_workers`. -/
inductive Kill where
  /-- all entries are gone; `told` were sent SIGTERM, in this order -/
  | done (s : St) (told : List Nat)
  /-- `wait` failed: FLY_EMERGENCY_ERROR -/
  | emergency
  /-- it waits -/
  | waiting (s : St) (told : List Nat)
deriving DecidableEq, Repr

/-- `wait(NULL)` returns the child `c`, which is gone (src/master.c:697). -/
def reap (s : St) (c : Nat) : St :=
  { s with live := s.live.erase c, zombies := if c ∈ s.live then s.zombies else s.zombies.erase c }

/-- `fly_kill_workers` (src/master.c:685-707): SIGTERM to the first entry, `wait(NULL)` for any child, the entry
is removed, and again.  `ended` is which children `wait` returns, in this order; when it is used up the master
waits.  The first number counts the entries. -/
def killLoop : Nat → St → List Nat → List Nat → Kill
  | 0, s, told, _ => .waiting s told
  | n + 1, s, told, ended =>
    match s.table with
    | [] => .done { s with now := 0 } told
    | p :: _ =>
      if s.live = [] ∧ s.zombies = [] then .emergency
      else
        match ended with
        | [] => .waiting s (told ++ [p])
        | c :: cs => killLoop n (removeWorker (reap s c) p) (told ++ [p]) cs

def killWorkers (s : St) (ended : List Nat) : Kill := killLoop (s.table.length + 1) s [] ended

end Fly.Signals
