import Verif.Basic

/-! # The master process: its table of workers, SIGCHLD, shutting down, and reloading

src/master.c for Linux (signalfd and inotify), together with the part of the kernel that decides which
notifications reach the master. -/

namespace Fly.Master

/-- What happened to a child: `si_code` of SIGCHLD with `si_status` (sigaction(2)). -/
inductive Change where
  | exited (status : Nat)
  | killed
  | dumped
  | stopped
  | continued
  | trapped
deriving DecidableEq, Repr

/-- The part of `struct signalfd_siginfo` that `__fly_sigchld` reads (src/master.c:82-234). -/
structure Info where
  pid : Nat
  change : Change
deriving DecidableEq, Repr

/-- `struct fly_master` (src/master.h:31-48) and the kernel's view of its children.  Simplified: process ids
are never used twice; the SIGUSR1 by which workers tell their own process ids changes nothing (`Fly.Signals`,
C160). -/
structure St where
  /-- `req_workers`: the value FLY_WORKER -/
  req : Int
  /-- `fly_worker_max_limit()`: the value FLY_WORKER_MAX (src/master.c:64-67) -/
  max : Int
  /-- `workers`: process ids in the list -/
  table : List Nat
  /-- `now_workers` -/
  now : Int
  /-- kernel: children that have not ended (running, or stopped and able to run again) -/
  live : List Nat
  /-- kernel: children that ended and were not waited for -/
  zombies : List Nat
  /-- kernel: the pending SIGCHLD; a standard signal is pending at most once (signal(7)) -/
  pending : Option Info
  /-- kernel: the next process id -/
  next : Nat
deriving DecidableEq, Repr

/-- What becomes of the master. -/
inductive Out where
  /-- it waits for the next event -/
  | run (s : St)
  /-- it sent SIGTERM to `killed` and returns FLY_MASTER_SIGNAL_END -/
  | ended (s : St) (killed : List Nat)
  /-- FLY_EMERGENCY_ERROR: the process exits -/
  | emergency
  /-- `assert(0)`: the process aborts -/
  | abort
  /-- it never comes back from a loop -/
  | stuck
deriving DecidableEq, Repr

/-- Parent's side of `__fly_master_fork` (src/master.c:948-1012): `now_workers++` and `fly_add_worker`
(src/master.c:914-918), at the end of the list.  Simplified: fork and the allocation do not fail. -/
def fork (s : St) : St :=
  { s with table := s.table ++ [s.next], now := s.now + 1, live := s.live ++ [s.next], next := s.next + 1 }

/-- The loop of `__fly_master_worker_spawn` (src/master.c:895-902), with fuel. -/
def spawnLoop : Nat → St → Option St
  | 0, s => if s.now < s.req ∧ s.now < s.max then none else some s
  | n + 1, s => if s.now < s.req ∧ s.now < s.max then spawnLoop n (fork s) else some s

/-- `fly_master_worker_spawn`, `__fly_master_worker_spawn` (src/master.c:885-903). -/
def spawn (s : St) : Out :=
  if s.req ≤ 0 then .emergency
  else
    match spawnLoop (s.req - s.now).toNat s with
    | some s' => .run s'
    | none => .stuck

/-- `fly_remove_worker` (src/master.c:920-934): the first entry with this process id. -/
def removeWorker (s : St) (pid : Nat) : St :=
  if pid ∈ s.table then { s with table := s.table.erase pid, now := s.now - 1 } else s

/-- `__fly_workers_rebalance` (src/master.c:72-80). -/
def rebalance (s : St) : Out :=
  if s.now ≤ s.max then spawn s else .run s

/-- `waitpid(pid, NULL, WNOHANG)`: a child that ended is gone afterwards, one that has not is left alone
(neither WUNTRACED nor WCONTINUED is given), anything else is an error. -/
def waitpid (s : St) (pid : Nat) : Option St :=
  if pid ∈ s.zombies then some { s with zombies := s.zombies.erase pid }
  else if pid ∈ s.live then some s
  else none

/-- `fly_master_signal_default_handler` (src/master.c:236-271): SIGTERM to every entry of the list, which is
empty afterwards. -/
def terminate (s : St) : Out :=
  .ended { s with table := [], now := s.now - s.table.length } s.table

/-- `goto decrement` of `__fly_sigchld` (src/master.c:210-228). -/
def decrement (s : St) (pid : Nat) : Out := rebalance (removeWorker s pid)

/-- `__fly_sigchld` (src/master.c:82-234).  The exit statuses are FLY_WORKER_SUCCESS_EXIT = 0 (src/worker.h:45)
and FLY_ERR_EMERG = 10, FLY_ERR_CRIT = 11, FLY_ERR_ERR = 12 (src/err.h:63-75). -/
def sigchld (s : St) (i : Info) : Out :=
  match waitpid s i.pid with
  | none => .emergency
  | some s =>
    match i.change with
    | .continued => decrement s i.pid
    | .dumped => decrement s i.pid
    | .exited status =>
      if status = 0 then decrement s i.pid
      else if status = 10 then terminate s
      else if status = 11 then terminate s
      else if status = 12 then decrement s i.pid
      else .abort
    | .killed => decrement s i.pid
    | .stopped => decrement s i.pid
    | .trapped => decrement s i.pid

/-- What can happen: a child changes, the master reads its signal descriptor, or someone ends the server. -/
inductive Ev where
  | child (pid : Nat) (c : Change)
  | handle
  | term
deriving DecidableEq, Repr

/-- Whether the child is gone after the change. -/
def Change.ends : Change → Bool
  | .exited _ => true
  | .killed => true
  | .dumped => true
  | .stopped => false
  | .continued => false
  | .trapped => false

/-- The kernel: a change of a child that has not ended.  SIGCHLD is made pending if none is; otherwise the
notification is dropped. -/
def kernel (s : St) (pid : Nat) (c : Change) : St :=
  if pid ∈ s.live then
    { s with
      live := if c.ends then s.live.erase pid else s.live
      zombies := if c.ends then s.zombies ++ [pid] else s.zombies
      pending := match s.pending with
        | some i => some i
        | none => some ⟨pid, c⟩ }
  else s

/-- One event.  `handle` is `__fly_master_signal_handler` (src/master.c:368-385) with `__fly_msignal_handle`
(src/master.c:273-304): SIGCHLD goes to `__fly_sigchld`; `term` is a signal whose handler is NULL, SIGINT or
SIGTERM (src/master.c:51-61). -/
def step (s : St) : Ev → Out
  | .child pid c => .run (kernel s pid c)
  | .handle =>
    match s.pending with
    | none => .run s
    | some i => sigchld { s with pending := none } i
  | .term => terminate s

/-- A history. -/
def run (s : St) : List Ev → Out
  | [] => .run s
  | e :: es =>
    match step s e with
    | .run s' => run s' es
    | o => o

/-- `fly_master_init` (src/master.c:649-686): no workers.  `first` is the next process id. -/
def St.init (req max : Int) (first : Nat) : St :=
  { req, max, table := [], now := 0, live := [], zombies := [], pending := none, next := first }

/-- `fly_refresh_signal` (src/fsignal.c:71-83) called by `__fly_master_signal_event` (src/master.c:400): the
action of SIGCHLD is set to SIG_DFL, which discards a pending SIGCHLD. -/
def refresh (s : St) : St := { s with pending := none }

/-- `__pyfly_run` (src/pyserver.c:1140-1174): the workers are spawned; then `fly_master_process` sets up its
signals and handles events.  `early` is what children do before the signals are set up. -/
def serve (req max : Int) (first : Nat) (early : List (Nat × Change)) (late : List Ev) : Out :=
  match spawn (St.init req max first) with
  | .run s => run (refresh (early.foldl (fun s e => kernel s e.1 e.2) s)) late
  | o => o

/-! ## Reloading -/

/-- `struct fly_watch_path` (src/master.h:50-59). -/
structure Watch where
  wd : Nat
  configure : Bool
deriving DecidableEq, Repr

/-- Bits of an inotify mask (inotify(7)). -/
def IN_ACCESS : Nat := 0x1
def IN_MODIFY : Nat := 0x2
def IN_ATTRIB : Nat := 0x4
def IN_CLOSE_WRITE : Nat := 0x8
def IN_CLOSE_NOWRITE : Nat := 0x10
def IN_OPEN : Nat := 0x20
def IN_DELETE_SELF : Nat := 0x400
def IN_MOVE_SELF : Nat := 0x800
def IN_IGNORED : Nat := 0x8000

/-- `fly_master_setreload` (src/master.c:1585-1595) then `__fly_master_reload_filepath`
(src/master.c:1749-1800): the file is watched whatever `configure` says. -/
def watches (configure : Bool) : List Watch := [⟨1, configure⟩]

/-- The mask given to `inotify_add_watch` (src/master.c:1767-1768). -/
def watchMask : Nat := IN_CLOSE_WRITE ||| IN_DELETE_SELF ||| IN_MOVE_SELF ||| IN_ATTRIB ||| IN_IGNORED

/-- The kernel: of what happens to the file, the events the mask asks for are put in the queue. -/
def queued (ws : List Watch) (masks : List Nat) : List (Nat × Nat) :=
  ws.flatMap (fun w => (masks.filter (fun m => m &&& watchMask != 0)).map (fun m => (w.wd, m)))

/-- What a reload event does. -/
inductive ReloadOut where
  /-- workers are killed and FLY_MASTER_RELOAD is returned: the application is loaded and served again -/
  | reload
  /-- nothing happened -/
  | continue
  /-- the handler returns -1; the event has `if_fail_term` -/
  | fail
  /-- `assert(0)` -/
  | abort
deriving DecidableEq, Repr

/-- `__fly_search_wp` (src/master.c:1598-1617). -/
def searchWp : List Watch → Nat → Option Watch
  | [], _ => none
  | w :: ws, wd => if w.wd = wd then some w else searchWp ws wd

/-- `__fly_reload` (src/master.c:1621-1657): `switch` on the whole mask, FLY_NOT_COME_HERE is `assert(0)`
(src/util.h:37). -/
def reload (ws : List Watch) (wd mask : Nat) : ReloadOut :=
  match searchWp ws wd with
  | none => .fail
  | some _ =>
    if mask = IN_ATTRIB then .reload
    else if mask = IN_MODIFY then .reload
    else if mask = IN_MOVE_SELF then .reload
    else if mask = IN_DELETE_SELF then .reload
    else .abort

/-- `__fly_master_reload_filepath_handler` (src/master.c:1698-1726): called when the queue is not empty; only
the first event that was read is looked at. -/
def reloadHandler (ws : List Watch) : List (Nat × Nat) → ReloadOut
  | [] => .continue
  | (wd, mask) :: _ => reload ws wd mask

/-- What someone does with the application file, and the inotify events this makes (inotify(7)). -/
inductive FileOp where
  /-- opened, written and closed -/
  | save
  /-- its times or permissions are changed -/
  | touch
  /-- renamed -/
  | move
  /-- its last name is removed -/
  | delete
  /-- opened, read and closed -/
  | look
deriving DecidableEq, Repr

/-- inotify(7). -/
def FileOp.masks : FileOp → List Nat
  | .save => [IN_MODIFY, IN_OPEN, IN_MODIFY, IN_CLOSE_WRITE]
  | .touch => [IN_ATTRIB]
  | .move => [IN_MOVE_SELF]
  | .delete => [IN_ATTRIB, IN_DELETE_SELF, IN_IGNORED]
  | .look => [IN_OPEN, IN_ACCESS, IN_CLOSE_NOWRITE]

/-- The server is served with `debug` (fly/app.py:284-288 gives it as `reload`), the file is changed, and the
master handles what it is told. -/
def fileChange (debug : Bool) (op : FileOp) : ReloadOut :=
  reloadHandler (watches debug) (queued (watches debug) op.masks)

end Fly.Master
