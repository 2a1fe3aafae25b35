import Verif.Response.Model
import Verif.CStr

/-! # Starting a server: pid file, daemon, listening socket; and the portable `sendfile`

Models src/master.c (pid file), src/util.c (`fly_daemon`, `fly_sendfile`), src/server.c
(`fly_socket_init`), src/pyserver.c (`_configure`, `run`) and fly/app.py (start and reload). -/

namespace Fly.Start

open Response (decimal)

/-! ## The pid file: several processes and one path -/

/-- Where a process is.  `ino` is the file it created under the path of the pid file. -/
inductive Phase where
  /-- no such process -/
  | gone
  /-- before `_configure` opens the pid file; the flag is the `daemon` argument of `run` -/
  | starting (daemon : Bool)
  /-- the file is created and empty (master.c:805) -/
  | opened (daemon : Bool) (ino : Nat)
  /-- the text is written (master.c:817) -/
  | written (daemon : Bool) (ino : Nat)
  /-- `fly_create_pidfile_noexit` has returned 0 -/
  | configured (daemon : Bool) (ino : Nat)
  /-- child of the first fork of `fly_daemon` (util.c:37-45) -/
  | middle (ino : Nat)
  /-- the master process serves (pyserver.c:1162) -/
  | serving (daemon : Bool) (ino : Nat)
  deriving DecidableEq, Repr

/-- The processes of a machine, the path of the pid file, and the contents of files. -/
structure World where
  procs : Nat → Phase
  /-- the file at the path FLY_PID_FILE (conf.h:11), if there is one -/
  path : Option Nat
  data : Nat → Bytes
  nextIno : Nat

def World.setProc (w : World) (p : Nat) (ph : Phase) : World :=
  { w with procs := fun q => if q = p then ph else w.procs q }

/-- No server has ever been started. -/
def fresh : World := ⟨fun _ => .gone, none, fun _ => [], 0⟩

/-- What can happen.  Servers are started with `create_pidfile` on. -/
inductive Ev where
  | launch (p : Nat) (daemon : Bool)
  /-- `open(FLY_PID_FILE, O_WRONLY|O_CREAT|O_EXCL)` -/
  | openPid (p : Nat)
  /-- the same call failing for another reason, e.g. no directory `log` -/
  | openFails (p : Nat)
  /-- `write` taking `n` bytes -/
  | write (p : Nat) (n : Nat)
  | writeFails (p : Nat)
  | closePid (p : Nat) (ok : Bool)
  /-- `run` without `daemon` -/
  | serve (p : Nat)
  /-- the two forks of `fly_daemon`, with the pid of the new process -/
  | fork1 (p c : Nat)
  | fork2 (c g : Nat)
  /-- the application file has changed (app.py:103-119, master.c:1662) -/
  | reload (p : Nat)
  /-- the process ends: an error, a signal, a crash, or a clean end -/
  | exit (p : Nat)
  /-- an operator deletes the pid file -/
  | rm
  deriving DecidableEq, Repr

/-- FLY_PID_MAXSTRLEN, conf.h:12. -/
def pidMax : Nat := 100

/-- One event.  Events that do not fit the state change nothing.

`launch`/`fork`: the system gives a new process a number that no living process has.
`openPid`: master.c:805-807; a failure makes `_configure` raise (pyserver.c:225-234, 998-1000) and the
program end (fly/app.py:83-85, 94-95).
`write`: master.c:809-818; the number of bytes taken is compared with -1 only.
`closePid`: master.c:820-822.  On every failure the file stays where it is.
`exit`: `fly_remove_pidfile` (master.c:858-883) is called from nowhere, so nothing happens to the file.
`reload`: the processes of the old server are gone, `_start_server` returns (app.py:293-294), the module is
loaded again and the same process runs `_configure` again (app.py:110-119); a daemon ends instead
(app.py:290-291).  The bind of the listening socket, which comes before the pid file, and the mounts and
routes, which come after it, may fail: that is `exit`. -/
def step (w : World) : Ev → World
  | .launch p d => if w.procs p = .gone then w.setProc p (.starting d) else w
  | .openPid p =>
    match w.procs p with
    | .starting d =>
      match w.path with
      | some _ => w.setProc p .gone
      | none => { (w.setProc p (.opened d w.nextIno)) with
          path := some w.nextIno,
          data := fun i => if i = w.nextIno then [] else w.data i,
          nextIno := w.nextIno + 1 }
    | _ => w
  | .openFails p => match w.procs p with | .starting _ => w.setProc p .gone | _ => w
  | .write p n =>
    match w.procs p with
    | .opened d i =>
      if (decimal p).length ≥ pidMax then w.setProc p .gone
      else { (w.setProc p (.written d i)) with
          data := fun j => if j = i then (decimal p).take n else w.data j }
    | _ => w
  | .writeFails p => match w.procs p with | .opened _ _ => w.setProc p .gone | _ => w
  | .closePid p ok =>
    match w.procs p with
    | .written d i => if ok then w.setProc p (.configured d i) else w.setProc p .gone
    | _ => w
  | .serve p => match w.procs p with | .configured false i => w.setProc p (.serving false i) | _ => w
  | .fork1 p c =>
    match w.procs p with
    | .configured true i => if w.procs c = .gone then (w.setProc p .gone).setProc c (.middle i) else w
    | _ => w
  | .fork2 c g =>
    match w.procs c with
    | .middle i => if w.procs g = .gone then (w.setProc c .gone).setProc g (.serving true i) else w
    | _ => w
  | .reload p =>
    match w.procs p with
    | .serving false _ => w.setProc p (.starting false)
    | .serving true _ => w.setProc p .gone
    | _ => w
  | .exit p => w.setProc p .gone
  | .rm => { w with path := none }

/-- A history. -/
def run (w : World) (evs : List Ev) : World := evs.foldl step w

/-- `fly_remove_pidfile`, master.c:858-883, called by process `self` when the file at the path has the
content `file`: what is left at the path, or the end of the process.  `atol` as in `CStr`; it stops
at the first byte that is no digit, the zero behind the text at the latest. -/
inductive Removal where
  | ends
  | returns (file : Option Bytes)
  deriving DecidableEq, Repr

def removePid (self : Nat) : Option Bytes → Removal
  | none => .returns none
  | some content =>
    if content.length = 0 ∨ content.length ≥ pidMax then .ends
    else if atoll content = (self : Int) then .returns none
    else .returns (some content)

/-! ## `fly_daemon` -/

/-- What a descriptor refers to. -/
inductive Obj where
  | null
  | other (n : Nat)
  deriving DecidableEq, Repr

abbrev Fds := Nat → Option Obj

def Fds.set (t : Fds) (i : Nat) (o : Option Obj) : Fds := fun j => if j = i then o else t j

/-- The results of the system calls: `true` is success. -/
structure Sys where
  fork1 : Bool
  setsid : Bool
  fork2 : Bool
  chdir : Bool
  getrlimit : Bool
  /-- `rlim_cur` -/
  limit : Nat
  /-- `close(i)` of an open descriptor -/
  close : Nat → Bool
  openNull : Bool
  dupOut : Bool
  dupErr : Bool

/-- The descriptors a server must keep (context.h:56-78): the listening socket and the log files, where
`none` is a log without file (-1, log.c:176-190). -/
structure Keep where
  listen : Nat
  logs : List (Option Nat)

/-- `is_fly_log_fd(i, ctx) || is_fly_listen_socket(i, ctx)`. -/
def Keep.has (k : Keep) (i : Nat) : Bool := k.logs.contains (some i) || i == k.listen

/-- The loop that closes descriptors, util.c:67-75, from `i` for `n` rounds: `none` is
FLY_DAEMON_CLOSE_ERROR.  Closing a descriptor that is not open gives EBADF and is fine. -/
def closeAll (s : Sys) (k : Keep) : Nat → Nat → Fds → Option Fds
  | 0, _, t => some t
  | n + 1, i, t =>
    if k.has i then closeAll s k n (i + 1) t
    else match t i with
      | none => closeAll s k n (i + 1) t
      | some _ => if s.close i then closeAll s k n (i + 1) (t.set i none) else none

/-- `open` returns the lowest descriptor that is free and below the limit. -/
def lowest (t : Fds) (limit : Nat) : Option Nat := (List.range limit).find? (fun i => t i == none)

/-- `fly_daemon`, util.c:28-103 (build without DEBUG): the number returned (in the process that returns) and
that process' descriptors.  `FLY_DAEMON_*` are in util.h:81-88. -/
def daemon (s : Sys) (k : Keep) (t : Fds) : Int × Fds :=
  if !s.fork1 then (-1, t)
  else if !s.setsid then (-2, t)
  else if !s.fork2 then (-1, t)
  else if !s.chdir then (-3, t)
  else if !s.getrlimit then (-4, t)
  else match closeAll s k s.limit 0 t with
    | none => (-5, t)
    | some t1 =>
      match (if s.openNull then lowest t1 s.limit else none) with
      | none => (-6, t1)
      | some fd =>
        let t2 := t1.set fd (some .null)
        if fd ≠ 0 then (-6, t2)
        else if !s.dupOut then (-7, t2)
        else
          let t3 := t2.set 1 (some .null)
          if !s.dupErr then (-7, t3) else (0, t3.set 2 (some .null))

/-- What happened to a start. -/
inductive Started where
  /-- `run` raises an exception -/
  | raised
  /-- the workers are made and the master serves, with these descriptors -/
  | serves (t : Fds)

/-- `run(..., daemon=True)`, pyserver.c:1148-1166: the result is compared with -1 only. -/
def runDaemon (s : Sys) (k : Keep) (t : Fds) : Started :=
  if (daemon s k t).1 = -1 then .raised else .serves (daemon s k t).2

/-- What the shell is told: the exit status of the process it started, if that has ended in
`fly_daemon` (util.c:43-44). -/
def shellStatus (s : Sys) : Option Nat := if s.fork1 then some 0 else none

/-! ## `fly_socket_init` -/

/-- The results of the calls for one address `getaddrinfo` found: `true` is success. -/
structure Addr where
  socket : Bool
  nonblocking : Bool
  reuse : Bool
  bind : Bool
  deriving DecidableEq, Repr

/-- How the loop over the addresses ends. -/
inductive Bound where
  /-- `rp == NULL` -/
  | nobody (opened : List Nat)
  /-- `goto error` after a failing `setsockopt`; nothing is stored in `err` -/
  | noReuse (opened : List Nat)
  | bound (fd addr : Nat) (opened : List Nat)
  deriving DecidableEq, Repr

/-- server.c:74-87.  New descriptors get the numbers `fd`, `fd + 1`, ...; `opened` are those open.  `a` is
the position of the address. -/
def bindLoop : List Addr → Nat → Nat → List Nat → Bound
  | [], _, _, opened => .nobody opened
  | r :: rs, a, fd, opened =>
    if !r.socket then bindLoop rs (a + 1) fd opened
    else if !r.nonblocking then bindLoop rs (a + 1) (fd + 1) (fd :: opened)
    else if !r.reuse then .noReuse opened
    else if r.bind then .bound fd a (fd :: opened)
    else bindLoop rs (a + 1) (fd + 1) opened

/-- The other calls. -/
structure SockSys where
  /-- `snprintf` of the port and `getaddrinfo` -/
  getaddrinfo : Bool
  addrs : List Addr
  getnameinfo : Bool
  listen : Bool
  ssl : Bool
  /-- both paths are configured -/
  paths : Bool
  crt : Bool
  key : Bool

/-- The result of `fly_socket_init`; `opened` are the descriptors it has opened and not closed,
`message` says that `err` was filled in. -/
inductive SockRes where
  | failed (message : Bool) (opened : List Nat)
  | ok (fd addr : Nat) (opened : List Nat)
  deriving DecidableEq, Repr

/-- `fly_socket_init`, server.c:31-185, with `err != NULL` (context.c:75, pyserver.c:217). -/
def socketInit (s : SockSys) (firstFd : Nat) : SockRes :=
  if !s.getaddrinfo then .failed true []
  else match bindLoop s.addrs 0 firstFd [] with
    | .nobody o => .failed true o
    | .noReuse o => .failed false o
    | .bound fd a o =>
      if !s.getnameinfo then .failed true (o.erase fd)
      else if !s.listen then .failed true (o.erase fd)
      else if s.ssl && (!s.paths || !s.crt || !s.key) then .failed true (o.erase fd)
      else .ok fd a o

/-- `pyfly_master_init`, pyserver.c:212-223, with `fly_context_init` and `fly_master_init`: a failure is
reported with `err.content` of a structure on the stack that nobody but `fly_error` fills in. -/
inductive MasterInit where
  | ok (fd : Nat)
  /-- an exception with a message -/
  | raised
  /-- `%s` of an uninitialised pointer -/
  | undefined
  deriving DecidableEq, Repr

def masterInit (s : SockSys) (firstFd : Nat) : MasterInit :=
  match socketInit s firstFd with
  | .ok fd _ _ => .ok fd
  | .failed true _ => .raised
  | .failed false _ => .undefined

/-! ## `fly_sendfile` where the system has no `sendfile(2)` -/

/-- FLY_SENDFILE_BUFFER, util.c:111. -/
def block : Nat := 4096

/-- The loop around `write`, util.c:129-136: `buf` has been read and `wrote` bytes count as written.  The
schedule gives what each `write` takes: `some n` is `min n` of what is offered (at least one byte), `none`
is -1 (EAGAIN on the non-blocking socket, for instance); at the end of the schedule everything is taken.
The bytes offered are always the first ones of the buffer.  Result: bytes that went out, rest of the
schedule, success. -/
def writeLoop (buf : Bytes) : Nat → Nat → List (Option Nat) → Bytes × List (Option Nat) × Bool
  | 0, _, sched => ([], sched, true)
  | fuel + 1, wrote, sched =>
    if wrote < buf.length then
      match sched with
      | none :: rest => ([], rest, false)
      | some n :: rest =>
        let taken := min (n + 1) (buf.length - wrote)
        let r := writeLoop buf fuel (wrote + taken) rest
        (buf.take taken ++ r.1, r.2)
      | [] => (buf.take (buf.length - wrote), [], true)
    else ([], sched, true)

/-- How a call ends. -/
inductive Sent where
  /-- returns `count`, with the bytes sent and the new offset -/
  | done (out : Bytes) (offset : Nat)
  /-- returns -1; the bytes sent before are not reported -/
  | error (out : Bytes)
  /-- has not ended yet -/
  | running (out : Bytes)
  /-- `*offset` of a null pointer -/
  | crash (out : Bytes)
  deriving DecidableEq, Repr

/-- The outer loop, util.c:119-138, for `fuel` rounds, at position `pos` of the file (reads of a regular
file are complete); then `*offset += count`. -/
def sendLoop (file : Bytes) (count : Nat) (offset : Option Nat) : Nat → Nat → Nat → List (Option Nat) → Bytes → Sent
  | 0, _, _, _, out => .running out
  | fuel + 1, pos, total, sched, out =>
    if total < count then
      let buf := (file.drop pos).take block
      let r := writeLoop buf buf.length 0 sched
      if r.2.2 then sendLoop file count offset fuel (pos + buf.length) (total + buf.length) r.2.1 (out ++ r.1)
      else .error (out ++ r.1)
    else match offset with
      | some o => .done out (o + count)
      | none => .crash out

/-- `fly_sendfile`, util.c:106-141, without HAVE_SYS_SENDFILE_H.  Without an offset the descriptor stands
at `pos`. -/
def sendfile (file : Bytes) (pos : Nat) (offset : Option Nat) (count fuel : Nat) (sched : List (Option Nat)) : Sent :=
  sendLoop file count offset fuel (match offset with | some o => o | none => pos) 0 sched []

end Fly.Start
