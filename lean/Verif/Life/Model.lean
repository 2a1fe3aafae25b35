import Verif.Basic

/-! # The life of a server: start, reload, failed starts, end

fly/main.py (`run`), fly/app.py (`Fly.__init__`, `run`, `_run`, `_run_server`, `_start_server`, `_display_explain`),
src/pyserver.c (`_configure`, `run`), and the descriptors that src/conf.c, src/server.c, src/log.c, src/event.c,
src/master.c and src/context.c open and close in the process of the master on Linux (epoll, signalfd, inotify). -/

namespace Fly.Life

/-- A path, by number. -/
abbrev Path := Nat

/-- What an open descriptor of the master is. -/
inductive Kind where
  /-- not opened by the server -/
  | other
  /-- the configuration file (src/conf.c:31) -/
  | config
  /-- the listening socket and its port (src/server.c:75) -/
  | listen (port : Nat)
  /-- access, error and notice log (src/log.c:182) -/
  | log
  /-- src/event.c:37 -/
  | poll
  /-- src/fsignal.c:91 -/
  | signal
  /-- inotify of the mount points (src/master.c:1546) -/
  | mounts
  /-- inotify of the application file (src/master.c:1758) -/
  | watch
deriving DecidableEq, Repr

/-- What a configuration file comes to.  `logs`: the log directory is given and can be resolved and written;
`pidfile`: `create_pidfile`; `content`: `default_content_path` is set. -/
structure Cfg where
  parses : Bool
  port : Nat
  logs : Bool
  pidfile : Bool
  content : Bool
deriving DecidableEq, Repr

/-- A version of the application file: what executing it does.  `loads`: nothing is raised.  `makes`: `Fly(…)` is
called; `debug`, `print`, `config`: its arguments `debug`, `print_request`, `config_path`.  The numbers of its
routes, of those with `debug_route`, and of its mount points; `mountsOk`: the server accepts the mount points.
`port`-independent parts (handlers, CORS, headers) are left out. -/
structure App where
  loads : Bool
  makes : Bool
  debug : Option Bool
  print : Option Bool
  config : Option Path
  routes : Nat
  debugRoutes : Nat
  mounts : Nat
  mountsOk : Bool
deriving DecidableEq, Repr

/-- The system: what the configuration files hold (`none`: it does not exist or cannot be read), the
configuration of fly.conf:1-24, the number of descriptors a process may have, the frames Python's stack may have
(`sys.getrecursionlimit`) and the frames that serving needs beyond those of `Fly.run`, `_run`, `_run_server`. -/
structure Sys where
  files : Path → Option Cfg
  default : Cfg
  maxFd : Nat
  stackMax : Nat
  need : Nat

/-- How the process ends.  `exit n`: `sys.exit(n)`; `raised`: an exception leaves `Fly.run`; `died`:
`FLY_EMERGENCY_ERROR` in the master. -/
inductive End where
  | exit (code : Nat)
  | raised
  | died
deriving DecidableEq, Repr

inductive Phase where
  /-- the master handles events; the configuration that is in force -/
  | serving (c : Cfg)
  /-- in `_watch_dog` -/
  | watching
  | ended (e : End)
deriving DecidableEq, Repr

/-- `depth`: Python's frames up to the present `_run_server`.  `table`: open descriptors.  `env`: the environment
variable FLY_CONFIG_PATH.  `pidExists`: there is a pid file.  `app`, `debug`, `print`, `config`, `daemon`: of the
one `Fly` object (app.py:45-49). -/
structure St where
  depth : Nat
  table : List Kind
  env : Option Path
  pidExists : Bool
  app : App
  debug : Bool
  print : Bool
  config : Option Path
  daemon : Bool
  phase : Phase
deriving DecidableEq, Repr

/-- Opening a descriptor: `none` when the process has too many. -/
def opn (y : Sys) (k : Kind) (t : List Kind) : Option (List Kind) :=
  if t.length < y.maxFd then some (k :: t) else none

/-- `open` whose failure is passed over. -/
def opnMaybe (y : Sys) (k : Kind) (t : List Kind) : List Kind := (opn y k t).getD t

/-- The configuration file: `setenv` when `config_path` was given (src/pyserver.c:974), `getenv`
(src/conf.c:15-21). -/
def configPath (s : St) : Option Path := s.config <|> s.env

/-- `fly_parse_config_file` as far as the file is concerned (src/conf.c:23-38, 85-111): `errno` is set to 0 before
it is looked at, so that every file that cannot be opened counts as not found, and the defaults are in force.
There is no `fclose`. -/
def readConfig (y : Sys) (s : St) : Cfg × List Kind :=
  match configPath s with
  | none => (y.default, s.table)
  | some p =>
    match y.files p with
    | none => (y.default, s.table)
    | some c =>
      match opn y .config s.table with
      | none => (y.default, s.table)
      | some t => (c, t)

/-- `fly_socket_init` (src/server.c:40-184) for one address: a port on which a socket of this process listens
cannot be bound.  Other processes on the port are left out. -/
def listenOn (y : Sys) (port : Nat) (t : List Kind) : Option (List Kind) :=
  if Kind.listen port ∈ t then none else opn y (.listen port) t

/-- `fly_log_init` (src/log.c:217-305, 171-200): a log that cannot be opened is passed over.  `fly_log_release`
(src/log.c:307-320) is never called. -/
def openLogs (y : Sys) (c : Cfg) (t : List Kind) : List Kind :=
  if c.logs then opnMaybe y .log (opnMaybe y .log (opnMaybe y .log t)) else t

/-- `_configure` (src/pyserver.c:956-1137): configuration, `fly_master_init` (socket, logs), pid file
(src/master.c:799-822: O_EXCL; written and closed).  `none`: an exception.  Routes that are refused and paths of
certificates are left out. -/
def configure (y : Sys) (s : St) : Option (Cfg × List Kind × Bool) :=
  if (readConfig y s).1.parses = false then none
  else
    match listenOn y (readConfig y s).1.port (readConfig y s).2 with
    | none => none
    | some t =>
      if (readConfig y s).1.pidfile then
        if s.pidExists then none
        else if (openLogs y (readConfig y s).1 t).length < y.maxFd then some ((readConfig y s).1, openLogs y (readConfig y s).1 t, true)
        else none
      else some ((readConfig y s).1, openLogs y (readConfig y s).1 t, s.pidExists)

/-- `fly_master_process` (src/master.c:709-744): the descriptors of the event loop.  Failures end the process. -/
def openLoop (y : Sys) (t : List Kind) : Option (List Kind) :=
  (opn y .poll t).bind fun t1 => (opn y .signal t1).bind fun t2 => (opn y .mounts t2).bind fun t3 => opn y .watch t3

/-- `fly_event_manager_release` (src/event.c:149-184) closes the poll descriptor and calls the end handlers of the
three events, which close theirs (src/master.c:390-393, 1526-1529, 1743-1746); `fly_context_release`
(src/context.c:56-68) closes the listening socket; both from `fly_master_release` (src/master.c:519-548). -/
def release (port : Nat) (t : List Kind) : List Kind :=
  ((((t.erase .poll).erase .watch).erase .mounts).erase .signal).erase (.listen port)

/-- Whether mount points or routes are left (fly/app.py:263-264, 268-270: debug routes are taken out in
production). -/
def servable (a : App) (debug : Bool) : Bool := 0 < a.mounts || 0 < a.routes || (debug && 0 < a.debugRoutes)

/-- `_start_server` (fly/app.py:257-299) within the `try` of `_run` (app.py:93-102): an error of `_configure` ends
the process with 1, other exceptions lead to `_watch_dog`.  `_display_explain` (app.py:336) reads an undefined
name when the default content path is set.  A start for which Python's stack has no room raises RecursionError;
this is taken to leave `Fly.run`. -/
def start (y : Sys) (s : St) : St :=
  if y.stackMax < s.depth + y.need then { s with phase := .ended .raised }
  else if servable s.app s.debug = false then { s with phase := .watching }
  else
    match configure y s with
    | none => { s with phase := .ended (.exit 1) }
    | some (c, t, pid) =>
      if s.app.mountsOk = false ∨ c.content = true then
        { s with env := configPath s, table := t, pidExists := pid, phase := .watching }
      else
        match openLoop y t with
        | none => { s with env := configPath s, table := t, pidExists := pid, phase := .ended .died }
        | some t2 => { s with env := configPath s, table := t2, pidExists := pid, phase := .serving c }

/-- The rest of `_run` and `_run_server` (app.py:109-123): the file is executed again, outside of any `try`; `Fly()`
gives the same object, initialised again (app.py:130-172); it is run when `_ran` is False, that is when `Fly()`
was called.  The call of `i.run()` is inside of the former `run`: three more frames. -/
def again (y : Sys) (a : App) (s : St) : St :=
  if a.loads = false then { s with phase := .ended .raised }
  else if a.makes = false then { s with phase := .ended (.exit 1) }
  else
    start y { s with depth := s.depth + 3, app := a, debug := a.debug.getD true, print := a.print.getD false,
                     config := a.config, daemon := false }

/-- What happens to the server. -/
inductive Ev where
  /-- the application file is replaced by this version, and the process is told -/
  | change (a : App)
  /-- a signal that ends the master, or SIGINT while `_watch_dog` waits -/
  | stop
deriving DecidableEq, Repr

/-- `run` of src/pyserver.c:1140-1176 returns after `fly_master_release` with FLY_MASTER_RELOAD (2); a daemon ends
(fly/app.py:290-294).  `_watch_dog` returns (fly/app.py:57-82). -/
def onChange (y : Sys) (s : St) (a : App) : St :=
  match s.phase with
  | .serving c =>
    if s.daemon then { s with table := release c.port s.table, phase := .ended (.exit 2) }
    else again y a { s with table := release c.port s.table }
  | .watching => again y a s
  | .ended _ => s

/-- `run` returns with FLY_MASTER_SIGNAL_END (1) (fly/app.py:290-299); `_watch_dog` ends the process
(fly/app.py:53-55, 74-79). -/
def onStop (s : St) : St :=
  match s.phase with
  | .serving c => { s with table := release c.port s.table, phase := .ended (.exit 1) }
  | .watching => { s with phase := .ended (.exit 1) }
  | .ended _ => s

def step (y : Sys) (s : St) : Ev → St
  | .change a => onChange y s a
  | .stop => onStop s

def life (y : Sys) (s : St) (evs : List Ev) : St := evs.foldl (step y) s

/-- The command line as far as it is not written into the configuration (fly/main.py:238-274). -/
structure Cli where
  conf : Option Path
  production : Bool
  print : Bool
  daemon : Bool
deriving DecidableEq, Repr

/-- The state before `_instance.run` (fly/main.py:307-359): a temporary file `tmp` holds the configuration file and
the options of the command line, and replaces `config_path` of the application.  `table` and `depth` are those of
the process at that point. -/
def boot (cli : Cli) (tmp : Path) (depth : Nat) (table : List Kind) (env : Option Path) (pidExists : Bool) (a : App) : St :=
  { depth := depth, table := table, env := env, pidExists := pidExists, app := a,
    debug := if cli.production then false else a.debug.getD true,
    print := if cli.print then true else a.print.getD false,
    config := some tmp, daemon := cli.daemon, phase := .watching }

/-- `run` of fly/main.py:276-372: the file is loaded; without a `Fly` object the help is displayed; two different
configuration files are an error.  `none`: the file cannot be loaded, `sys.exit(1)` before the `try`. -/
def launch (y : Sys) (cli : Cli) (tmp : Path) (depth : Nat) (table : List Kind) (env : Option Path)
    (pidExists : Bool) (a : App) : Option St :=
  if a.loads = false then none
  else if a.makes = false then some { boot cli tmp depth table env pidExists a with phase := .ended (.exit 1) }
  else if cli.conf.isSome = true ∧ a.config.isSome = true ∧ a.config ≠ cli.conf then
    some { boot cli tmp depth table env pidExists a with phase := .ended .raised }
  else some (start y (boot cli tmp depth table env pidExists a))

/-- The status of the process that was started with the command `fly` (fly/main.py:276-372): `sys.exit(0)` in
`finally` takes the place of every exception, `SystemExit` too.  `none`: no status is given here (C code ended
the process). -/
def status : Option St → Option Nat
  | none => some 1
  | some s =>
    match s.phase with
    | .ended (.exit _) => some 0
    | .ended .raised => some 0
    | _ => none

/-! ## The lists that are freed when the master ends -/

/-- Memory: the `next` of each node that is allocated; `none`: freed or never allocated. -/
abbrev Heap := Nat → Option Nat

def Heap.free (h : Heap) (a : Nat) : Heap := fun b => if b = a then none else h b

inductive Walk where
  | done (h : Heap)
  /-- freed memory is read or freed -/
  | undefined
  | outOfFuel

/-- src/master.c:537-543 with `fly_for_each_bllist` (src/bllist.h:40-41): `free(__p)`, then `__b = __b->next`. -/
def freePaths (head : Nat) : Nat → Nat → Heap → Walk
  | 0, _, _ => .outOfFuel
  | f + 1, b, h =>
    if b = head then .done h
    else
      match h b with
      | none => .undefined
      | some _ =>
        match h.free b b with
        | none => .undefined
        | some n => freePaths head f n (h.free b)

/-- `__fly_master_release_orig_sighandler` (src/master.c:565-575): `next` is read before the node is freed. -/
def freeSaved (head : Nat) : Nat → Nat → Heap → Walk
  | 0, _, _ => .outOfFuel
  | f + 1, b, h =>
    if b = head then .done h
    else
      match h b with
      | none => .undefined
      | some n => freeSaved head f n (h.free b)

/-- `fly_bllist_add_tail` (src/bllist.h) from the first element to the head again: the nodes `l` are linked in this
order. -/
def Chain (h : Heap) (head : Nat) : Nat → List Nat → Prop
  | b, [] => b = head
  | b, a :: l => b = a ∧ a ≠ head ∧ ∃ n, h a = some n ∧ Chain h head n l

end Fly.Life
