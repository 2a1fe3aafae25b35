import Verif.Scan.Lemmas

/-! # Model of the mount points of an application: `fly/mount.py`, `fly/app.py`, `src/pyserver.c`, `src/mount.c`

From `fly.mount(path)` to the running server, and what happens when a mount point goes away.

The file system is a function from physical paths (components from the root) to what is there; symbolic links
are followed as `realpath(3)` does.  What `readdir` finds below a directory is a `Forest` (`Verif.Scan`), which
also says how a directory is scanned.  Path strings have no NUL byte (`os.path.isdir` is false of others) and
the kernel's limit on the length of paths is not modelled. -/

namespace Fly.Points

open Fly.Mount Fly.Scan

/-! ## Paths -/

/-- What is at a physical path: a directory, a file, or a symbolic link with its target. -/
inductive Kind where
  | dir
  | file
  | link (target : Bytes)
  deriving DecidableEq

/-- A physical path, as its components from the root. -/
abbrev Path := List Bytes

/-- The file system; `none` for `ENOENT`. -/
abbrev Fs := Path → Option Kind

/-- `path.split("/")`. -/
def split : Bytes → List Bytes
  | [] => [[]]
  | c :: r =>
    if c = 47 then [] :: split r
    else
      match split r with
      | [] => [[c]]
      | h :: t => (c :: h) :: t

/-- The string of a physical path. -/
def render : Path → Bytes
  | [] => [47]
  | p => p.flatMap (fun c => 47 :: c)

/-- `.` -/
def dot : Bytes := [46]

/-- `..` -/
def dotdot : Bytes := [46, 46]

/-- Path resolution up to the next symbolic link: `cur` is where we are, the list what is left, `follow` goes on
from the place of a link with its target and what is left. -/
def walk (fs : Fs) (follow : Path → List Bytes → Option Path) : Path → List Bytes → Option Path
  | cur, [] => some cur
  | cur, c :: cs =>
    if c = [] ∨ c = dot then walk fs follow cur cs
    else if c = dotdot then walk fs follow cur.dropLast cs
    else
      match fs (cur ++ [c]) with
      | none => none
      | some .dir => walk fs follow (cur ++ [c]) cs
      | some .file => if cs = [] then some (cur ++ [c]) else none
      | some (.link t) => follow (if t.head? = some 47 then [] else cur) (split t ++ cs)

/-- Path resolution of `realpath(3)` and `stat(2)`: `k` symbolic links may still be followed (`ELOOP`
otherwise). -/
def real (fs : Fs) : Nat → Path → List Bytes → Option Path
  | 0 => walk fs (fun _ _ => none)
  | k + 1 => walk fs (real fs k)

/-- `realpath(path)` with the working directory `cwd`; 40 is `MAXSYMLINKS` of Linux. -/
def resolve (fs : Fs) (cwd : Path) (p : Bytes) : Option Path :=
  if p = [] then none else real fs 40 (if p.head? = some 47 then [] else cwd) (split p)

/-- Whether a resolved path is a directory; the root always is. -/
def dirAt (fs : Fs) (p : Path) : Bool := p = [] || fs p = some .dir

/-- `os.path.isdir` and `fly_isdir` (src/mount.c:54-60). -/
def isDir (fs : Fs) (cwd : Path) (p : Bytes) : Bool :=
  match resolve fs cwd p with
  | none => false
  | some q => dirAt fs q

/-- The loop of `os.path.normpath` for an absolute path: empty components and `.` are left out, `..` takes the
last one away. -/
def norm (cs : List Bytes) : Path :=
  cs.foldl (fun acc c => if c = [] ∨ c = dot then acc else if c = dotdot then acc.dropLast else acc ++ [c]) []

/-- `os.path.join(os.getcwd(), path)`. -/
def joined (cwd : Path) (p : Bytes) : Bytes :=
  if p.head? = some 47 then p else if cwd = [] then 47 :: p else render cwd ++ 47 :: p

/-- `os.path.abspath`: `normpath` keeps two leading slashes if there are exactly two. -/
def abspath (cwd : Path) (p : Bytes) : Bytes :=
  if (joined cwd p).take 2 = [47, 47] ∧ (joined cwd p).take 3 ≠ [47, 47, 47] then 47 :: render (norm (split (joined cwd p)))
  else render (norm (split (joined cwd p)))

/-! ## The application -/

/-- The surroundings: file system, working directory, what `readdir` finds below a directory and whether the
directory can be opened, and the configuration values `mount_max` (src/mount.c:1331-1334, as `strtol` reads it)
and `file_max` (1336-1339). -/
structure Env where
  fs : Fs
  cwd : Path
  tree : Path → Forest
  opens : Path → Bool
  mountMax : Int
  fileMax : Nat

/-- `Mount.mount`, fly/mount.py:15-29; `none`: an exception. -/
def pyMount (e : Env) (mounts : List Bytes) (path : Bytes) : Option (List Bytes) :=
  if isDir e.fs e.cwd path = false then none
  else if isDir e.fs e.cwd (abspath e.cwd path) = false then none
  else some (mounts ++ [abspath e.cwd path])

/-- The calls of `mount` in the application file. -/
def pyMounts (e : Env) : List Bytes → List Bytes → Option (List Bytes)
  | mounts, [] => some mounts
  | mounts, p :: ps =>
    match pyMount e mounts p with
    | none => none
    | some ms => pyMounts e ms ps

/-- `struct fly_mount_parts`, src/mount.h:57-77: its number, its path and its files. -/
structure Pt where
  number : Nat
  path : Bytes
  files : List (Bytes × Bool)
  deriving DecidableEq

/-- `struct fly_mount`, src/mount.h:81-90: the mount points in order and `file_count`; `mount_count` is the length
of the list. -/
structure Mnt where
  pts : List Pt
  fileCount : Nat
  deriving DecidableEq

/-- Result of `fly_mount`: 0, `FLY_EMOUNT_LIMIT` (-17, src/err.h:55), -1 or `FLY_EARG` (also -1, src/err.h:27),
or undefined behaviour. -/
inductive MRes where
  | ok (m : Mnt)
  | limit
  | err
  | wild
  deriving DecidableEq

/-- `fly_mount`, src/mount.c:384-464.  The number of a mount point is the number of mount points before it. -/
def cMount (e : Env) (m : Mnt) (path : Bytes) : MRes :=
  if (e.mountMax % 2 ^ 64).toNat = m.pts.length then .limit
  else
    match resolve e.fs e.cwd path with
    | none => .err
    | some q =>
      if dirAt e.fs q = false then .err
      else if m.fileCount > e.fileMax ∨ e.opens q = false then .err
      else
        match mountDir e.fileMax m.fileCount (render q) (e.tree q) with
        | .ok es => .ok ⟨m.pts ++ [⟨m.pts.length, render q, es⟩], m.fileCount + es.length⟩
        | .fail => .err
        | .hang => .wild
        | .wild => .wild

/-- How a start ends: the server runs with these mount points after it has shown path, number of the mount point
and number of its files (fly/app.py:350-358); an exception; undefined behaviour. -/
inductive Start where
  | running (m : Mnt) (shown : List (Bytes × Nat × Nat))
  | raised
  | wild
  deriving DecidableEq

/-- `for _p in self.mounts: self._mount(_p)`, fly/app.py:280-281, with `__pyfly_mount` (src/pyserver.c:943-954): only
-1 raises an exception. -/
def cMounts (e : Env) : Mnt → List Bytes → MRes
  | m, [] => .ok m
  | m, p :: ps =>
    match cMount e m p with
    | .ok m' => cMounts e m' ps
    | .limit => cMounts e m ps
    | .err => .err
    | .wild => .wild

/-- `fly_mount_number`, src/mount.c:507-520: `none` is `FLY_ENOTFOUND`; without mount points the result is
`FLY_EARG`, -1, which raises no exception by itself (src/pyserver.c:919-935). -/
def mountNumber (m : Mnt) (path : Bytes) : Option Int :=
  if m.pts = [] then some (-1)
  else (m.pts.find? (fun p => p.path = path)).map (fun p => (p.number : Int))

/-- `fly_mount_files_count`, src/mount.c:1316-1328: `none` is -1, which raises an exception
(src/pyserver.c:1174-1188). -/
def filesCount (m : Mnt) (n : Int) : Option Nat :=
  (m.pts.find? (fun p => (p.number : Int) = n)).map (fun p => p.files.length)

/-- The lines of `_display_explain` about mount points, fly/app.py:350-358. -/
def display (m : Mnt) : List Bytes → Option (List (Bytes × Nat × Nat))
  | [] => some []
  | p :: ps =>
    match mountNumber m p with
    | none => none
    | some n =>
      match filesCount m n with
      | none => none
      | some c => (display m ps).map ((p, n.toNat, c) :: ·)

/-- `_start_server`, fly/app.py:280-288, for the paths collected by `mount`. -/
def startServer (e : Env) (mounts : List Bytes) : Start :=
  match cMounts e ⟨[], 0⟩ mounts with
  | .ok m =>
    match display m mounts with
    | none => .raised
    | some d => .running m d
  | .wild => .wild
  | _ => .raised

/-- The application file and the start: `paths` are the arguments of its calls of `mount`. -/
def launch (e : Env) (paths : List Bytes) : Start :=
  match pyMounts e [] paths with
  | none => .raised
  | some ms => startServer e ms

/-! ## A mount point goes away while the server runs -/

/-- A mount point of the running server: the address of its `struct fly_mount_parts`, number and path. -/
structure Live where
  addr : Nat
  number : Nat
  path : Bytes
  deriving DecidableEq

/-- Outcome in a process: it goes on; the handler fails, which ends the master (`Verif.Watch`); an endless loop;
undefined behaviour; the process has ended itself with a message. -/
inductive Out where
  | ok (pts : List Live) (w : World)
  | fail
  | hang
  | wild
  | exit


/-- `fly_unmount(p->mount, p->mount_path)`, src/mount.c:466-505, as both callers call it (1229,
src/worker.c:381): the first mount point with the path is taken out and freed (480-481).  If none is left the
process ends (494-499), otherwise the path is logged (500-504) — which was in the freed memory if the first
mount point with the path is `p` itself. -/
def unmount (pts : List Live) (w : World) (p : Live) : Out :=
  match pts.find? (fun q => q.path = p.path) with
  | none => .ok pts w
  | some q =>
    if pts.filter (fun x => x.addr ≠ q.addr) = [] then .exit
    else if q.addr = p.addr then .wild
    else .ok (pts.filter (fun x => x.addr ≠ q.addr)) w

/-- The loop of `fly_inotify_rmmp` over the files, src/mount.c:1185-1209, with the saved `next` pointer; `k` bounds
the number of turns. -/
def rmFiles (rm : World → PF → Res World) (m : Nat) : Nat → World → Option Nat → Res World
  | 0, _, _ => .hang
  | _ + 1, w, none => .ok w
  | k + 1, w, some a =>
    match w.files.find? (fun f => f.addr == a) with
    | none => .wild
    | some f =>
      match rm w f with
      | .ok w' => rmFiles rm m k w' (nextOf (mountFiles w m) a)
      | r => r

/-- `fly_inotify_rmmp` in the master, src/mount.c:1172-1233, after the mount point `p` was deleted or moved
(src/master.c:1052-1083).  `kern` and `own`: whether `inotify_rm_watch` succeeds for a file and for the mount
point (`deleted`: it is not called for the mount point). -/
def masterGone (kern : PF → Bool) (deleted own : Bool) (k : Nat) (pts : List Live) (w : World) (p : Live) : Out :=
  match rmFiles (rmWatch kern k) p.number k w ((mountFiles w p.number).head?.map (·.addr)) with
  | .ok w' => if !deleted && !own then .fail else unmount pts w' p
  | .fail => .fail
  | .hang => .hang
  | .wild => .wild

/-- The loop of `__fly_work_unmount`, src/worker.c:371-377, with the saved `next` pointer (closing the files'
descriptors succeeds). -/
def dropFiles (m : Nat) : Nat → World → Option Nat → Res World
  | 0, _, _ => .hang
  | _ + 1, w, none => .ok w
  | k + 1, w, some a =>
    match w.files.find? (fun f => f.addr == a) with
    | none => .wild
    | some f =>
      match removeFile w f with
      | none => .wild
      | some w' => dropFiles m k w' (nextOf (mountFiles w m) a)

/-- `__fly_work_unmount`, src/worker.c:365-382. -/
def workUnmount (k : Nat) (pts : List Live) (w : World) (p : Live) : Out :=
  match dropFiles p.number k w ((mountFiles w p.number).head?.map (·.addr)) with
  | .ok w' => unmount pts w' p
  | .fail => .fail
  | .hang => .hang
  | .wild => .wild

/-- `fly_worker_signal_change_mnt_content`, src/worker.c:1010-1070: the mount points one by one; `gone` tells
whether `stat` says `ENOENT`, `update` is what is done for the others (`Verif.Scan`; its failure ends the worker,
385-408).  The loop goes over the mount points there were at the beginning; one that is not in the list any more
was freed. -/
def workerTold (gone : Live → Bool) (update : World → Live → Res World) (k : Nat) :
    List Live → List Live → World → Out
  | [], pts, w => .ok pts w
  | p :: ps, pts, w =>
    if pts.all (fun q => q.addr ≠ p.addr) then .wild
    else if gone p then
      match workUnmount k pts w p with
      | .ok pts' w' => workerTold gone update k ps pts' w'
      | r => r
    else
      match update w p with
      | .ok w' => workerTold gone update k ps pts w'
      | .fail => .exit
      | .hang => .hang
      | .wild => .wild

end Fly.Points
