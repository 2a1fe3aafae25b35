import Verif.Basic

/-! # Model of the master's watch over a mount point: `src/master.c` and `src/mount.c` (Linux, inotify)

One mount point.  The file system below it is a list of directory entries between inodes, the mount point
itself is inode 0.  Someone changes it (`Op`); the kernel puts events into the queue of the watches
(inotify(7)); the master takes the events out one by one (`read`) and keeps its list of files and its watches
up to date.  A schedule is a list of changes and reads in any order.

Simplifications: a read takes one event (the code takes all that fit into its buffer and handles them one by
one); registering a new directory with all it contains is one step; equal consecutive events are not merged
and the queue does not overflow; hard and symbolic links, the limit on the number of files, names longer than
the limits, failing system calls other than those for paths that do not exist, and changes of the mount point
itself are left out; the workers exist, so that sending the signal succeeds.  The removal of a directory is
where `fly_inotify_rm_watch` is called on a directory, which `Verif.Mount` models. -/

namespace Fly.Watch

/-- A directory entry: in the directory `dir` the name `name` stands for `ino`. -/
structure Ent where
  dir : Nat
  name : Bytes
  ino : Nat
  deriving DecidableEq

/-- The two sets of events the code asks for, src/mount.h:144-145:
`pf` is `FLY_INOTIFY_WATCH_FLAG_PF`, `mp` is `FLY_INOTIFY_WATCH_FLAG_MP`. -/
inductive Mask where
  | pf
  | mp
  deriving DecidableEq

/-- Events (inotify(7)). -/
inductive Kind where
  | create
  | movedTo
  | modify
  | attrib
  | deleteSelf
  | moveSelf
  | ignored
  deriving DecidableEq

/-- `FLY_INOTIFY_WATCH_FLAG_PF` is `IN_MODIFY|IN_MOVE_SELF|IN_DELETE_SELF|IN_ATTRIB`,
`FLY_INOTIFY_WATCH_FLAG_MP` is `IN_CREATE|IN_MOVED_TO|IN_DELETE_SELF|IN_MOVE_SELF|IN_ONLYDIR`
(src/mount.h:144-145).  `IN_IGNORED` is always delivered. -/
def Mask.wants : Mask → Kind → Bool
  | _, .ignored => true
  | _, .deleteSelf => true
  | _, .moveSelf => true
  | .pf, .modify => true
  | .pf, .attrib => true
  | .mp, .create => true
  | .mp, .movedTo => true
  | _, _ => false

/-- A watch of the kernel. -/
structure Watch where
  wd : Nat
  ino : Nat
  mask : Mask
  deriving DecidableEq

/-- `struct inotify_event`: watch descriptor, mask and name. -/
structure Ev where
  wd : Nat
  kind : Kind
  name : Bytes
  deriving DecidableEq

/-- `struct fly_mount_parts_file`, src/mount.h:30-55: the name relative to the mount point (as its components),
the watch descriptor and whether it is a directory. -/
structure Pf where
  path : List Bytes
  wd : Nat
  dir : Bool
  deriving DecidableEq

/-- The master: at work, ended by a failed event handler (src/event.c:1077-1085 with `if_fail_term`,
src/master.c:1533-1578), or inside `fly_inotify_rm_watch` for a directory (`Verif.Mount`). -/
inductive Status where
  | running
  | ended
  | rmDir
  deriving DecidableEq

/-- The file system, the kernel's watches and events, the master's files, and how often it told the workers. -/
structure St where
  ents : List Ent
  dirs : List Nat
  nextIno : Nat
  watches : List Watch
  nextWd : Nat
  queue : List Ev
  pfs : List Pf
  notes : Nat
  status : Status
  deriving DecidableEq

/-- `fly_isdir`, `S_ISDIR`. -/
def St.isDir (s : St) (i : Nat) : Bool := s.dirs.contains i

/-- The entry `n` of the directory `d`. -/
def lookup (ents : List Ent) (d : Nat) (n : Bytes) : Option Ent :=
  ents.find? (fun e => e.dir == d && e.name == n)

/-- `realpath`, `stat` of a path below directory `d`: the inode, `none` for `ENOENT`. -/
def resolve (ents : List Ent) : Nat → List Bytes → Option Nat
  | d, [] => some d
  | d, n :: r =>
    match lookup ents d n with
    | none => none
    | some e => resolve ents e.ino r

/-! ## The kernel -/

/-- Deliver an event to the watch of `i`, if there is one and if it asks for it. -/
def emit (s : St) (i : Nat) (k : Kind) (n : Bytes) : St :=
  match s.watches.find? (fun w => w.ino == i) with
  | none => s
  | some w => if w.mask.wants k then { s with queue := s.queue ++ [⟨w.wd, k, n⟩] } else s

/-- `inotify_add_watch` (inotify(7)): an inode has at most one watch; asking again replaces its mask and gives
the same descriptor. -/
def addWatch (s : St) (i : Nat) (m : Mask) : Nat × St :=
  match s.watches.find? (fun w => w.ino == i) with
  | some w => (w.wd, { s with watches := s.watches.map (fun v => if v.ino = i then { v with mask := m } else v) })
  | none => (s.nextWd, { s with watches := s.watches ++ [⟨s.nextWd, i, m⟩], nextWd := s.nextWd + 1 })

/-- Changes made to the files below the mount point. -/
inductive Op where
  /-- a new file -/
  | create (d : Nat) (n : Bytes)
  /-- a new directory -/
  | mkdir (d : Nat) (n : Bytes)
  /-- a file from elsewhere is moved to here -/
  | moveIn (d : Nat) (n : Bytes)
  | write (d : Nat) (n : Bytes)
  | chmod (d : Nat) (n : Bytes)
  | unlink (d : Nat) (n : Bytes)
  /-- moved to somewhere not below the mount point -/
  | moveOut (d : Nat) (n : Bytes)
  /-- `rename` inside the directory `d`; replaces what had the new name -/
  | rename (d : Nat) (n n' : Bytes)
  /-- the last descriptor of a removed file is closed: the inode goes -/
  | free (i : Nat)
  deriving DecidableEq

/-- A new entry `n` in `d`. -/
def newEnt (s : St) (d : Nat) (n : Bytes) (dir : Bool) (k : Kind) : St :=
  if s.isDir d && (lookup s.ents d n).isNone then
    emit { s with ents := s.ents ++ [⟨d, n, s.nextIno⟩], dirs := if dir then s.dirs ++ [s.nextIno] else s.dirs,
                  nextIno := s.nextIno + 1 } d k n
  else s

/-- The entry `n` of `d` is removed. -/
def without (ents : List Ent) (d : Nat) (n : Bytes) : List Ent :=
  ents.filter (fun x => !(x.dir == d && x.name == n))

/-- What a change does and which events it makes (inotify(7)).  A change that is not possible does nothing. -/
def op (s : St) : Op → St
  | .create d n => newEnt s d n false .create
  | .mkdir d n => newEnt s d n true .create
  | .moveIn d n => newEnt s d n false .movedTo
  | .write d n =>
    match lookup s.ents d n with
    | none => s
    | some e => emit s e.ino .modify []
  | .chmod d n =>
    match lookup s.ents d n with
    | none => s
    | some e => emit s e.ino .attrib []
  | .unlink d n =>
    match lookup s.ents d n with
    | none => s
    | some e => if s.isDir e.ino then s
                else emit { s with ents := without s.ents d n } e.ino .attrib []
  | .moveOut d n =>
    match lookup s.ents d n with
    | none => s
    | some e => emit { s with ents := without s.ents d n } e.ino .moveSelf []
  | .rename d n n' =>
    match lookup s.ents d n with
    | none => s
    | some e =>
      if n = n' then s else
      match lookup s.ents d n' with
      | none =>
        emit (emit { s with ents := without s.ents d n ++ [⟨d, n', e.ino⟩] }
          d .movedTo n') e.ino .moveSelf []
      | some t =>
        if s.isDir t.ino || s.isDir e.ino then s else
        emit (emit (emit { s with ents := without (without s.ents d n) d n' ++ [⟨d, n', e.ino⟩] } d .movedTo n') t.ino .attrib [])
          e.ino .moveSelf []
  | .free i =>
    if i == 0 || s.ents.any (fun e => e.ino == i || e.dir == i) then s
    else
      { emit (emit s i .deleteSelf []) i .ignored [] with watches := s.watches.filter (fun w => w.ino != i) }

/-! ## The master -/

/-- Watch a file and put it into the list: the end of `fly_inotify_add_watch` and the body of `__fly_nftw`
(src/mount.c:346-376, 955-982). -/
def addPf (s : St) (m : Mask) (x : List Bytes × Nat) : St :=
  { (addWatch s x.2 m).2 with pfs := s.pfs ++ [⟨x.1, (addWatch s x.2 m).1, s.isDir x.2⟩] }

/-- What `__fly_nftw` goes through below the directory `d`, src/mount.c:245-382: what is in a directory comes
before the directory.  `f` bounds the depth. -/
def walk (ents : List Ent) : Nat → Nat → List Bytes → List (List Bytes × Nat)
  | 0, _, _ => []
  | f + 1, d, p =>
    (ents.filter (fun e => e.dir == d)).flatMap
      (fun e => walk ents f e.ino (p ++ [e.name]) ++ [(p ++ [e.name], e.ino)])

/-- The mask for a file found later, src/mount.c:349-352, 957-960. -/
def maskOf (s : St) (i : Nat) : Mask := if s.isDir i then .mp else .pf

/-- One entry in `__fly_nftw` with an inotify descriptor, src/mount.c:327-376: known paths are left out. -/
def addFound (s : St) (x : List Bytes × Nat) : St :=
  if s.pfs.any (fun p => p.path == x.1) then s else addPf s (maskOf s x.2) x

/-- `fly_inotify_add_watch`, src/mount.c:935-986. -/
def addNew (s : St) (path : List Bytes) : St :=
  match resolve s.ents 0 path with
  | none => { s with status := .ended }
  | some i =>
    let s' := if s.isDir i then (walk s.ents s.nextIno i path).foldl addFound s else s
    addPf s' (maskOf s i) (path, i)

/-- `fly_inotify_rm_watch`, src/mount.c:1235-1314, for a file; `deleted` is `pf->deleted`. -/
def rmPf (s : St) (pf : Pf) (deleted : Bool) : St :=
  if pf.dir then { s with status := .rmDir }
  else if deleted then { s with pfs := s.pfs.eraseP (fun p => p.wd == pf.wd) }
  else
    match s.watches.find? (fun w => w.wd == pf.wd) with
    | none => { s with status := .ended }
    | some w =>
      { s with watches := s.watches.filter (fun v => v.wd != w.wd), queue := s.queue ++ [⟨w.wd, .ignored, []⟩]
               pfs := s.pfs.eraseP (fun p => p.wd == pf.wd) }

/-- The loop sending `FLY_SIGNAL_CHANGE_MNT_CONTENT` to every worker, src/master.c:1086-1090, 1254-1262; it is
not reached when the handler fails. -/
def tell (s : St) : St := if s.status = .running then { s with notes := s.notes + 1 } else s

/-- `parts->wd` of the only mount point. -/
def rootWd : Nat := 0

/-- `__fly_inotify_in_mp`, src/master.c:1033-1093. -/
def inMp (s : St) (ev : Ev) : St :=
  match ev.kind with
  | .create => tell (addNew s [ev.name])
  | .movedTo => tell (addNew s [ev.name])
  | _ => tell s

/-- `__fly_inotify_in_pf`, src/master.c:1176-1266. -/
def inPf (s : St) (pf : Pf) (ev : Ev) : St :=
  match ev.kind with
  | .deleteSelf => tell (rmPf s pf true)
  | .moveSelf => tell (rmPf s pf false)
  | k =>
    if pf.dir then
      match k with
      | .create => tell (addNew s (pf.path ++ [ev.name]))
      | .movedTo => tell (addNew s (pf.path ++ [ev.name]))
      | _ => tell s
    else
      match k with
      | .modify => if (resolve s.ents 0 pf.path).isSome then tell s else { s with status := .ended }
      | .attrib => if (resolve s.ents 0 pf.path).isSome then tell s else tell (rmPf s pf true)
      | _ => tell s

/-- `__fly_inotify_handle`, src/master.c:1390-1416, with `fly_pf_from_wd` (src/mount.c:831-846): the first file
with this descriptor. -/
def handle (s : St) (ev : Ev) : St :=
  if ev.wd = rootWd then inMp s ev
  else
    match s.pfs.find? (fun p => p.wd == ev.wd) with
    | none => s
    | some pf => inPf s pf ev

/-- One turn of the loop in `__fly_master_inotify_handler`, src/master.c:1456-1505. -/
def read (s : St) : St :=
  if s.status = .running then
    match s.queue with
    | [] => s
    | ev :: q => handle { s with queue := q } ev
  else s

/-- What happens: a change, or the master takes an event. -/
inductive Act where
  | op (o : Op)
  | read
  deriving DecidableEq

/-- One step of a schedule. -/
def act (s : St) : Act → St
  | .op o => op s o
  | .read => read s

/-- A schedule. -/
def run (s : St) (as : List Act) : St := as.foldl act s

/-- `fly_mount` and `fly_mount_inotify`, src/mount.c:385-465, 640-676: the mount point is watched with
`FLY_INOTIFY_WATCH_FLAG_MP`, everything found below it, directories too, with `FLY_INOTIFY_WATCH_FLAG_PF`. -/
def start (ents : List Ent) (dirs : List Nat) (nextIno : Nat) : St :=
  (walk ents nextIno 0 []).foldl (fun s x => addPf s .pf x)
    ⟨ents, dirs, nextIno, [⟨rootWd, 0, .mp⟩], rootWd + 1, [], [], 0, .running⟩

end Fly.Watch
