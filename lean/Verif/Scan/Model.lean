import Verif.Mount.Lemmas

/-! # Model of mounting a directory (`src/mount.c`) and of the workers' update (`src/worker.c`)

The file system below a mount point is a `Forest`: the entries of a directory in the order `readdir` gives
them (without `.` and `..`).  Symbolic links to existing targets are not modelled (`stat` follows them;
`realpath` in the worker resolves them); dangling ones are.

Not modelled: tags (`Verif.Cache`), dates, MIME types, the watches, the compression of files on opening; all of
them are taken to succeed.  The allocators are a parameter. -/

namespace Fly.Scan

open Fly.Mount

/-- What `readdir` shows below a directory. -/
inductive Forest where
  | nil
  /-- a regular file; `readable`: `open` with `O_RDONLY` succeeds -/
  | file (name : Bytes) (readable : Bool) (rest : Forest)
  /-- a symbolic link whose target does not exist: `stat` and `realpath` fail -/
  | dangling (name : Bytes) (rest : Forest)
  /-- a directory; `readable`: `opendir` and `open` succeed -/
  | dir (name : Bytes) (readable : Bool) (children rest : Forest)
  deriving DecidableEq

/-- `FLY_PATHNAME_MAX`, src/mount.h:19: `NAME_MAX`, 255 on Linux. -/
def nameMax : Nat := 255

/-- `while (*src++ == *mount_point++) ;` of `__fly_path_cpy_with_mp` and `__fly_path_cpy`
(src/mount.c:155-158; src/worker.c:195-197) on NUL-terminated strings: where `src` points to afterwards.  Both
ending together runs on behind the strings (`none`). -/
def skipMount : Bytes → Bytes → Option Bytes
  | [], [] => none
  | [], _ :: _ => none
  | _ :: s, [] => some s
  | a :: s, b :: m => if a = b then skipMount s m else some s

/-- The name of a file relative to the mount point, src/mount.c:160-162 and src/worker.c:199-201. -/
def relName (src mp : Bytes) : Option Bytes :=
  match skipMount src mp with
  | none => none
  | some (c :: s) => if c = 47 then some s else some (c :: s)
  | some [] => some []

/-! ## `fly_mount` -/

/-- `parts->files` as (name, is a directory) in order, and `mnt->file_count`. -/
structure Acc where
  count : Nat
  out : List (Bytes × Bool)
  deriving DecidableEq

/-- One entry that `stat` knows, after the recursion into directories: src/mount.c:327-376.
`fly_pf_from_parts_with_path` (120-140) compares the full paths. -/
def register (mp full : Bytes) (dir : Bool) (acc : Acc) : Res Acc :=
  if acc.out.any (fun e => decide (mp ++ 47 :: e.1 = full)) then .ok acc
  else
    match relName full mp with
    | none => .wild
    | some n => .ok ⟨acc.count + 1, acc.out ++ [(n, dir)]⟩

/-- The loop of `__fly_nftw` over the entries of `path`, src/mount.c:259-376, with infd = -1 as `fly_mount`
calls it.  `max` is the configured limit.  A directory is refused on entry if the number of files is already
above the limit or if it cannot be opened (252-257).  Paths longer than 4096 bytes are truncated and go on
(264-285 tests for exactly 4096 only); the model does not follow them. -/
def scan (mp : Bytes) (max : Nat) : Bytes → Forest → Acc → Res Acc
  | _, .nil, acc => .ok acc
  | path, .dangling n rest, acc =>
    if pathMax < (path ++ 47 :: n).length then .wild else scan mp max path rest acc
  | path, .file n _ rest, acc =>
    if pathMax < (path ++ 47 :: n).length then .wild
    else if (path ++ 47 :: n).length = pathMax ∨ nameMax ≤ n.length then scan mp max path rest acc
    else
      match register mp (path ++ 47 :: n) false acc with
      | .ok acc' => scan mp max path rest acc'
      | r => r
  | path, .dir n readable ch rest, acc =>
    if pathMax < (path ++ 47 :: n).length then .wild
    else if (path ++ 47 :: n).length = pathMax ∨ nameMax ≤ n.length then scan mp max path rest acc
    else if acc.count > max ∨ readable = false then .fail
    else
      match scan mp max (path ++ 47 :: n) ch acc with
      | .ok acc1 =>
        match register mp (path ++ 47 :: n) true acc1 with
        | .ok acc2 => scan mp max path rest acc2
        | r => r
      | r => r

/-- `fly_mount` of a readable directory (src/mount.c:384-461): the files it registers, in order.  `count` is the
number of files mounted before. -/
def mountDir (max count : Nat) (mp : Bytes) (f : Forest) : Res (List (Bytes × Bool)) :=
  if count > max then .fail
  else
    match scan mp max mp f ⟨count, []⟩ with
    | .ok acc => .ok acc.out
    | .fail => .fail
    | .hang => .hang
    | .wild => .wild

/-! ## The update in a worker -/

/-- `fly_pf_from_parts_by_fullpath`, src/mount.c:804-828: the path behind the mount point without slashes. -/
def behindMount (path mp : Bytes) : Bytes := skipSlashes (path.drop mp.length)

/-- The new entry of the worker's list and index: src/worker.c:245-312.  `junk` are the bytes that the memory of
the new entry holds from its byte 255 on, up to a NUL: only the first 255 bytes of the name are cleared
(`fly_pf_init`, src/mount.c:185), and `__fly_path_cpy` writes no terminating NUL. -/
def newName (junk rel : Bytes) : Bytes := if rel.length < nameMax then rel else rel ++ junk

/-- Parameters of an update: the mount point's number and path, the allocator (the address of a new entry and
of its tree node) and the content of fresh memory. -/
structure Env where
  mount : Nat
  mp : Bytes
  alloc : World → Nat × Nat
  junk : Bytes

/-- One entry in `__fly_work_add_nftw`, src/worker.c:229-313, after the recursion. -/
def addEntry (v : Env) (full n : Bytes) (dir readable : Bool) (w : World) : Res World :=
  if nameMax ≤ n.length then .ok w
  else if mountFiles w v.mount ≠ [] ∧ findKey w (behindMount full v.mp) ≠ none then .ok w
  else if readable = false then .fail
  else
    match relName full v.mp with
    | none => .wild
    | some rel =>
      if h : 0 ∈ newName v.junk rel then .wild
      else
        match addFile w ⟨(v.alloc w).1, v.mount, ⟨newName v.junk rel, h⟩, dir, false⟩ (v.alloc w).2 with
        | none => .wild
        | some w' => .ok w'

/-- `__fly_work_add_nftw`, src/worker.c:204-320: a name that cannot be resolved (dangling link, too long) and a
directory that cannot be opened are errors. -/
def addWalk (v : Env) : Bytes → Forest → World → Res World
  | _, .nil, w => .ok w
  | _, .dangling _ _, _ => .fail
  | path, .file n readable rest, w =>
    if pathMax ≤ path.length + n.length + 1 then .fail
    else
      match addEntry v (path ++ 47 :: n) n false readable w with
      | .ok w' => addWalk v path rest w'
      | r => r
  | path, .dir n readable ch rest, w =>
    if pathMax ≤ path.length + n.length + 1 then .fail
    else if readable = false then .fail
    else
      match addWalk v (path ++ 47 :: n) ch w with
      | .ok w1 =>
        match addEntry v (path ++ 47 :: n) n true readable w1 with
        | .ok w2 => addWalk v path rest w2
        | r => r
      | r => r

/-- Result of `stat`. -/
inductive Stat where
  | ok
  | noent
  | notdir
  deriving DecidableEq

/-- The kernel's `stat` of a path relative to the mount point: the entries of the forest by their relative
path (`pre` is the path of the directory with a trailing slash). -/
def entries (pre : Bytes) : Forest → List (Bytes × Bool)
  | .nil => []
  | .file n _ rest => (pre ++ n, false) :: entries pre rest
  | .dangling _ rest => entries pre rest
  | .dir n _ ch rest => (entries (pre ++ n ++ [47]) ch ++ [(pre ++ n, true)]) ++ entries pre rest

/-- `stat`: the entry exists; or a regular file stands where the path needs a directory (`ENOTDIR`); or there is
no such entry (`ENOENT`). -/
def statName (f : Forest) (name : Bytes) : Stat :=
  if (entries [] f).any (fun e => decide (e.1 = name)) then .ok
  else if (entries [] f).any (fun e => !e.2 && decide (name.take (e.1.length + 1) = e.1 ++ [47])) then .notdir
  else .noent

/-- `__fly_work_del_nftw`, src/worker.c:322-363: the list with the saved `next` pointer, `n` bounds the turns. -/
def delWalk (m : Nat) (f : Forest) : Nat → World → Option Nat → Res World
  | 0, _, _ => .hang
  | _ + 1, w, none => .ok w
  | n + 1, w, some a =>
    match w.files.find? (fun x => x.addr == a) with
    | none => .wild
    | some pf =>
      let nx := nextOf (mountFiles w m) a
      if statName f pf.name.1 = .noent then
        match removeFile w pf with
        | none => .wild
        | some w' => delWalk m f n w' nx
      else delWalk m f n w nx

/-- The handling of a change notice for one existing mount point, src/worker.c:1053-1055.  The third step
(`fly_check_mod_file`, 148-191) changes no file of the index. -/
def update (v : Env) (f : Forest) (w : World) : Res World :=
  match addWalk v v.mp f w with
  | .ok w1 => delWalk v.mount f ((mountFiles w1 v.mount).length + 1) w1
      ((mountFiles w1 v.mount).head?.map (·.addr))
  | r => r

/-! ## What a worker knows about a file's content -/

/-- The part of `struct stat` used: length, modification and change time, and the inode. -/
structure StatBuf where
  size : Nat
  mtime : Int
  ctime : Int
  inode : Nat
  deriving DecidableEq

/-- What a worker keeps of a file (src/mount.h:30-55): the `stat` result of mounting (`fs`), the inode its
descriptor `fd` is open on, the date string's source, and the `stat` result the tag was made of. -/
structure Known where
  fs : StatBuf
  fd : Nat
  lastModified : Int
  tagOf : StatBuf
  deriving DecidableEq

/-- A file just mounted and opened: src/mount.c:183, 366; src/worker.c:909-917. -/
def Known.fresh (s : StatBuf) : Known := ⟨s, s.inode, s.mtime, s⟩

/-- `fly_check_mod_file`, src/worker.c:148-191, for one file whose present `stat` result is `s`, with
`fly_pf_modified` (src/mount.h:202-215). -/
def modCheck (s : StatBuf) (k : Known) : Known :=
  if k.fs.mtime = s.mtime ∧ k.fs.ctime = s.ctime then k else { k with tagOf := s }

/-- What a response with the file says: `Content-Length` (src/response.c:1324-1355 sets it from `fs`),
the source of `ETag`, `Last-Modified`, and the inode the body is read from. -/
structure Sent where
  length : Nat
  tagOf : StatBuf
  lastModified : Int
  inode : Nat
  deriving DecidableEq

/-- The response with the file. -/
def Known.sent (k : Known) : Sent := ⟨k.fs.size, k.tagOf, k.lastModified, k.fd⟩

end Fly.Scan
