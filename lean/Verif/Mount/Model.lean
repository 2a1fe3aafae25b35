import Verif.Basic
import Verif.RBTree.Spec

/-! # Model of `src/mount.c`: the index of mounted files, its lookups and the removal of files

Mounted files live in two places: the list of files of their mount point (`parts->files`) and one
red-black tree over all mount points, keyed by the file's name relative to its mount point.  The tree
is the one of `Verif.RBTree.Model`; the handle variable of a file is its field `rbnode`.

Not modelled here: pools, counters other than the emptiness test of `fly_found_content_from_path`,
open descriptors, hashes, MIME types. -/

namespace Fly.Mount

/-- `strncmp`: at most `n` bytes of two NUL-terminated strings (bytes past the end of a list read as the
terminating NUL). -/
def strncmp : Nat → Bytes → Bytes → Ordering
  | 0, _, _ => .eq
  | n + 1, a, b =>
    if a.headD 0 < b.headD 0 then .lt
    else if b.headD 0 < a.headD 0 then .gt
    else if a.headD 0 = 0 then .eq
    else strncmp n a.tail b.tail

/-- `__fly_mount_search_cmp`, src/mount.c:1344-1374: `c1` comes with an explicit length, `c2` is
NUL-terminated.  `FLY_RB_CMP_BIG` is `gt`, `FLY_RB_CMP_SMALL` is `lt`. -/
def searchCmp (c1 : Bytes) (len : Nat) (c2 : Bytes) : Ordering :=
  match strncmp (if c2.length < len then c2.length else len) c1 c2 with
  | .eq => if c2.length = len then .eq else if c2.length < len then .gt else .lt
  | o => o

/-- A file name as stored in `pf->filename`: no NUL byte inside. -/
abbrev Name := { b : Bytes // 0 ∉ b }

/-- The comparison as the tree uses it when the length passed is the length of the name
(src/mount.c:369-371, 597-599; src/worker.c:309-312). -/
def nameCmp (a b : Name) : Ordering := searchCmp a.1 a.1.length b.1

/-- `struct fly_mount_parts_file`, src/mount.h:30-55: its address, the mount point it belongs to, its
name relative to the mount point and the two flags that matter here. -/
structure PF where
  addr : Nat
  mount : Nat
  name : Name
  dir : Bool
  deleted : Bool
  deriving DecidableEq

/-- `struct fly_mount`, src/mount.h:81-90.  `files` holds the files of all mount points in the order they
were added; the list of one mount point is the sublist of its files. -/
structure World where
  files : List PF
  idx : RB.State Name Nat

/-- `fly_mount_init`, src/mount.c:22-44: nothing mounted. -/
def World.init : World := ⟨[], RB.State.init⟩

/-- Registering a file: `fly_rb_tree_insert` with the address of `rbnode`, whose result is then stored in
`rbnode` as well, and `fly_parts_file_add` (src/mount.c:97-103, 366-372; src/worker.c:303-312).
`a` is the address malloc returns for the tree node. -/
def addFile (w : World) (pf : PF) (a : Nat) : Option World :=
  match w.idx.insert nameCmp a pf.name pf.addr (some pf.addr) with
  | none => none
  | some (s, n) =>
    some ⟨w.files ++ [pf], { s with handles := RB.setHandle (some pf.addr) (some n) s.handles }⟩

/-- `fly_parts_file_remove`, src/mount.c:143-151.  `none`: the file is not in the list any more (its
memory was freed), or the tree node `rbnode` points to was freed. -/
def removeFile (w : World) (pf : PF) : Option World :=
  if w.files.any (fun f => f.addr == pf.addr) then
    match w.idx.handles pf.addr with
    | none => some ⟨w.files.filter (fun f => f.addr != pf.addr), w.idx⟩
    | some a =>
      match w.idx.delete a with
      | none => none
      | some s => some ⟨w.files.filter (fun f => f.addr != pf.addr), s⟩
  else none

/-- One change of the set of mounted files. -/
inductive Change where
  /-- register `pf`; malloc returns `a` for the tree node -/
  | add (pf : PF) (a : Nat)
  /-- remove the file at this address -/
  | remove (addr : Nat)

/-- The effect of a change; `none` is undefined behaviour. -/
def change (w : World) : Change → Option World
  | .add pf a => addFile w pf a
  | .remove p =>
    match w.files.find? (fun f => f.addr == p) with
    | none => none
    | some pf => removeFile w pf

/-- A history of changes. -/
def changes : World → List Change → Option World
  | w, [] => some w
  | w, c :: cs =>
    match change w c with
    | none => none
    | some w' => changes w' cs

/-- Outcome of a lookup: no content, the content `pf`, or a pointer to freed memory. -/
inductive Look where
  | notFound
  | found (pf : PF)
  | wild
  deriving DecidableEq

/-- `while(fly_slash(*filename)) { filename++; len--; }`, src/mount.c:592-595. -/
def skipSlashes : Bytes → Bytes
  | [] => []
  | c :: r => if c = 47 then skipSlashes r else c :: r

/-- `fly_rb_node_data_from_key` with a key of the given bytes: a string with a NUL inside is never equal
to a file name (`searchCmp_nul` in Lemmas.lean), so it is not found. -/
def findKey (w : World) (k : Bytes) : Option Nat :=
  if h : 0 ∈ k then none else (RB.find nameCmp ⟨k, h⟩ w.idx.tree).map (·.data)

/-- `FLY_PATH_MAX`, src/mount.h:21 (`PATH_MAX` of Linux). -/
def pathMax : Nat := 4096

/-- `fly_found_content_from_path`, src/mount.c:578-637.  `path` are the `uri->len` bytes of the request
path, `rest` what follows them in the same buffer (the query, src/uri.c:26-58), `index` the configured
index path (src/mount.c:1377-1380).  `rest` never begins with a slash, so that skipping slashes stays inside
`path`.  A directory index path of `FLY_PATH_MAX` bytes is rejected; a longer one is truncated while its
length is not, which is never equal to a name (618-624). -/
def foundContent (index : Name) (w : World) (path rest : Bytes) : Look :=
  if w.files = [] then .notFound
  else
    let p := skipSlashes path
    let key := if p = [] then index.1 else p
    let cstr := if p = [] then index.1 else p ++ rest
    match findKey w key with
    | none => .notFound
    | some q =>
      match w.files.find? (fun f => f.addr == q) with
      | none => .wild
      | some pf =>
        if pf.dir then
          let di := cstr ++ 47 :: index.1
          if pathMax ≤ di.length then .notFound
          else
            match findKey w di with
            | none => .notFound
            | some _ => .found pf
        else .found pf

/-! ## Removal in the master process -/

/-- Outcome of a function of the master: success, the error result, an endless loop (or not yet finished
after the given number of steps), an access to freed memory. -/
inductive Res (α : Type) where
  | ok (a : α)
  | fail
  | hang
  | wild
  deriving DecidableEq

/-- The `next` pointer of the element at address `a` in a list of files. -/
def nextOf : List PF → Nat → Option Nat
  | x :: y :: r, a => if x.addr = a then some y.addr else nextOf (y :: r) a
  | _, _ => none

/-- `parts->files` of mount point `m`. -/
def mountFiles (w : World) (m : Nat) : List PF := w.files.filter (fun f => f.mount == m)

/-- The test of the loop, src/mount.c:1270-1271, with `dirlen = pf->filename_len` (1261). -/
def sameDir (d f : PF) : Bool :=
  decide (d.name.1.length ≠ f.name.1.length) &&
    decide (strncmp d.name.1.length f.name.1 d.name.1 = .eq)

/-- The loop of `fly_inotify_rm_watch` over the files of the mount point, src/mount.c:1267-1288, with the
saved `next` pointer.  `rm` is the recursive call, `n` bounds the number of turns. -/
def rmLoop (rm : World → PF → Res World) (d : PF) : Nat → World → Option Nat → Res World
  | 0, _, _ => .hang
  | _ + 1, w, none => .ok w
  | n + 1, w, some a =>
    match w.files.find? (fun f => f.addr == a) with
    | none => .wild
    | some f =>
      let nx := nextOf (mountFiles w d.mount) a
      if sameDir d f then
        match rm w f with
        | .ok w' => rmLoop rm d n w' nx
        | r => r
      else rmLoop rm d n w nx

/-- The end of `fly_inotify_rm_watch`, src/mount.c:1293-1313: drop the kernel watch unless the file is
gone, then remove the file.  `kern pf` tells whether `inotify_rm_watch` succeeds. -/
def rmSelf (kern : PF → Bool) (w : World) (pf : PF) : Res World :=
  if !pf.deleted && !kern pf then .fail
  else
    match removeFile w pf with
    | none => .wild
    | some w' => .ok w'

/-- `fly_inotify_rm_watch` (inotify build), src/mount.c:1235-1314.  For a directory whose name has a slash
the loop `while(strchr(dirptr, '/') != NULL) dirptr = strchr(dirptr, '/');` (1263-1264) stays at the first
slash for ever. -/
def rmWatch (kern : PF → Bool) : Nat → World → PF → Res World
  | 0, _, _ => .hang
  | n + 1, w, pf =>
    if pf.dir then
      if 47 ∈ pf.name.1 then .hang
      else
        match rmLoop (rmWatch kern n) pf n w ((mountFiles w pf.mount).head?.map (·.addr)) with
        | .ok w' => rmSelf kern w' pf
        | r => r
    else rmSelf kern w pf

/-! ## Watching new files -/

/-- `ie->len - 1` as passed to `fly_inotify_add_watch` for an entry of a mount point
(src/master.c:1045, 1067): the kernel pads the name with NULs to a multiple of the size of
`struct inotify_event` (16 bytes; inotify(7)). -/
def inotifyLen (name : Bytes) : Nat := (name.length + 16) / 16 * 16 - 1

end Fly.Mount
