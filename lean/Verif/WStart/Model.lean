import Verif.Pages.Model
import Verif.Master.Model

/-! # How a worker starts: src/worker.c (Linux)

From the fork to the event loop: the mounted files and the pages of the status codes are opened, the descriptors
for events and for signals are made.  What the scan finds in the mounted directories is `Fly.Scan`, what an
encoder does is `Fly.Codec`, the pages are `Fly.Pages`, the master is `Fly.Master`.

Left out: TLS (its certificates are read into memory, src/ssl.c), `dup2` of a descriptor that is open, `gmtime` of
a time outside its range (src/worker.c:917-918), memory. -/

namespace Fly.WStart

/-- A mounted file as the scan left it: `filename` and the parts of `fs` that are used (src/mount.c:168-200). -/
structure File where
  name : Bytes
  size : Nat
  regular : Bool
  deriving DecidableEq, Repr

/-- A mounted directory, `fly_mount_parts_t`: `mount_path` and its files, directories among them. -/
structure Mount where
  path : Bytes
  files : List File
  deriving DecidableEq, Repr

/-- How an encoder ends (src/worker.c:1095-1114): FLY_ENCODE_SUCCESS with what is in `encbuf`; FLY_ENCODE_BUFFER_ERROR;
anything else. -/
inductive Enc where
  | ok (coded : Bytes)
  | full
  | failed
  deriving DecidableEq, Repr

/-- What the worker finds around itself. -/
structure World where
  /-- `realpath(3)` of a path -/
  real : Bytes → Option Bytes
  /-- `open(2)` for reading, given a free descriptor: what can be read from it -/
  opens : Bytes → Option Bytes
  /-- the encoder of files -/
  encode : Bytes → Enc
  /-- the pages (`Fly.Pages`), given free descriptors, and the directory of the pages -/
  pageFs : Bytes → Pages.Found
  pageDir : Option Bytes
  /-- whether the master can be sent a signal -/
  master : Bool
  /-- how many descriptors the worker may still make (`RLIMIT_NOFILE`) -/
  limit : Nat

/-- What is configured: `response_encode_threshold`, `fly_response_content_max_length()`, the number of routes. -/
structure Conf where
  threshold : Nat
  max : Nat
  routes : Nat
  deriving DecidableEq, Repr

/-- What `fly_preencode_pf` left: nothing; `de` with its `encbuf`; `de` with `overflow`. -/
inductive Stored where
  | plain
  | coded (b : Bytes)
  | tooLong
  deriving DecidableEq, Repr

/-- A file in a worker: `fd` is what its descriptor reads, `none` is -1. -/
structure Held where
  file : File
  fd : Option Bytes
  stored : Stored
  deriving DecidableEq, Repr

/-- `FLY_PATH_MAX`, src/mount.h:21. -/
def pathMax : Nat := 4096

/-- `fly_join_path`, src/mount.c:523-546.  A real path of `pathMax` bytes or more does not occur (`realpath`
fails with ENAMETOOLONG). -/
def joinPath (w : World) (dir name : Bytes) : Option Bytes :=
  if pathMax ≤ dir.length + name.length + 1 then none else w.real (dir ++ b!"/" ++ name)

/-- `open(rpath, O_RDONLY)` with `free` descriptors left (src/worker.c:911): what it reads, and the descriptors
left after it. -/
def openFd (w : World) (free : Nat) (path : Bytes) : Option Bytes × Nat :=
  match free, w.opens path with
  | n + 1, some c => (some c, n)
  | _, _ => (none, free)

/-- `fly_preencode_pf`, src/worker.c:1073-1123; `none` is FLY_PREENCODE_FILE_ENCODE_ERROR.  An encoder of a
descriptor -1 ends at its `lseek` (FLY_ENCODE_SEEK_ERROR, src/encode.c). -/
def preencode (w : World) (c : Conf) (f : File) (fd : Option Bytes) : Option Stored :=
  if c.threshold ≤ f.size ∧ f.regular = true then
    if f.size ≤ c.max then
      match fd with
      | none => none
      | some content =>
        match w.encode content with
        | .ok b => some (.coded b)
        | .full => some .tooLong
        | .failed => none
    else some .tooLong
  else some .plain

/-- The body of the loops of `__fly_worker_open_file` for one file, src/worker.c:902-931: `none` ends the worker. -/
def openFile (w : World) (c : Conf) (dir : Bytes) (f : File) (free : Nat) : Option (Held × Nat) :=
  match joinPath w dir f.name with
  | none => some (⟨f, none, .plain⟩, free)
  | some path =>
    match preencode w c f (openFd w free path).1 with
    | none => none
    | some s => some (⟨f, (openFd w free path).1, s⟩, (openFd w free path).2)

/-- The loops of `__fly_worker_open_file`, src/worker.c:900-933, over the files with their directories. -/
def openAll (w : World) (c : Conf) : List (Bytes × File) → Nat → Option (List Held × Nat)
  | [], free => some ([], free)
  | (d, f) :: rest, free =>
    match openFile w c d f free with
    | none => none
    | some (h, free) =>
      match openAll w c rest free with
      | none => none
      | some (hs, free) => some (h :: hs, free)

/-- The files of all mounted directories, in the order of the lists. -/
def allFiles (ms : List Mount) : List (Bytes × File) :=
  ms.flatMap (fun m => m.files.map (fun f => (m.path, f)))

/-- The loop of `__fly_worker_open_default_content`, src/worker.c:957-1000, with the descriptors left: as
`Pages.openLoop`, but a page is only opened while there is one.  `none` ends the worker or is a write behind a
buffer. -/
def openPages (w : World) (dir : Bytes) : List (Nat × Bytes) → Nat → List Pages.Page →
    Option (List Pages.Page × Nat)
  | [], free, acc => some (acc, free)
  | (code, _) :: rows, free, acc =>
    let path := Pages.pagePath dir code
    if Pages.pathMax ≤ path.length then none
    else match w.pageFs path, free with
      | .unreadable, _ => openPages w dir rows free acc
      | .closed, _ => openPages w dir rows free acc
      | .bad, 0 => openPages w dir rows 0 acc
      | .bad, _ + 1 => none
      | .page _, 0 => openPages w dir rows 0 acc
      | .page c, n + 1 => openPages w dir rows n (acc ++ [⟨code, path, FileType.fromPath path, c⟩])

/-- `__fly_worker_open_default_content`, src/worker.c:945-1002. -/
def pages (w : World) (free : Nat) : Option (List Pages.Page × Nat) :=
  match w.pageDir with
  | none => some ([], free)
  | some d => openPages w d Response.responses free []

/-- A worker in its event loop: its files and pages, whether it has a descriptor for signals, and how many
descriptors it may still make. -/
structure Serving where
  files : List Held
  pages : List Pages.Page
  signals : Bool
  free : Nat
  deriving DecidableEq, Repr

/-- What becomes of a worker: it serves, or exits with a status (FLY_ERR_EMERG = 10, FLY_ERR_ERR = 12, src/err.h:63-75). -/
inductive Start where
  | serving (s : Serving)
  | exits (status : Nat)
  deriving DecidableEq, Repr

/-- The end of `fly_worker_process`, src/worker.c:776-807: the descriptor of epoll (src/event.c:14-55), then that of
signals (src/worker.c:512-555).  A failure of the latter is FLY_WORKER_SIGNAL_EVENT_SIGNAL_REGISTER_ERROR, which is
not the -1 that is looked for. -/
def finish (files : List Held) (ps : List Pages.Page) : Nat → Start
  | 0 => .exits 12
  | 1 => .serving ⟨files, ps, false, 0⟩
  | n + 2 => .serving ⟨files, ps, true, n⟩

/-- `fly_worker_process`, src/worker.c:655-807, after which it is in `fly_event_handler`.  The first descriptor is
/dev/null. -/
def start (w : World) (c : Conf) (ms : List Mount) : Start :=
  match w.limit with
  | 0 => .exits 10
  | free + 1 =>
    if w.master = false then .exits 10
    else if ms = [] ∧ c.routes = 0 then .exits 10
    else
      match openAll w c (allFiles ms) free with
      | none => .exits 10
      | some (hs, free) =>
        match pages w free with
        | none => .exits 10
        | some (ps, free) => finish hs ps free

/-- What a GET of a file gets over HTTP/1. -/
inductive Got where
  | content (b : Bytes)
  | coded (b : Bytes)
  | status (n : Nat)
  /-- the worker exits, with all its connections -/
  | workerExits (status : Nat)
  deriving DecidableEq, Repr

/-- A GET of a file by a client that accepts the encoding of files: `fly_respf` (src/response.c:1324-1355),
`fly_response_event` (src/response.c:564-719) and `fly_response_set_send_ptr` (src/response.c:1507-1545; the `lseek` of
a descriptor -1 fails and `fly_error_error` exits with FLY_ERR_ERR, src/err.c). -/
def get (h : Held) : Got :=
  match h.stored with
  | .tooLong => .status 413
  | .coded b => .coded b
  | .plain =>
    match h.fd with
    | none => .workerExits 12
    | some c => .content (c.take h.file.size)

/-- What SIGTERM does to a worker in its event loop: every signal is blocked (src/fsignal.c:85-93); read from the
descriptor it ends the worker (src/worker.c:427-510), otherwise it stays pending. -/
def endsOnTerm (s : Serving) : Bool := s.signals

end Fly.WStart
