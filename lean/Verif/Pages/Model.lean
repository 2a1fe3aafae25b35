import Verif.Response.Model
import Verif.FileType.Model

/-! # The pages of the status codes: src/worker.c, src/context.c

The administrator can put a page for each status into a directory (`default_content_path`).  What is done with
the pages in a response is `PyBridge` (C96) and `H2Body` (C104).  Left out: a descriptor 0 (the worker has its
standard input open), the descriptors themselves. -/

namespace Fly.Pages
open Fly.FileType (Mime fromPath)

/-- What `access(R_OK)` and `open` say about a path: not readable; readable but not to be opened; a page that cannot be encoded in advance; a page. -/
inductive Found where
  | unreadable
  | closed
  | bad
  | page (content : Bytes)
  deriving DecidableEq, Repr

/-- `struct fly_response_content_by_stcode`. -/
structure Page where
  status : Nat
  path : Bytes
  mime : Mime
  content : Bytes
  deriving DecidableEq, Repr

/-- The pages; or the worker ends (`FLY_EMERGENCY_ERROR`, src/worker.c:758-768), or writes behind its buffer. -/
inductive Opened where
  | pages (l : List Page)
  | ends
  | overflow
  deriving DecidableEq, Repr

/-- `FLY_PATH_MAX`, src/mount.h:21. -/
def pathMax : Nat := 4096

/-- The path made for a status, src/worker.c:962-968. -/
def pagePath (dir : Bytes) (code : Nat) : Bytes := dir ++ b!"/" ++ Response.decimal code ++ b!".html"

/-- The loop of `__fly_worker_open_default_content`, src/worker.c:957-1000, over the rows of `responses`.  `dir` is the
`realpath` of the directory. -/
def openLoop (fs : Bytes → Found) (dir : Bytes) : List (Nat × Bytes) → List Page → Opened
  | [], acc => .pages acc
  | (code, _) :: rows, acc =>
    let path := pagePath dir code
    if pathMax ≤ path.length then .overflow
    else match fs path with
      | .unreadable => openLoop fs dir rows acc
      | .closed => openLoop fs dir rows acc
      | .bad => .ends
      | .page c => openLoop fs dir rows (acc ++ [⟨code, path, fromPath path, c⟩])

/-- `__fly_worker_open_default_content`, src/worker.c:946-1002; no path configured, or no directory there: no pages. -/
def openPages (fs : Bytes → Found) (dir : Option Bytes) : Opened :=
  match dir with
  | none => .pages []
  | some d => openLoop fs d Response.responses []

/-- `fly_default_content_by_stcode`, src/context.c:82-93. -/
def pageOf (l : List Page) (status : Nat) : Option Page := l.find? (·.status == status)

end Fly.Pages
