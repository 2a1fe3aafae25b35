import Verif.Basic

/-! # Several processes writing one log file: src/log.c:332-467, src/err.c:237-475

The files are opened by the master before it forks (src/context.c:31, src/log.c:186 without `O_APPEND`), so all processes share one
open file with one position.  Record locks belong to processes.  `write` is taken to be complete (see `Log.Model` for partial
writes); a process can be killed between any two calls. -/

namespace Fly.Log

/-- A locked range of a file; `hi = none` is `l_len = 0`, to the end of all files. -/
structure Range where
  lo : Nat
  hi : Option Nat
  deriving DecidableEq, Repr

/-- The calls of the functions that write entries. -/
inductive Op where
  /-- `fcntl(F_SETLKW)` with `F_WRLCK`, `SEEK_END`, 0, 0: src/log.c:340-346, src/err.c:259-267, 348-356, 432-437 -/
  | lock
  /-- `lseek(file, 0, SEEK_END)`: src/log.c:390-391 -/
  | seek
  | write (b : Bytes)
  /-- `F_UNLCK` with `SEEK_SET`, 0, 0: src/log.c:365-378 -/
  | unlockAll
  /-- `F_UNLCK` with the `SEEK_END`, 0, 0 of the lock: src/err.c:289-290, 375-376, 467-468 -/
  | unlockTail
  deriving DecidableEq, Repr

/-- A process: the calls it still has to make, the start of the range it waits for, its locks. -/
structure Proc where
  ops : List Op
  want : Option Nat
  held : List Range

/-- The file, the shared position, the number of processes and the processes. -/
structure Sys where
  file : Bytes
  pos : Nat
  n : Nat
  proc : Nat → Proc

/-- Does the locked range meet `[a, ∞)`? -/
def Range.meets (a : Nat) (r : Range) : Bool :=
  match r.hi with
  | none => true
  | some h => decide (a < h) && decide (r.lo < h)

/-- What is left of a range when `[a, ∞)` is unlocked. -/
def Range.without (a : Nat) (r : Range) : List Range :=
  if r.lo < a then [⟨r.lo, match r.hi with | none => some a | some h => some (if h ≤ a then h else a)⟩] else []

/-- Is `[a, ∞)` locked in part by a process other than `p`? -/
def Sys.conflict (s : Sys) (p a : Nat) : Bool :=
  (List.range s.n).any fun q => q != p && (s.proc q).held.any (Range.meets a)

def Sys.set (s : Sys) (p : Nat) (x : Proc) : Sys := { s with proc := fun q => if q = p then x else s.proc q }

/-- `write` at a position; a gap is filled with zeros. -/
def writeAt (f : Bytes) (pos : Nat) (b : Bytes) : Bytes :=
  f.take pos ++ List.replicate (pos - f.length) 0 ++ b ++ f.drop (pos + b.length)

/-- The next call of process `p`; `none` if it has none or waits for a lock.  The range of a lock is computed when the call is made
and stays the same while the process waits. -/
def step (s : Sys) (p : Nat) : Option Sys :=
  if s.n ≤ p then none
  else
    let x := s.proc p
    match x.ops with
    | [] => none
    | .lock :: r =>
      match x.want with
      | none =>
        if s.conflict p s.file.length then some (s.set p ⟨.lock :: r, some s.file.length, x.held⟩)
        else some (s.set p ⟨r, none, ⟨s.file.length, none⟩ :: x.held⟩)
      | some a => if s.conflict p a then none else some (s.set p ⟨r, none, ⟨a, none⟩ :: x.held⟩)
    | .seek :: r => some { s.set p ⟨r, x.want, x.held⟩ with pos := s.file.length }
    | .write b :: r => some { s.set p ⟨r, x.want, x.held⟩ with file := writeAt s.file s.pos b, pos := s.pos + b.length }
    | .unlockAll :: r => some (s.set p ⟨r, x.want, []⟩)
    | .unlockTail :: r => some (s.set p ⟨r, x.want, x.held.flatMap (Range.without s.file.length)⟩)

/-- What can happen: a process makes its next call (if it can), or is killed, which releases its locks. -/
inductive Act where
  | run (p : Nat)
  | kill (p : Nat)
  deriving DecidableEq, Repr

def act (s : Sys) : Act → Sys
  | .run p => (step s p).getD s
  | .kill p => s.set p ⟨[], none, []⟩

def exec (s : Sys) (as : List Act) : Sys := as.foldl act s

/-- `__fly_log_write`, src/log.c:421-467, with its two `__fly_write` (387-419): an entry is a time stamp and a text. -/
def entryOps (e : Bytes × Bytes) : List Op := [.lock, .seek, .write e.1, .seek, .write e.2, .unlockAll]

/-- `__fly_write_to_log_info`, src/err.c:421-475; `__fly_write_to_log_err` does the same with the error log and the notice log
(323-419). -/
def directOps (e : Bytes) : List Op := [.lock, .write e, .unlockTail]

/-- `n` processes that write entries to a file that has some content already, through the position `pos` of the open file (0 when it was
opened just now). -/
def start (f : Bytes) (pos n : Nat) (prog : Nat → List Op) : Sys :=
  ⟨f, pos, n, fun p => ⟨prog p, none, []⟩⟩

end Fly.Log
