import Verif.Points.Model

/-! # Specification vocabulary for mount points -/

namespace Fly.Points

open Fly.Mount Fly.Scan

/-- Every directory on the way to `p`, and `p` itself, is a directory and not a symbolic link. -/
def AllDirs (fs : Fs) (p : Path) : Prop := ∀ q, q ≠ [] → q <+: p → fs q = some .dir

/-- A symbolic link is on the way to `p` or `p` itself. -/
def LinkOn (fs : Fs) (p : Path) : Prop := ∃ q t, q ≠ [] ∧ q <+: p ∧ fs q = some (.link t)

/-- A component that names something: not empty, without slash, neither `.` nor `..`. -/
def Comp (c : Bytes) : Prop := c ≠ [] ∧ 47 ∉ c ∧ c ≠ dot ∧ c ≠ dotdot

/-- The working directory is a directory the kernel could have put us into: `getcwd` gives a path without links. -/
def CwdOk (e : Env) : Prop := AllDirs e.fs e.cwd ∧ ∀ c ∈ e.cwd, Comp c

/-- The path of a mount call as the application sees it: absolute, `.`, `..` and double slashes taken out. -/
def lexical (cwd : Path) (p : Bytes) : Path := norm (split (joined cwd p))

/-- The path begins with exactly two slashes. -/
def TwoSlashes (p : Bytes) : Prop := ∃ r, p = 47 :: 47 :: r ∧ r.head? ≠ some 47

/-- What is below a directory can be mounted: allowed names, none too long, all directories can be opened. -/
def Mountable (e : Env) (q : Path) : Prop :=
  e.opens q = true ∧ Proper (e.tree q) ∧ DirsOpen (e.tree q) ∧ Fits (render q).length (e.tree q)

end Fly.Points
