import Verif.Scan.Model

/-! # Specification vocabulary for mounting and updating -/

namespace Fly.Scan

open Fly.Mount

/-- Below the directory there is an entry at the relative path `p`; `d` tells whether it is a directory. -/
def Has : Forest → Bytes → Bool → Prop
  | .nil, _, _ => False
  | .file n _ rest, p, d => (p = n ∧ d = false) ∨ Has rest p d
  | .dangling _ rest, p, d => Has rest p d
  | .dir n _ ch rest, p, d => (p = n ∧ d = true) ∨ (∃ q, p = n ++ 47 :: q ∧ Has ch q d) ∨ Has rest p d

/-- The names of the entries of one directory. -/
def names : Forest → List Bytes
  | .nil => []
  | .file n _ rest => n :: names rest
  | .dangling n rest => n :: names rest
  | .dir n _ _ rest => n :: names rest

/-- A name the kernel allows: not empty, without slash and NUL. -/
def NameOk (n : Bytes) : Prop := n ≠ [] ∧ 0 ∉ n ∧ 47 ∉ n

/-- What every file system guarantees: allowed names, no name twice in a directory. -/
def Proper : Forest → Prop
  | .nil => True
  | .file n _ rest => NameOk n ∧ n ∉ names rest ∧ Proper rest
  | .dangling n rest => NameOk n ∧ n ∉ names rest ∧ Proper rest
  | .dir n _ ch rest => NameOk n ∧ n ∉ names rest ∧ Proper ch ∧ Proper rest

/-- Every name has less than 255 bytes and every full path, below a directory whose path has `len` bytes, less than
4096. -/
def Fits : Nat → Forest → Prop
  | _, .nil => True
  | len, .file n _ rest => n.length < 255 ∧ len + 1 + n.length < 4096 ∧ Fits len rest
  | len, .dangling n rest => n.length < 255 ∧ len + 1 + n.length < 4096 ∧ Fits len rest
  | len, .dir n _ ch rest =>
    n.length < 255 ∧ len + 1 + n.length < 4096 ∧ Fits (len + 1 + n.length) ch ∧ Fits len rest

/-- Every directory can be opened. -/
def DirsOpen : Forest → Prop
  | .nil => True
  | .file _ _ rest => DirsOpen rest
  | .dangling _ rest => DirsOpen rest
  | .dir _ r ch rest => r = true ∧ DirsOpen ch ∧ DirsOpen rest

/-- Every entry can be opened (in particular there are no dangling links). -/
def AllOpen : Forest → Prop
  | .nil => True
  | .file _ r rest => r = true ∧ AllOpen rest
  | .dangling _ _ => False
  | .dir _ r ch rest => r = true ∧ AllOpen ch ∧ AllOpen rest

/-- The number of files and directories. -/
def size : Forest → Nat
  | .nil => 0
  | .file _ _ rest => 1 + size rest
  | .dangling _ rest => size rest
  | .dir _ _ ch rest => 1 + size ch + size rest

/-- The allocator gives addresses no live file and no live node has. -/
def FreshAlloc (alloc : World → Nat × Nat) : Prop :=
  ∀ w, (∀ f ∈ w.files, f.addr ≠ (alloc w).1) ∧ ∀ e ∈ w.idx.tree.toList, e.addr ≠ (alloc w).2

/-- The registrations `fly_mount` does for a list of names, at mount point `m`, whatever addresses the allocator
gives. -/
def Registers (m : Nat) : List (Bytes × Bool) → List Change → Prop
  | [], ops => ops = []
  | (n, d) :: es, ops => ∃ pf a ops', ops = .add pf a :: ops' ∧ pf.name.1 = n ∧ pf.dir = d ∧ pf.mount = m ∧
      pf.deleted = false ∧ Registers m es ops'

end Fly.Scan
