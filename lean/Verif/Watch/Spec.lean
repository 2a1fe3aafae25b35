import Verif.Watch.Model

/-! # What users expect of the watch over a mount point -/

namespace Fly.Watch

/-- A file system below the mount point, numbered from the top: a tree with different names in a directory. -/
structure Tree (ents : List Ent) (dirs : List Nat) (n : Nat) : Prop where
  root : 0 ∈ dirs
  pos : 0 < n
  inDir : ∀ e ∈ ents, e.dir ∈ dirs
  below : ∀ e ∈ ents, e.dir < e.ino ∧ e.ino < n
  dirLt : ∀ d ∈ dirs, d < n
  names : ∀ e ∈ ents, ∀ e' ∈ ents, e.dir = e'.dir → e.name = e'.name → e = e'
  once : ∀ e ∈ ents, ∀ e' ∈ ents, e.ino = e'.ino → e = e'

/-- Nothing is removed or renamed by this step. -/
def Act.grows : Act → Bool
  | .read => true
  | .op (.create _ _) => true
  | .op (.mkdir _ _) => true
  | .op (.moveIn _ _) => true
  | .op (.write _ _) => true
  | .op (.chmod _ _) => true
  | .op _ => false

/-- The mount point, and the directories made after the start (numbers from `n` on) in the mount point or in
such a directory. -/
inductive Seen (ents : List Ent) (n : Nat) : Nat → Prop where
  | root : Seen ents n 0
  | made (e : Ent) : e ∈ ents → Seen ents n e.dir → n ≤ e.ino → Seen ents n e.ino

/-- The master knows the file: it is in its list under a path that leads to it, and the kernel reports changes
of it to the master under the descriptor in the list. -/
def Known (s : St) (e : Ent) : Prop :=
  ∃ p ∈ s.pfs, resolve s.ents 0 p.path = some e.ino ∧ ∃ w ∈ s.watches, w.ino = e.ino ∧ w.wd = p.wd

/-- Changes of the files of the mount point itself, without renaming: what may come in a calm history. -/
def Op.simple : Op → Bool
  | .create d _ => d == 0
  | .moveIn d _ => d == 0
  | .write d _ => d == 0
  | .chmod d _ => d == 0
  | .unlink d _ => d == 0
  | .moveOut d _ => d == 0
  | .free _ => true
  | .mkdir _ _ => false
  | .rename _ _ _ => false

/-- A history in which the master catches up after every change (a change makes at most two events, handling
them at most one more). -/
def calm (os : List Op) : List Act := os.flatMap (fun o => [.op o, .read, .read, .read])

/-- A mount point with files only. -/
def Flat (ents : List Ent) (dirs : List Nat) : Prop := ents.Nodup ∧ ∀ e ∈ ents, e.dir = 0 ∧ e.ino ∉ dirs

/-- The change is possible and is one that a user sees: not the mere closing of a removed file. -/
def Op.takesPlace (s : St) : Op → Bool
  | .create d n => s.isDir d && (lookup s.ents d n).isNone
  | .mkdir d n => s.isDir d && (lookup s.ents d n).isNone
  | .moveIn d n => s.isDir d && (lookup s.ents d n).isNone
  | .write d n => (lookup s.ents d n).isSome
  | .chmod d n => (lookup s.ents d n).isSome
  | .unlink d n => (lookup s.ents d n).isSome
  | .moveOut d n => (lookup s.ents d n).isSome
  | .rename d n n' => (lookup s.ents d n).isSome && n != n'
  | .free _ => false

/-- The master's list and watches agree with the mount point: it knows every file, and it lists nothing else. -/
def Followed (s : St) : Prop :=
  s.status = .running ∧ s.queue = [] ∧ (∀ e ∈ s.ents, Known s e) ∧
    ∀ p ∈ s.pfs, ∃ e ∈ s.ents, p.path = [e.name]

end Fly.Watch
