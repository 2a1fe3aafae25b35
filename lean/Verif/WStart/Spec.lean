import Verif.WStart.Model
import Verif.Master.Spec

/-! # What a user expects of a worker that starts -/

namespace Fly.WStart

/-- The path of a file fits (4096 bytes with the end of the string). -/
def Short (d : Bytes) (f : File) : Prop := d.length + f.name.length + 1 < 4096

instance (d : Bytes) (f : File) : Decidable (Short d f) := inferInstanceAs (Decidable (_ < _))

/-- Where a file is, if it is there. -/
def place (w : World) (d : Bytes) (f : File) : Option Bytes :=
  if Short d f then w.real (d ++ b!"/" ++ f.name) else none

/-- What is in a file, if it is there and may be read. -/
def contents (w : World) (d : Bytes) (f : File) : Option Bytes := (place w d f).bind w.opens

/-- A file that is large enough to be encoded in advance, and not too large. -/
def Due (c : Conf) (f : File) : Prop := f.regular = true ∧ c.threshold ≤ f.size ∧ f.size ≤ c.max

/-- A regular file above the maximum (and the threshold). -/
def TooBig (c : Conf) (f : File) : Prop := f.regular = true ∧ c.threshold ≤ f.size ∧ c.max < f.size

instance (c : Conf) (f : File) : Decidable (Due c f) := inferInstanceAs (Decidable (_ ∧ _))
instance (c : Conf) (f : File) : Decidable (TooBig c f) := inferInstanceAs (Decidable (_ ∧ _))

/-- What a GET of a file is answered: its encoding, its content, or 413. -/
inductive Answers (w : World) (c : Conf) (f : File) (content : Bytes) : Got → Prop where
  | coded (b : Bytes) : Due c f → w.encode content = .ok b → Answers w c f content (.coded b)
  | full : Due c f → w.encode content = .full → Answers w c f content (.status 413)
  | big : TooBig c f → Answers w c f content (.status 413)
  | plain : ¬ Due c f → ¬ TooBig c f → Answers w c f content (.content (content.take f.size))

/-- The files of all mounted directories, each with its directory. -/
def Mounted (ms : List Mount) (d : Bytes) (f : File) : Prop := ∃ m ∈ ms, m.path = d ∧ f ∈ m.files

/-- How many files are mounted. -/
def countFiles (ms : List Mount) : Nat := (ms.map (fun m => m.files.length)).sum

/-- What the master hears of a worker that does not serve. -/
def heard : Start → Option Master.Change
  | .serving _ => none
  | .exits n => some (.exited n)

end Fly.WStart
