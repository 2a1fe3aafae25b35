import Verif.ReqHeader.Model

/-! # Specification of header blocks

A header block is a sequence of lines, each ended by LF (usually CRLF), ended by an empty line. -/

namespace Fly.ReqHeader

/-- Bytes of a field name as the server takes them: visible ASCII but ";" and ":". -/
def NameByte (c : Nat) : Prop := 33 ≤ c ∧ c ≤ 126 ∧ c ≠ 59 ∧ c ≠ 58

/-- Bytes of a field value: visible ASCII, space and tab. -/
def ValueByte (c : Nat) : Prop := (33 ≤ c ∧ c ≤ 126) ∨ c = 32 ∨ c = 9

/-- Space or tab. -/
def Blank (c : Nat) : Prop := c = 32 ∨ c = 9

/-- `x` (a line without its LF) is a field line with this name and value: name, colon, at least one blank,
value, and an optional CR, which is needed if the value is empty. -/
def FieldLine (x name value : Bytes) : Prop :=
  ∃ blanks cr : Bytes, x = name ++ b!":" ++ blanks ++ value ++ cr ∧ (∀ c ∈ name, NameByte c) ∧
    blanks ≠ [] ∧ (∀ c ∈ blanks, Blank c) ∧ (∀ c ∈ value, ValueByte c) ∧ (∀ c, value.head? = some c → ¬ Blank c) ∧
    (cr = b!"\r" ∨ cr = [] ∧ value ≠ [])

/-- A line that ends the header block: empty, or beginning with CR. -/
def EndLine (x : Bytes) : Prop := x = [] ∨ x.head? = some 13

/-- The fields read from a sequence of lines: field lines in order, all other lines left out. -/
inductive Fields : List Bytes → List (Bytes × Bytes) → Prop
  | nil : Fields [] []
  | field (x n v : Bytes) (xs : List Bytes) (fs : List (Bytes × Bytes)) : FieldLine x n v → Fields xs fs →
      Fields (x :: xs) ((n, v) :: fs)
  | skip (x : Bytes) (xs : List Bytes) (fs : List (Bytes × Bytes)) : (∀ n v, ¬ FieldLine x n v) → Fields xs fs →
      Fields (x :: xs) fs

/-- The lines written one after the other. -/
def lines (xs : List Bytes) : Bytes := (xs.map (· ++ b!"\n")).flatten

/-- A field as RFC 7230 3.2 writes it, with the usual single space. -/
def fieldText (n v : Bytes) : Bytes := n ++ b!": " ++ v ++ b!"\r"

/-- The list of header cells the application sees: names in lower case. -/
def cells (fs : List (Bytes × Bytes)) : Header.HList :=
  ⟨fs.map fun f => ⟨some (f.1.map Header.lower), some f.2⟩, fs.length⟩

end Fly.ReqHeader
