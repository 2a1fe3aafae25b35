import Verif.Mime.Model

/-! # The Accept field as a client writes it (RFC 9110, 12.5.1) -/

namespace Fly.Mime

def Blanks (w : Bytes) : Prop := ∀ c ∈ w, c = 32 ∨ c = 9

/-- Visible, neither comma nor semicolon. -/
def Visible (c : Nat) : Prop := 33 ≤ c ∧ c ≤ 126 ∧ c ≠ 44 ∧ c ≠ 59

/-- `;name=value`, with blanks behind the semicolon. -/
structure Param where
  w : Bytes
  name : Bytes
  value : Bytes
  deriving DecidableEq, Repr

/-- Not a weight, and not a quoted string. -/
structure Param.Ok (x : Param) : Prop where
  w : Blanks x.w
  name : ∀ c ∈ x.name, Visible c ∧ c ≠ 61
  ne : x.name ≠ []
  notQ : x.name ≠ b!"q"
  value : ∀ c ∈ x.value, Visible c
  valueNe : x.value ≠ []
  notQuoted : x.value.head? ≠ some 34

def Param.text (x : Param) : Bytes := 59 :: (x.w ++ x.name ++ 61 :: x.value)

/-- A media range with parameters. -/
structure Media where
  type : Bytes
  subtype : Bytes
  params : List Param
  deriving DecidableEq, Repr

structure Media.Ok (m : Media) : Prop where
  typeNe : m.type ≠ []
  type : ∀ c ∈ m.type, Visible c ∧ c ≠ 47
  typeLen : m.type.length < 30
  subNe : m.subtype ≠ []
  sub : ∀ c ∈ m.subtype, Visible c
  subLen : m.subtype.length ≤ 30
  params : ∀ x ∈ m.params, x.Ok

def Media.text (m : Media) : Bytes := m.type ++ 47 :: (m.subtype ++ m.params.flatMap Param.text)

/-- A weight `;q=0.ddd` with one to three digits. -/
structure Weight where
  w : Bytes
  ds : List Nat
  deriving DecidableEq, Repr

structure Weight.Ok (x : Weight) : Prop where
  w : Blanks x.w
  ds : ∀ d ∈ x.ds, d < 10
  ne : x.ds ≠ []
  len : x.ds.length ≤ 3

def Weight.text (x : Weight) : Bytes := 59 :: (x.w ++ b!"q=0." ++ x.ds.map (48 + ·))

/-- In thousandths. -/
def Weight.val (x : Weight) : Nat := x.ds.getD 0 0 * 100 + x.ds.getD 1 0 * 10 + x.ds.getD 2 0

structure Range where
  media : Media
  weight : Option Weight
  deriving DecidableEq, Repr

structure Range.Ok (r : Range) : Prop where
  media : r.media.Ok
  weight : ∀ w, r.weight = some w → w.Ok

def weightText : Option Weight → Bytes
  | none => []
  | some w => w.text

def Range.text (r : Range) : Bytes := r.media.text ++ weightText r.weight

def Range.quality (r : Range) : Nat := match r.weight with | none => 1000 | some w => w.val

/-- A comma follows well: parameters are followed by a weight. -/
def Range.Closed (r : Range) : Prop := r.media.params = [] ∨ r.weight ≠ none

/-- A character of a quoted string but the backslash. -/
def QText (c : Nat) : Prop := c = 9 ∨ (32 ≤ c ∧ c ≤ 126 ∧ c ≠ 34 ∧ c ≠ 92)

/-- Blanks and empty elements behind a comma. -/
def Gap (g : Bytes) : Prop := ∀ c ∈ g, c = 44 ∨ c = 32 ∨ c = 9

/-- Ranges each followed by a comma. -/
def prefixText : List (Range × Bytes) → Bytes
  | [] => []
  | (r, g) :: l => r.text ++ 44 :: (g ++ prefixText l)

/-- Such ranges, in the form the code understands. -/
def PrefixOk (l : List (Range × Bytes)) : Prop := ∀ x ∈ l, x.1.Ok ∧ x.1.Closed ∧ Gap x.2

/-- What the application is told of the weight: a whole percentage, at most one lower than the written one, and 0 for less than
0.01. -/
def Percent (v x : Nat) : Prop :=
  (v = 1000 ∧ x = 100) ∨ (v < 1000 ∧ x ≤ v / 10 ∧ v / 10 ≤ x + 1 ∧ (0 < x ↔ 10 ≤ v))

/-- What the application is told of a range: parameters cut to 30 characters. -/
def Told (r : Range) (a : Acc) : Prop :=
  a.type = r.media.type ∧ a.subtype = r.media.subtype ∧ Percent r.quality a.q ∧ a.exts = 0 ∧
  a.params = r.media.params.map fun x => (x.name.take 30, x.value.take 30)

def AllTold : List Range → List Acc → Prop
  | [], [] => True
  | r :: rs, a :: as => Told r a ∧ AllTold rs as
  | _, _ => False

/-- The fields of a request whose first Accept field has this value. -/
def FirstAccept (value : Bytes) (hs : List (Bytes × Bytes)) : Prop :=
  ∃ pre post n, hs = pre ++ (n, value) :: post ∧ (n = b!"Accept" ∨ n = b!"accept") ∧
    ∀ h ∈ pre, h.1 ≠ b!"Accept" ∧ h.1 ≠ b!"accept"

/-- No 31 visible characters without comma in a row. -/
def NoLongName (v : Bytes) : Prop := ∀ a w b, v = a ++ w ++ b → w.length = 31 → ∃ c ∈ w, ¬ Visible c

/-- No extension: behind a weight a comma precedes the next semicolon. -/
def NoExt (v : Bytes) : Prop := ∀ a b c, v = a ++ b!"=0." ++ b ++ b!";" ++ c → 44 ∈ b

end Fly.Mime
