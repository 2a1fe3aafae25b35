import Verif.Encode.Model

/-! # The Accept-Encoding field as a user writes it (RFC 9110, 12.4.2 and 12.5.3) -/

namespace Fly.Encode

/-- A quality value: `0`, `0.d`, `0.dd`, `0.ddd`, `1`, `1.0`, `1.00` or `1.000`. -/
inductive Q where
  | zero (ds : List Nat)
  | one (zeros : Nat)
  deriving DecidableEq, Repr

def Q.Ok : Q → Prop
  | .zero ds => ds.length ≤ 3 ∧ ∀ d ∈ ds, d < 10
  | .one k => k ≤ 3

def Q.text : Q → Bytes
  | .zero [] => b!"0"
  | .zero ds => b!"0." ++ ds.map (48 + ·)
  | .one 0 => b!"1"
  | .one k => b!"1." ++ List.replicate k 48

/-- The value in thousandths. -/
def Q.val : Q → Nat
  | .zero ds => ds.getD 0 0 * 100 + ds.getD 1 0 * 10 + ds.getD 2 0
  | .one _ => 1000

def Blanks (w : Bytes) : Prop := ∀ c ∈ w, c = 32 ∨ c = 9

/-- A weight `;q=…` with the blanks around it. -/
structure Weight where
  w1 : Bytes
  w2 : Bytes
  q : Q
  w3 : Bytes
  deriving DecidableEq, Repr

/-- An element, and the blanks behind the comma that follows it. -/
structure Elem where
  name : Bytes
  weight : Option Weight
  gap : Bytes
  deriving DecidableEq, Repr

/-- Names have visible characters without comma and semicolon.  (Names of exactly 20 characters are excluded: they
overflow a buffer.) -/
structure Elem.Ok (e : Elem) : Prop where
  ne : e.name ≠ []
  chars : ∀ c ∈ e.name, 33 ≤ c ∧ c ≤ 126 ∧ c ≠ 44 ∧ c ≠ 59
  len : e.name.length ≠ 20
  weight : ∀ w, e.weight = some w → Blanks w.w1 ∧ Blanks w.w2 ∧ w.q.Ok ∧ Blanks w.w3
  gap : Blanks e.gap

def weightText : Option Weight → Bytes
  | none => []
  | some w => w.w1 ++ 59 :: (w.w2 ++ b!"q=" ++ w.q.text ++ w.w3)

/-- The text of the field. -/
def text : List Elem → Bytes
  | [] => []
  | [e] => e.name ++ weightText e.weight
  | e :: es => e.name ++ weightText e.weight ++ 44 :: (e.gap ++ text es)

/-- The quality of an element: 1 if none is given. -/
def Elem.quality (e : Elem) : Nat := match e.weight with | none => 1000 | some w => w.q.val

/-- No element without weight follows an element with one. -/
def WeightsLast : List Elem → Prop
  | [] => True
  | e :: es => (e.weight ≠ none → ∀ x ∈ es, x.weight ≠ none) ∧ WeightsLast es

def nameOf : Coding → Bytes
  | .gzip => b!"gzip" | .xgzip => b!"x-gzip" | .deflate => b!"deflate" | .identity => b!"identity" | .br => b!"br"
  | .any => b!"*"

/-- `x` is the (not capital) letter or sign `y` or the capital letter to it. -/
def SameLetter (x y : Nat) : Prop := (¬ (65 ≤ x ∧ x ≤ 90) ∧ x = y) ∨ (65 ≤ x ∧ x ≤ 90 ∧ y = x + 32)

def SameLetters : Bytes → Bytes → Prop
  | [], [] => True
  | x :: a, y :: b => SameLetter x y ∧ SameLetters a b
  | _, _ => False

/-- `n` names the coding `k`, whatever the case of its letters. -/
def Named (n : Bytes) (k : Coding) : Prop := SameLetters n (nameOf k)

/-- The request's first field named Accept-Encoding (no earlier field begins with that name) has the value written from
the elements `es`. -/
def Field (hs : List (Bytes × Bytes)) (es : List Elem) : Prop :=
  ∃ pre post, hs = pre ++ (b!"accept-encoding", text es) :: post ∧ ∀ h ∈ pre, ¬ b!"accept-encoding" <+: h.1

end Fly.Encode
