import Verif.Lang.Model

/-! # Accept-Language and Accept-Charset as a client writes them (RFC 9110, 12.4.2, 12.5.2, 12.5.4) -/

namespace Fly.Lang
open Fly.Encode (Q)

/-- Blanks: spaces and tabs, or spaces only. -/
def Blanks (tabs : Bool) (w : Bytes) : Prop := ∀ c ∈ w, c = 32 ∨ (tabs = true ∧ c = 9)

/-- A weight `;q=…`, with the blanks around the semicolon. -/
structure Weight where
  w1 : Bytes
  w2 : Bytes
  q : Q
  deriving DecidableEq, Repr

/-- An element, and the blanks (and empty elements) behind the comma that follows it. -/
structure Elem where
  name : Bytes
  weight : Option Weight
  gap : Bytes
  deriving DecidableEq, Repr

/-- A character of a name: visible, neither comma nor semicolon. -/
def NameChar (c : Nat) : Prop := 33 ≤ c ∧ c ≤ 126 ∧ c ≠ 44 ∧ c ≠ 59

/-- Well-formed, with blanks at the places at which the code allows them: not in front of a comma. -/
structure Elem.Ok (tabs : Bool) (e : Elem) : Prop where
  ne : e.name ≠ []
  chars : ∀ c ∈ e.name, NameChar c
  weight : ∀ w, e.weight = some w → Blanks tabs w.w1 ∧ Blanks tabs w.w2 ∧ w.q.Ok
  gap : ∀ c ∈ e.gap, c = 44 ∨ c = 32 ∨ (tabs = true ∧ c = 9)

def weightText : Option Weight → Bytes
  | none => []
  | some w => w.w1 ++ 59 :: (w.w2 ++ b!"q=" ++ w.q.text)

def Elem.text (e : Elem) : Bytes := e.name ++ weightText e.weight

/-- The text of the field. -/
def text : List Elem → Bytes
  | [] => []
  | [e] => e.text
  | e :: es => e.text ++ 44 :: (e.gap ++ text es)

/-- The quality in thousandths; 1 if none is written. -/
def Elem.quality (e : Elem) : Nat := match e.weight with | none => 1000 | some w => w.q.val

/-- The list a client means. -/
def meant (es : List Elem) : List Acc := es.map fun e => ⟨e.name, e.quality⟩

/-- The two header fields. -/
inductive Field where
  | language | charset
  deriving DecidableEq, Repr

def Field.name : Field → Bytes
  | .language => b!"accept-language"
  | .charset => b!"accept-charset"

/-- Bytes reserved for a name (lang.h: `lname[10]`, charset.h: `cname[30]`). -/
def Field.size : Field → Nat
  | .language => 10
  | .charset => 30

/-- May tabs stand for blanks? -/
def Field.tabs : Field → Bool
  | .language => true
  | .charset => false

/-- The code that handles the field. -/
def Field.code : Field → Kind
  | .language => lang
  | .charset => Lang.charset

/-- Commas and blanks behind the last element. -/
def Trail (tabs : Bool) (t : Bytes) : Prop := t = [] ∨ ∃ g, t = 44 :: g ∧ ∀ c ∈ g, c = 44 ∨ c = 32 ∨ (tabs = true ∧ c = 9)

/-- No run of `n` characters of names. -/
def NoLongName (n : Nat) (v : Bytes) : Prop := ∀ a w b, v = a ++ w ++ b → w.length = n → ∃ c ∈ w, ¬ NameChar c

/-- The fields of a request whose first field with this name has this value. -/
def FirstField (name value : Bytes) (hs : List (Bytes × Bytes)) : Prop :=
  ∃ pre post, hs = pre ++ (name, value) :: post ∧ ∀ h ∈ pre, h.1 ≠ name

end Fly.Lang
