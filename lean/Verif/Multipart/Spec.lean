import Verif.Basic

/-! # Multipart bodies as clients write them (RFC 7578, RFC 2046) -/

namespace Fly.Multipart.Spec

/-- A part of a form: header fields and content. -/
abbrev Part := List (Bytes × Bytes) × Bytes

def line (f : Bytes × Bytes) : Bytes := f.1 ++ b!": " ++ f.2 ++ b!"\r\n"

/-- What follows a boundary: a part and the next boundary, or the two final hyphens. -/
def after (bd : Bytes) (epilogue : Bytes) : List Part → Bytes
  | [] => b!"--" ++ epilogue
  | p :: ps => b!"\r\n" ++ p.1.flatMap line ++ b!"\r\n" ++ p.2 ++ b!"\r\n--" ++ bd ++ after bd epilogue ps

/-- The whole body; a preamble, if any, ends with a line break. -/
def encode (bd : Bytes) (preamble : Option Bytes) (epilogue : Bytes) (ps : List Part) : Bytes :=
  (match preamble with | none => [] | some p => p ++ b!"\r\n") ++ b!"--" ++ bd ++ after bd epilogue ps

/-- A header field of a part (RFC 7578, 4.8: only fields whose names begin with `Content-`). -/
def GoodField (f : Bytes × Bytes) : Prop :=
  (∃ n, f.1 = b!"Content-" ++ n) ∧ 32 ∉ f.1 ∧ 9 ∉ f.1 ∧ 58 ∉ f.1 ∧ 13 ∉ f.2 ∧ f.2.head? ≠ some 32 ∧ f.2.head? ≠ some 9

/-- The delimiter does not occur in the text. -/
def Free (bd : Bytes) (t : Bytes) : Prop := ¬ (b!"--" ++ bd) <:+: t

def GoodPart (bd : Bytes) (p : Part) : Prop := (∀ f ∈ p.1, GoodField f) ∧ Free bd p.2

/-- A boundary: not empty, no CR or LF (as every header value). -/
def GoodBoundary (bd : Bytes) : Prop := bd ≠ [] ∧ 13 ∉ bd ∧ 10 ∉ bd

/-! ## Fields with other blanks

Clients may write any number of blanks and tabs around the colon of a header field, also none. -/

/-- A header field as it is written. -/
structure Written where
  name : Bytes
  before : Bytes
  behind : Bytes
  value : Bytes

def Written.field (w : Written) : Bytes × Bytes := (w.name, w.value)

def Written.line (w : Written) : Bytes := w.name ++ w.before ++ b!":" ++ w.behind ++ w.value ++ b!"\r\n"

def Written.Good (w : Written) : Prop :=
  GoodField w.field ∧ (∀ c ∈ w.before, c = 32 ∨ c = 9) ∧ (∀ c ∈ w.behind, c = 32 ∨ c = 9)

/-- A part as it is written. -/
abbrev WPart := List Written × Bytes

/-- The part that is meant. -/
def meant (p : WPart) : Part := (p.1.map Written.field, p.2)

def afterW (bd : Bytes) (epilogue : Bytes) : List WPart → Bytes
  | [] => b!"--" ++ epilogue
  | p :: ps => b!"\r\n" ++ p.1.flatMap Written.line ++ b!"\r\n" ++ p.2 ++ b!"\r\n--" ++ bd ++ afterW bd epilogue ps

/-- The whole body. -/
def encodeW (bd : Bytes) (preamble : Option Bytes) (epilogue : Bytes) (ps : List WPart) : Bytes :=
  (match preamble with | none => [] | some p => p ++ b!"\r\n") ++ b!"--" ++ bd ++ afterW bd epilogue ps

def GoodWPart (bd : Bytes) (p : WPart) : Prop := (∀ w ∈ p.1, w.Good) ∧ Free bd p.2

end Fly.Multipart.Spec
