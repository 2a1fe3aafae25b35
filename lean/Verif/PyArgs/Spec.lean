import Verif.Basic

/-!
# Specification vocabulary for cookies, query strings, forms and handler arguments

Nothing here refers to the model.
-/

namespace Fly.PyArgs.Spec

/-- A Unicode scalar value. -/
def Scalar (c : Nat) : Prop := c < 0x110000 ∧ ¬ (0xD800 ≤ c ∧ c ≤ 0xDFFF)

/-- UTF-8 (RFC 3629, section 3). -/
def enc (c : Nat) : List Nat :=
  if c < 0x80 then [c]
  else if c < 0x800 then [192 + c / 64, 128 + c % 64]
  else if c < 0x10000 then [224 + c / 4096, 128 + c / 64 % 64, 128 + c % 64]
  else [240 + c / 262144, 128 + c / 4096 % 64, 128 + c / 64 % 64, 128 + c % 64]
def utf8 (s : List Nat) : List Nat := s.flatMap enc

/-- `c` is a hexadecimal digit of value `x`, in either case. -/
def HexOf (x c : Nat) : Prop := (x ≤ 9 ∧ c = 48 + x) ∨ (10 ≤ x ∧ x ≤ 15 ∧ (c = 55 + x ∨ c = 87 + x))

/-- `t` is a percent-encoding of the bytes `bs`: a byte is written as itself if `lit` allows it, or
as `%` and two hexadecimal digits; a space may be written `+` if `plus` is set. -/
inductive Pct (lit : Nat → Prop) (plus : Bool) : List Nat → List Nat → Prop
  | nil : Pct lit plus [] []
  | lit {b : Nat} {bs t : List Nat} : lit b → Pct lit plus bs t → Pct lit plus (b :: bs) (b :: t)
  | pct {x y h l : Nat} {bs t : List Nat} : HexOf x h → HexOf y l → Pct lit plus bs t →
      Pct lit plus ((16 * x + y) :: bs) (37 :: h :: l :: t)
  | plus {bs t : List Nat} : plus = true → Pct lit plus bs t → Pct lit plus (32 :: bs) (43 :: t)

/-- Characters a query may contain as themselves: ASCII except `%`, `&` and `=`. -/
def QueryLit (b : Nat) : Prop := b < 128 ∧ b ≠ 37 ∧ b ≠ 38 ∧ b ≠ 61

/-- The same for forms, where `+` means a space. -/
def FormLit (b : Nat) : Prop := b < 128 ∧ b ≠ 37 ∧ b ≠ 38 ∧ b ≠ 61 ∧ b ≠ 43

/-- A name and a value with the texts that stand for them in an encoded string. -/
structure Field where
  name : List Nat
  value : List Nat
  tname : List Nat
  tvalue : List Nat

/-- The texts are encodings of the UTF-8 bytes of name and value. -/
def Field.Ok (lit : Nat → Prop) (plus : Bool) (f : Field) : Prop :=
  (∀ c ∈ f.name, Scalar c) ∧ (∀ c ∈ f.value, Scalar c) ∧
  Pct lit plus (utf8 f.name) f.tname ∧ Pct lit plus (utf8 f.value) f.tvalue

/-- `name=value&name=value…`. -/
def Field.join (fs : List Field) : List Nat :=
  [38].intercalate (fs.map (fun f => f.tname ++ 61 :: f.tvalue))

/-- The text does not begin or end with white space (nor with rarer characters below U+3001). -/
def Trimmed (s : List Nat) : Prop :=
  (∀ c, s.head? = some c → (33 ≤ c ∧ c ≤ 126) ∨ 0x3001 ≤ c) ∧
  (∀ c, s.getLast? = some c → (33 ≤ c ∧ c ≤ 126) ∨ 0x3001 ≤ c)

/-- What one character of a parameter name stands for: letters of any case for the small letter,
hyphens and underscores for the underscore. -/
def nameChar (c : Nat) : Nat :=
  if c = 45 then 95 else if 65 ≤ c ∧ c ≤ 90 then c + 32 else c

/-- The name `n` in a request stands for the parameter `p`. -/
def Matches (n p : List Nat) : Prop := n.map nameChar = p

/-- `v` is what the first entry for the parameter `p` has. -/
def First {α : Type} (l : List (List Nat × α)) (p : List Nat) (v : α) : Prop :=
  ∃ a n b, l = a ++ (n, v) :: b ∧ Matches n p ∧ ∀ x ∈ a, ¬ Matches x.1 p

/-- No entry is for the parameter `p`. -/
def Absent {α : Type} (l : List (List Nat × α)) (p : List Nat) : Prop := ∀ x ∈ l, ¬ Matches x.1 p

/-- The parts of a `Set-Cookie` value a caller asks for, in order (RFC 6265, section 4.1). -/
def cookieParts (name value : List Nat) (maxAge : Option (List Nat)) (secure httpOnly : Bool)
    (domain path sameSite : Option (List Nat)) : List (List Nat) :=
  [name ++ 61 :: value] ++ (maxAge.toList.map (b!"Max-Age=" ++ ·)) ++
  (if secure then [b!"Secure"] else []) ++ (if httpOnly then [b!"HttpOnly"] else []) ++
  (domain.toList.map (b!"Domain=" ++ ·)) ++ (path.toList.map (b!"Path=" ++ ·)) ++
  (sameSite.toList.map (b!"SameSite=" ++ ·))

/-- The pieces of a text between semicolons. -/
inductive Pieces (sep : Nat) : List Nat → List (List Nat) → Prop
  | last {s : List Nat} : sep ∉ s → Pieces sep s [s]
  | more {s t : List Nat} {ps : List (List Nat)} : sep ∉ s → Pieces sep t ps →
      Pieces sep (s ++ sep :: t) (s :: ps)

/-- `SameSite` as RFC 6265bis writes it. -/
def sameSiteText : Nat → List Nat
  | 0 => b!"Strict" | 1 => b!"Lax" | _ => b!"None"

/-- Decimal digits with single underscores between them, and the number they denote (Python's
language reference, 2.4.5 and `int`). -/
inductive Digits : List Nat → Nat → Prop
  | one {d : Nat} : d ≤ 9 → Digits [48 + d] d
  | more {s : List Nat} {n d : Nat} : Digits s n → d ≤ 9 → Digits (s ++ [48 + d]) (10 * n + d)
  | under {s : List Nat} {n d : Nat} : Digits s n → d ≤ 9 → Digits (s ++ [95, 48 + d]) (10 * n + d)

/-- The texts that denote an integer. -/
inductive IntText : List Nat → Int → Prop
  | plain {s : List Nat} {n : Nat} : Digits s n → IntText s n
  | plus {s : List Nat} {n : Nat} : Digits s n → IntText (43 :: s) n
  | minus {s : List Nat} {n : Nat} : Digits s n → IntText (45 :: s) (-n)

end Fly.PyArgs.Spec
