import Verif.Session.Model
import Verif.PyArgs.Spec

/-! # A client's cookies (RFC 6265, sections 5.2 to 5.4), for one host, one path and first-party requests

Nothing here but the arguments of `set_cookie` (`Cookie`) refers to the model. -/

namespace Fly.Session
open Fly.PyArgs (Str Cookie)

/-- The texts between the separators. -/
def pieces (sep : Nat) : Str → List Str
  | [] => [[]]
  | x :: xs =>
    if x = sep then [] :: pieces sep xs
    else match pieces sep xs with
      | [] => [[x]]
      | p :: ps => (x :: p) :: ps

/-- Everything before the first separator, and everything behind it. -/
def cutAt (sep : Nat) : Str → Str × Option Str
  | [] => ([], none)
  | x :: xs => if x = sep then ([], some xs) else (x :: (cutAt sep xs).1, (cutAt sep xs).2)

/-- A space or a tab. -/
def wsp (c : Nat) : Bool := c == 32 || c == 9

/-- Without spaces and tabs at the ends. -/
def trim (s : Str) : Str := ((s.dropWhile wsp).reverse.dropWhile wsp).reverse

def digit (c : Nat) : Bool := 48 ≤ c && c ≤ 57

/-- The number digits stand for. -/
def number (s : Str) : Nat := s.foldl (fun n c => 10 * n + (c - 48)) 0

/-- The value of Max-Age (section 5.2.2): digits, perhaps after a minus sign. -/
def age : Str → Option Int
  | [] => none
  | 45 :: ds => if ds ≠ [] ∧ ds.all digit then some (-(number ds : Int)) else none
  | ds => if ds.all digit then some (number ds) else none

def lowerC (c : Nat) : Nat := if 65 ≤ c ∧ c ≤ 90 then c + 32 else c

/-- The lifetime an attribute gives. -/
def attrAge (a : Str) : Option Int :=
  if (trim (cutAt 61 a).1).map lowerC = b!"max-age" then age (trim ((cutAt 61 a).2.getD [])) else none

/-- A stored cookie; `till` is when it expires. -/
structure Entry where
  name : Str
  value : Str
  till : Option Int
  deriving DecidableEq, Repr

/-- Section 5.3: a new cookie takes the place of the one of its name. -/
def put (x : Entry) : List Entry → List Entry
  | [] => [x]
  | y :: l => if y.name = x.name then x :: l else y :: put x l

/-- What the client does with a `Set-Cookie` field received at time `t`: without `=` or without a name it is ignored;
the last lifetime counts; a lifetime that is over removes the cookie. -/
def receive (jar : List Entry) (t : Int) (field : Str) : List Entry :=
  match pieces 59 field with
  | [] => jar
  | first :: attrs =>
    match cutAt 61 first with
    | (_, none) => jar
    | (n, some v) =>
      if trim n = [] then jar
      else
        match (attrs.filterMap attrAge).getLast? with
        | none => put ⟨trim n, trim v, none⟩ jar
        | some a => if a ≤ 0 then jar.filter (fun y => y.name ≠ trim n) else put ⟨trim n, trim v, some (t + a)⟩ jar

/-- The cookies that are not over. -/
def current (jar : List Entry) (t : Int) : List Entry :=
  jar.filter (fun x => match x.till with | none => true | some u => decide (t < u))

/-- The `Cookie` fields of a request at time `t` (section 5.4): one, or none if there is no cookie. -/
def send (jar : List Entry) (t : Int) : List Str :=
  if current jar t = [] then [] else [b!"; ".intercalate ((current jar t).map (fun x => x.name ++ b!"=" ++ x.value))]

/-- What the application set, and when, in order. -/
abbrev History := List (Int × Cookie)

/-- The client after these responses. -/
def client (h : History) : List Entry := h.foldl (fun j e => receive j e.1 (setCookie e.2)) []

/-- The last call of `set_cookie` for a name. -/
def lastSet (h : History) (n : Str) : Option (Int × Cookie) := (h.filter (fun e => e.2.name = n)).getLast?

/-- What the application relies on: the value set last, until its lifetime is over. -/
def wanted (h : History) (n : Str) (t : Int) : Option Str :=
  match lastSet h n with
  | none => none
  | some (t0, c) =>
    match c.maxAge with
    | none => some c.value
    | some a => if t < t0 + a then some c.value else none

/-- Printable characters and no `;` or `=`, no space at the ends. -/
def Plain (s : Str) : Prop := 59 ∉ s ∧ 61 ∉ s ∧ PyArgs.Spec.Trimmed s

/-- A cookie for the host and path it is set from, sent over any connection, with a name and a value without `;` and `=`,
and no lifetime of 0. -/
def Simple (c : Cookie) : Prop :=
  Plain c.name ∧ c.name ≠ [] ∧ Plain c.value ∧ c.maxAge ≠ some 0 ∧ c.secure = false ∧ c.domain = none ∧ c.path = none

end Fly.Session
