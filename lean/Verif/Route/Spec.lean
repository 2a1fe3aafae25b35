import Verif.Route.Model

/-! # What a user expects from routes -/

namespace Fly.Route
open Req (Method alpha numeral)

/-- The segments of a path: the texts between its slashes. -/
def segs : Bytes → List Bytes
  | [] => [[]]
  | c :: r =>
    if c = 47 then [] :: segs r
    else match segs r with
      | [] => [[c]]
      | s :: t => (c :: s) :: t

/-- A segment of a route's path that is a parameter: `{…}`. -/
def IsParam (p : Bytes) : Prop := ∃ x, p = 123 :: x ++ [125]

/-- A segment of the request fits a segment of the route: any non-empty text fits a parameter. -/
def SegFits (p s : Bytes) : Prop := (IsParam p ∧ s ≠ []) ∨ (¬ IsParam p ∧ p = s)

/-- The lists of segments fit one by one. -/
def AllFit : List Bytes → List Bytes → Prop
  | [], [] => True
  | p :: ps, s :: ss => SegFits p s ∧ AllFit ps ss
  | _, _ => False

/-- The request path `u` fits the route's path. -/
def Fits (pat u : Bytes) : Prop := AllFit (segs pat) (segs u)

/-- `r` is the first element of `rs` satisfying `P`. -/
def First (P : Route → Prop) (rs : List Route) (r : Route) : Prop :=
  ∃ before after, rs = before ++ r :: after ∧ P r ∧ ∀ x ∈ before, ¬ P x

/-- The lookup is the one the user expects. -/
def LooksUp (P : Route → Prop) (rs : List Route) : Option (Option Route) → Prop
  | none => False
  | some none => ∀ x ∈ rs, ¬ P x
  | some (some r) => First P rs r

/-- Registering a list of routes one after the other; a failing registration changes nothing. -/
def registerAll : List Route → List (Bytes × Method × Nat) → List Route
  | rs, [] => rs
  | rs, (u, m, f) :: t =>
    match register rs u m f with
    | .ok rs' => registerAll rs' t
    | .error _ => registerAll rs t

/-- A path without parameters. -/
def Plain (p : Bytes) : Prop := (123 : Nat) ∉ p

/-- A path whose last segment is its only parameter. -/
def LastOnly (p : Bytes) : Prop :=
  ∃ pre x, p = pre ++ 47 :: 123 :: x ++ [125] ∧ (123 : Nat) ∉ pre ∧ (47 : Nat) ∉ x ∧ (123 : Nat) ∉ x

/-- A path with a parameter somewhere before its last segment: a slash follows its first `{`. -/
def ParamBeforeLast (p : Bytes) : Prop :=
  ∃ pre rest, p = pre ++ 123 :: rest ∧ (123 : Nat) ∉ pre ∧ (47 : Nat) ∈ rest

/-- How a parameter is written in a path. -/
structure Written where
  before : Bytes
  name : Bytes
  type : Option PType

def typeName : PType → Bytes
  | .int => b!"int" | .float => b!"float" | .bool => b!"bool" | .str => b!"str"

/-- The text of a list of parameters and the literal texts around them. -/
def writePath : List Written → Bytes → Bytes
  | [], tail => tail
  | w :: ws, tail =>
    w.before ++ [123] ++ w.name ++ (match w.type with | none => [] | some t => 58 :: typeName t) ++ [125]
      ++ writePath ws tail

def NameOk : Bytes → Prop
  | [] => False
  | c :: r => (alpha c = true ∨ c = 95) ∧ ∀ x ∈ r, alpha x = true ∨ numeral x = true ∨ x = 95

/-- Spaces and tabs. -/
def Blanks (b : Bytes) : Prop := ∀ c ∈ b, c = 32 ∨ c = 9

/-- The written type of a parameter, with blanks before it. -/
def typeText (b : Bytes) : Option PType → Bytes
  | none => []
  | some t => 58 :: (b ++ typeName t)

/-- A segment of a route's path: a text or a parameter. -/
inductive Seg where
  | text (s : Bytes)
  | param (inner : Bytes)

def Seg.written : Seg → Bytes
  | .text s => s
  | .param x => 123 :: x ++ [125]

/-- A text stands for itself, a parameter for any text that is not empty. -/
def SegRight : Seg → Bytes → Prop
  | .text s, v => v = s ∧ (123 : Nat) ∉ s
  | .param _, v => v ≠ []

/-- A segment and what stands at its place. -/
def SegOk (x : Seg × Bytes) : Prop := (47 : Nat) ∉ x.1.written ∧ (47 : Nat) ∉ x.2 ∧ SegRight x.1 x.2

/-- A path of segments, each behind a slash. -/
def joined (l : List Bytes) : Bytes := l.flatMap fun s => 47 :: s

/-- The values of the parameters: what stands at their places. -/
def paramValues : List (Seg × Bytes) → List Bytes
  | [] => []
  | (.text _, _) :: l => paramValues l
  | (.param _, v) :: l => v :: paramValues l

/-- Names of methods. -/
def methodName : Method → Bytes
  | .get => b!"GET" | .head => b!"HEAD" | .post => b!"POST" | .put => b!"PUT" | .delete => b!"DELETE"
  | .connect => b!"CONNECT" | .options => b!"OPTIONS" | .trace => b!"TRACE" | .patch => b!"PATCH"

/-- The text of a comma separated list. -/
inductive ListText : List Method → Bytes → Prop where
  | one (m : Method) : ListText [m] (methodName m)
  | cons (m : Method) (l : List Method) (t : Bytes) : ListText l t → ListText (m :: l) (methodName m ++ b!", " ++ t)

end Fly.Route
