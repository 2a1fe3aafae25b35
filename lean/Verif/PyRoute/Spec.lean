import Verif.Basic

/-!
# Specification vocabulary for the route table and the route handlers

Nothing here refers to the model.
-/

namespace Fly.PyRoute.Spec

/-- One `//` somewhere in the text is replaced by `/`. -/
inductive Squeeze1 : List Nat → List Nat → Prop
  | mk (a b : List Nat) : Squeeze1 (a ++ 47 :: 47 :: b) (a ++ 47 :: b)

/-- Any number of such replacements. -/
inductive Squeezes : List Nat → List Nat → Prop
  | refl (a : List Nat) : Squeezes a a
  | step {a b c : List Nat} : Squeeze1 a b → Squeezes b c → Squeezes a c

/-- No two slashes next to each other. -/
def NoDouble (s : List Nat) : Prop := ¬ ∃ a b, s = a ++ 47 :: 47 :: b

/-- A path as it is stored: begins with a slash, one line, no repeated slashes. -/
def StoredPath (s : List Nat) : Prop := (∃ r, s = 47 :: r) ∧ 10 ∉ s ∧ NoDouble s

/-- `stored` is the path meant by the text `given`: the text is a single line beginning with a slash
(a final newline is forgiven) and `stored` is what is left when repeated slashes are collapsed. -/
def PathOf (given stored : List Nat) : Prop :=
  ∃ t, (given = t ∨ given = t ++ [10]) ∧ (∃ r, t = 47 :: r) ∧ 10 ∉ t ∧
    Squeezes t stored ∧ NoDouble stored

/-- ASCII upper case. -/
def up (c : Nat) : Nat := if 97 ≤ c ∧ c ≤ 122 then c - 32 else c

/-- Two header names are the same, disregarding case. -/
def SameName (a b : List Nat) : Prop := a.map up = b.map up

/-- The entries at even positions are dropped: what is left of a list when one removes the first,
keeps the second, removes the third and so on. -/
def everySecond {α : Type} : List α → List α
  | [] => []
  | [_] => []
  | _ :: b :: l => b :: everySecond l

/-- The CORS headers a configuration asks for (names and values): the origin always, lists when they
are not empty, joined by commas, and the credentials flag when it is set. -/
def corsWanted (origin : List Nat) (methods allow expose : List (List Nat)) (credentials : Bool) :
    List (List Nat × List Nat) :=
  (b!"Access-Control-Allow-Origin", origin) ::
    ((([(b!"Access-Control-Allow-Methods", methods), (b!"Access-Control-Allow-Headers", allow),
        (b!"Access-Control-Expose-Headers", expose)].filter (fun p => !p.2.isEmpty)).map
        (fun p => (p.1, [44].intercalate p.2))) ++
     [(b!"Access-Control-Allow-Credentials", b!"true")].filter (fun _ => credentials))

end Fly.PyRoute.Spec
