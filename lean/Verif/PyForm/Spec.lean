import Verif.PyForm.Model
import Verif.PyArgs.Spec
import Verif.Multipart.Spec

/-! # What annotated parameters and forms should give -/

namespace Fly.PyForm.Spec

open Fly.PyArgs Fly.PyArgs.Spec

/-- The entry of the request an annotation reads. -/
def entry : Ann → Option (List Nat)
  | .header => some b!"header"
  | .cookie => some b!"cookie"
  | .path => some b!"path_params"
  | .query => some b!"query"
  | .body => some b!"body"
  | _ => none

/-- The text found under the parameter's name in a list, or `None`: the first entry counts. -/
def TextOf (l : List (List Nat × Option (List Nat))) (p : List Nat) (a : Arg) : Prop :=
  (∃ s, First l p (some s) ∧ a = .val (.str s)) ∨ ((Absent l p ∨ First l p none) ∧ a = .none)

/-- What a parameter `p` with this annotation should be given. -/
def Gets (fl : Str → Bool) (r : Req) (p : List Nat) : Ann → Arg → Prop
  | .header, a => TextOf (r.header.map (fun h => (h.1, some h.2))) p a
  | .cookie, a => TextOf (parseCookie r.cookies) p a
  | .query, a => TextOf ((r.query.map parseQuery).getD []) p a
  | .body, a => (∃ b, r.body = some b ∧ a = .body b) ∨ (r.body = none ∧ a = .none)
  | .path, a =>
      (Absent (r.path.map (fun q => (q.param, q.type, q.value))) p ∧ a = .none) ∨
      ∃ t s, First (r.path.map (fun q => (q.param, q.type, q.value))) p (t, s) ∧
        match t with
        | .int => ∃ n, pyInt s = some n ∧ a = .val (.int n)
        | .float => fl s = true ∧ a = .val (.float s)
        | .bool => a = .val (.bool (s ≠ []))
        | .str => a = .val (.str s)
  | _, _ => True

/-- The dictionary src/pyserver.c makes: the entries that are there. -/
def Whole (r : Req) : Prop :=
  b!"header" ∈ r.keys ∧ b!"query" ∈ r.keys ∧ (r.path ≠ [] → b!"path_params" ∈ r.keys) ∧
  (r.body ≠ none → b!"body" ∈ r.keys)

instance (r : Req) : Decidable (Whole r) := by unfold Whole; infer_instance

/-! ## Multipart forms (RFC 7578) -/

/-- A field of a form: its name, the file's name and the content type if there are any, and the content. -/
structure FormField where
  name : List Nat
  file : Option (List Nat)
  type : Option (List Nat)
  content : List Nat
  deriving DecidableEq

/-- `form-data; name="…"` and, for files, `; filename="…"`. -/
def disposition (f : FormField) : List Nat :=
  b!"form-data; name=\"" ++ f.name ++ b!"\"" ++
  (match f.file with | some n => b!"; filename=\"" ++ n ++ b!"\"" | none => [])

/-- The part of the body for the field, as browsers write it; texts are UTF-8. -/
def wire (f : FormField) : Multipart.Spec.Part :=
  ((b!"Content-Disposition", utf8 (disposition f)) ::
    (match f.type with | some t => [(b!"Content-Type", t)] | none => []), f.content)

/-- Names that need no quoting: no quotes, no line breaks; file names without line breaks. -/
def PlainName (n : List Nat) : Prop := 34 ∉ n ∧ 39 ∉ n ∧ 10 ∉ n ∧ 13 ∉ n ∧ ∀ c ∈ n, Scalar c

def PlainField (f : FormField) : Prop :=
  PlainName f.name ∧ (∀ n, f.file = some n → 10 ∉ n ∧ 13 ∉ n ∧ ∀ c ∈ n, Scalar c) ∧
  (∀ t, f.type = some t → (∀ c ∈ t, 32 < c ∧ c < 128))

/-- Two names are the same but for the case of their letters. -/
def SameName (a b : List Nat) : Prop :=
  a.length = b.length ∧ ∀ (i x y : Nat), a[i]? = some x → b[i]? = some y →
    x = y ∨ (65 ≤ x ∧ x ≤ 90 ∧ y = x + 32) ∨ (65 ≤ y ∧ y ≤ 90 ∧ x = y + 32)

end Fly.PyForm.Spec
