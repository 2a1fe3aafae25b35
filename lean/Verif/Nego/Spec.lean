import Verif.Encode.Spec
import Verif.Mime.Spec
import Verif.Lang.Spec

/-! # What a client says about the forms of a response it accepts (RFC 9110, 12.5) -/

namespace Fly.Nego
open Encode (Coding Named WeightsLast)

/-- The wishes of a client: content codings, media ranges, character sets, languages; `none` where it does not say anything. -/
structure Wish where
  codings : Option (List Encode.Elem)
  media : Option (List Mime.Range)
  charsets : Option (List Lang.Elem)
  languages : Option (List Lang.Elem)
  deriving DecidableEq, Repr

/-- The fields say this of content codings, in a form the server understands (see C27): all elements with weight come behind those without. -/
def SaysCodings (fs : List (Bytes × Bytes)) : Option (List Encode.Elem) → Prop
  | none => ∀ x ∈ fs, ¬ b!"accept-encoding" <+: x.1
  | some es => Encode.Field fs es ∧ es ≠ [] ∧ (∀ e ∈ es, e.Ok) ∧ WeightsLast es

/-- The fields say this of media ranges, in a form the server understands (see C29). -/
def SaysMedia (fs : List (Bytes × Bytes)) : Option (List Mime.Range) → Prop
  | none => ∀ x ∈ fs, x.1 ≠ b!"Accept" ∧ x.1 ≠ b!"accept"
  | some rs => ∃ l r trail, rs = l.map (·.1) ++ [r] ∧ Mime.PrefixOk l ∧ r.Ok ∧ (trail = [] ∨ r.Closed ∧ ∃ g, Mime.Gap g ∧ trail = 44 :: g) ∧
      Mime.FirstAccept (Mime.prefixText l ++ r.text ++ trail) fs

/-- The fields say this of character sets or languages, in a form the server understands (see C74). -/
def SaysTags (f : Lang.Field) (fs : List (Bytes × Bytes)) : Option (List Lang.Elem) → Prop
  | none => ∀ x ∈ fs, x.1 ≠ f.name
  | some es => es ≠ [] ∧ (∀ e ∈ es, e.Ok f.tabs ∧ e.name.length < f.size) ∧
      ∃ trail, Lang.Trail f.tabs trail ∧ Lang.FirstField f.name (Lang.text es ++ trail) fs

/-- The header fields, with names in lower case, say this. -/
structure Says (fs : List (Bytes × Bytes)) (w : Wish) : Prop where
  codings : SaysCodings fs w.codings
  media : SaysMedia fs w.media
  charsets : SaysTags .charset fs w.charsets
  languages : SaysTags .language fs w.languages

/-- There is something the client does not refuse: of each kind it speaks of, one element with more quality than the smallest ones (0.01 for codings and media
ranges).  Content codings that are all unknown to the server do not count. -/
def Wish.Met (w : Wish) : Prop :=
  (∀ es, w.codings = some es → (∃ e ∈ es, ∃ k, Named e.name k ∧ 10 ≤ e.quality) ∨ ∀ e ∈ es, ∀ k, ¬ Named e.name k) ∧
  (∀ rs, w.media = some rs → ∃ r ∈ rs, 10 ≤ r.quality) ∧
  (∀ es, w.charsets = some es → ∃ e ∈ es, 0 < e.quality) ∧
  (∀ es, w.languages = some es → ∃ e ∈ es, 0 < e.quality)

/-- `x-gzip` is another name of `gzip` (RFC 9110, 8.4.1.3). -/
def Same (k k' : Coding) : Prop := k = k' ∨ (k = .gzip ∧ k' = .xgzip) ∨ (k = .xgzip ∧ k' = .gzip)

/-- The client takes contents in this coding: it says nothing of codings, or names it, or, for gzip, all codings, with a quality of 0.01 or more. -/
def Wish.Takes (w : Wish) (k : Coding) : Prop :=
  ∀ es, w.codings = some es → (∃ e ∈ es, ∃ k', Same k k' ∧ Named e.name k' ∧ 10 ≤ e.quality) ∨ (k = .gzip ∧ ∃ e ∈ es, Named e.name .any ∧ 10 ≤ e.quality)

/-- The client names this coding with a quality below 0.01. -/
def Wish.Refuses (w : Wish) (k : Coding) : Prop := ∃ es, w.codings = some es ∧ ∃ e ∈ es, ∃ k', Same k k' ∧ Named e.name k' ∧ e.quality < 10

/-- The client says, in a form the server understands, what it takes, and does not refuse everything. -/
def Agreeable (fs : List (Bytes × Bytes)) : Prop := ∃ w, Says fs w ∧ w.Met

/-- The client says nothing. -/
def Wish.nothing : Wish := ⟨none, none, none, none⟩

end Fly.Nego
