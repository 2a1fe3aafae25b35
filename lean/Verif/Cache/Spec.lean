import Verif.Header.Model

/-! # What validators should do -/

namespace Fly.Cache

/-- The field names of RFC 7232, compared without regard to case. -/
def SameName (a b : Bytes) : Prop :=
  a.map (fun c => if 65 ≤ c ∧ c ≤ 90 then c + 32 else c) = b.map (fun c => if 65 ≤ c ∧ c ≤ 90 then c + 32 else c)

/-- The request carries the entity tag of the file in an If-None-Match field. -/
def CarriesTag (fields : List (Bytes × Bytes)) (etag : Bytes) : Prop :=
  ∃ f ∈ fields, SameName f.1 b!"If-None-Match" ∧ f.2 = etag

/-- No byte is an upper-case letter. -/
def NoUpper (s : Bytes) : Prop := ∀ c ∈ s, ¬ (65 ≤ c ∧ c ≤ 90)

/-- Two digests that differ only in bytes that are at least 128 in both. -/
inductive DifferHigh : Bytes → Bytes → Prop where
  | nil : DifferHigh [] []
  | same (b : Nat) (x y : Bytes) : DifferHigh x y → DifferHigh (b :: x) (b :: y)
  | high (a b : Nat) (x y : Bytes) : 128 ≤ a → 128 ≤ b → DifferHigh x y → DifferHigh (a :: x) (b :: y)

/-- A digest: 16 bytes. -/
def Digest (d : Bytes) : Prop := d.length = 16 ∧ ∀ b ∈ d, b < 256

/-- Two hexadecimal digits, small letters. -/
def hexText (b : Nat) : Bytes := [(b!"0123456789abcdef").getD (b / 16) 0, (b!"0123456789abcdef").getD (b % 16) 0]

end Fly.Cache
