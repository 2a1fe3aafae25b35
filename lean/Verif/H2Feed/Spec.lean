import Verif.H2Feed.Model
import Verif.H2Frame.Spec

/-! # Frames and how they are cut into reads -/

namespace Fly.H2Feed

open Buffer (Cursor)

/-- The bytes of a frame, RFC 9113, 4.1. -/
def Raw.bytes (f : Raw) : Bytes := H2.wireHeader f.payload.length f.type f.flags false f.sid ++ f.payload

/-- A frame a client may send: not longer than agreed. -/
def Raw.Fits (max : Nat) (f : Raw) : Prop := f.sid < 2 ^ 31 ∧ f.payload.length ≤ max

/-- What a client sends with these frames. -/
def stream (fs : List Raw) : Bytes := (fs.map Raw.bytes).flatten

/-- The buffer keeps the bytes, in any pieces, and there is memory behind them. -/
def Keeps (lay : Bytes → Cursor) : Prop :=
  ∀ b, (lay b).cur ≠ [] ∧ (∀ p ∈ (lay b).rest, p ≠ []) ∧ ∃ behind, behind ≠ [] ∧ (lay b).cur ++ (lay b).rest.flatten = b ++ behind

end Fly.H2Feed
