import Verif.H2Body.Model

/-! # What the client of an HTTP/2 response is owed -/

namespace Fly.H2B

open Send (Sys)

/-- The connection takes bytes or blocks, as it likes, but does not fail. -/
def Calm (ss : List Sys) : Prop := ∀ s ∈ ss, s ≠ .intr ∧ s ≠ .fail

/-- How many calls took something. -/
def takes : List Sys → Nat
  | [] => 0
  | .sent (_ + 1) :: ss => takes ss + 1
  | _ :: ss => takes ss

/-- Over a calm connection exactly these bytes are sent, in order, whatever pieces it takes them in, and all of them if the connection
goes on taking. -/
def Delivers (run : List Sys → Run) (what : Bytes) : Prop :=
  ∀ ss, Calm ss →
    ((run ss).st = .done ∧ (run ss).out = what) ∨
    ((run ss).st = .more ∧ (run ss).out <+: what ∧ takes ss < what.length)

/-- The response announces and sends `what`: `content-length`, the length of the DATA frame and the payload agree. -/
def Right (tls : Bool) (disk : Bytes) (p : Plan) (what : Bytes) : Prop :=
  p.contentLength = what.length ∧ p.len = what.length ∧ Delivers (payload tls disk p) what

end Fly.H2B
