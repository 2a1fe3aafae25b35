import Verif.Request.Spec
import Verif.Header.Model

/-! # What RFC 9113 8.3.1 says of requests -/

namespace Fly.H2R

open Req (Method methodName)

/-- A header field as sent: name and value. -/
abbrev Field := Bytes × Bytes

/-- The cells of the header list hold these fields (no distinction of absent and empty). -/
def Holds (cells : List Header.HField) (fs : List Field) : Prop :=
  cells.map (fun f => (f.name.getD [], f.value.getD [])) = fs

/-- A regular field: its name does not begin with a colon. -/
def Regular (f : Field) : Prop := f.1.head? ≠ some 58

/-- The pseudo-header fields of a request, in any order. -/
def PseudoFields (ps : List Field) (m : Method) (scheme target : Bytes) : Prop :=
  ps.Perm [(b!":method", methodName m), (b!":scheme", scheme), (b!":path", target)] ∨
  ∃ a, ps.Perm [(b!":method", methodName m), (b!":scheme", scheme), (b!":path", target), (b!":authority", a)]

/-- A well-formed request: its pseudo-header fields, then regular ones. -/
def WellFormed (fs : List Field) (m : Method) (https : Bool) (target : Bytes) : Prop :=
  ∃ ps rs, fs = ps ++ rs ∧ PseudoFields ps m (if https then b!"https" else b!"http") target ∧ ∀ f ∈ rs, Regular f

/-- A field with a name that can be a C string. -/
def Named (f : Field) : Prop := f.1 ≠ [] ∧ 0 ∉ f.1

/-- A field that does not make the server negotiate. -/
def NoAccept (f : Field) : Prop := ¬ b!"accept" <+: f.1 ∧ f.1 ≠ b!"Accept"

/-- A field that does not describe the body but for its length. -/
def NoContent (f : Field) : Prop := f.1 ≠ b!"content-type" ∧ f.1 ≠ b!"Content-Type" ∧ f.1 ≠ b!"content-encoding"

/-- A field that does not say how long the body is. -/
def NoLength (f : Field) : Prop := f.1 ≠ b!"content-length" ∧ f.1 ≠ b!"Content-Length"

/-- A path of RFC 3986 without percent-encoding. -/
def PlainPath (p : Bytes) : Prop := p.head? = some 47 ∧ ∀ c ∈ p, Req.PathByte c

/-- No query or a query of RFC 3986, not empty and without percent-encoding. -/
def PlainQuery (q : Option Bytes) : Prop := ∀ x, q = some x → x ≠ [] ∧ ∀ c ∈ x, Req.QueryByte c

end Fly.H2R
