import Verif.Request.Model

/-! # Specification of request lines (RFC 3986, RFC 7230), independent of the parser -/

namespace Fly.Req

/-- RFC 3986 2.3: ALPHA / DIGIT / "-" / "." / "_" / "~". -/
def RfcUnreserved (c : Nat) : Prop :=
  (65 ≤ c ∧ c ≤ 90) ∨ (97 ≤ c ∧ c ≤ 122) ∨ (48 ≤ c ∧ c ≤ 57) ∨ c ∈ b!"-._~"

/-- RFC 3986 2.2. -/
def RfcSubDelims (c : Nat) : Prop := c ∈ b!"!$&'()*+,;="

/-- RFC 3986 2.1: HEXDIG. -/
def RfcHex (c : Nat) : Prop := (48 ≤ c ∧ c ≤ 57) ∨ (65 ≤ c ∧ c ≤ 70) ∨ (97 ≤ c ∧ c ≤ 102)

/-- RFC 3986 3.3: the one-byte forms of pchar. -/
def RfcPchar (c : Nat) : Prop := RfcUnreserved c ∨ RfcSubDelims c ∨ c ∈ b!":@"

/-- Bytes of a path: pchar and "/". -/
def PathByte (c : Nat) : Prop := RfcPchar c ∨ c ∈ b!"/"

/-- RFC 3986 3.4: pchar / "/" / "?". -/
def QueryByte (c : Nat) : Prop := RfcPchar c ∨ c ∈ b!"/?"

/-- RFC 3986 3.2.1: unreserved / sub-delims / ":". -/
def UserByte (c : Nat) : Prop := RfcUnreserved c ∨ RfcSubDelims c ∨ c ∈ b!":"

/-- A string of allowed bytes and percent-encoded triples. -/
inductive Chars (ok : Nat → Prop) : Bytes → Prop
  | nil : Chars ok []
  | byte (c : Nat) (s : Bytes) : ok c → Chars ok s → Chars ok (c :: s)
  | pct (h1 h2 : Nat) (s : Bytes) : RfcHex h1 → RfcHex h2 → Chars ok s → Chars ok (37 :: h1 :: h2 :: s)

/-- The nine method names of RFC 7231 and RFC 5789. -/
def methodName : Method → Bytes
  | .get => b!"GET" | .head => b!"HEAD" | .post => b!"POST" | .put => b!"PUT" | .delete => b!"DELETE"
  | .connect => b!"CONNECT" | .options => b!"OPTIONS" | .trace => b!"TRACE" | .patch => b!"PATCH"

/-- The version numbers the server knows. -/
def versionNumber : Version → Bytes
  | .v2 => b!"2" | .v1_1 => b!"1.1"

/-- How the query is written behind the path. -/
def queryText : Option Bytes → Bytes
  | none => []
  | some q => b!"?" ++ q

/-- RFC 7230 3.1.1: `method SP request-target SP HTTP/version CRLF`. -/
def requestLine (m : Method) (target : Bytes) (v : Version) : Bytes :=
  methodName m ++ b!" " ++ target ++ b!" HTTP/" ++ versionNumber v ++ b!"\r\n"

/-- An absolute path (RFC 7230 5.3.1). -/
def IsPath (p : Bytes) : Prop := Chars PathByte p ∧ p.head? = some 47

/-- What may stand behind the path and the query the server then sees: nothing, a lone "?", or "?" and a
query, of which the `%X` of a leading `%XX` is cut off. -/
inductive QueryPart : Bytes → Option Bytes → Prop
  | absent : QueryPart [] none
  | lone : QueryPart b!"?" none
  | plain (c : Nat) (q : Bytes) : c ≠ 37 → Chars QueryByte (c :: q) → QueryPart (63 :: c :: q) (some (c :: q))
  | cut (h1 h2 : Nat) (q : Bytes) : RfcHex h1 → RfcHex h2 → Chars QueryByte q →
      QueryPart (63 :: 37 :: h1 :: h2 :: q) (some (h2 :: q))

/-- Letters and digits. -/
def AlNum (c : Nat) : Prop := (65 ≤ c ∧ c ≤ 90) ∨ (97 ≤ c ∧ c ≤ 122) ∨ (48 ≤ c ∧ c ≤ 57)

/-- The target forms the server accepts, with the path and query it extracts.  Only `CONNECT` may and must
use `userinfo@host:port`, with the user information present and a host of letters and digits. -/
inductive Target : Method → Bytes → Bytes → Option Bytes → Prop
  | origin (m : Method) (p qt : Bytes) (q : Option Bytes) : m ≠ .connect → IsPath p → QueryPart qt q →
      Target m (p ++ qt) p q
  | authority (u h port : Bytes) : u ≠ [] → Chars UserByte u → h ≠ [] → (∀ c ∈ h, AlNum c) → port ≠ [] →
      (∀ c ∈ port, 48 ≤ c ∧ c ≤ 57) → Target .connect (u ++ b!"@" ++ h ++ b!":" ++ port) [] none

/-- The exact language of the parser, wider than RFC 7230: any number of spaces, and any number of copies
of `HTTP` (also none) in front of the slash. -/
def Accepted (l : Bytes) (r : ReqLine) : Prop :=
  ∃ (k j n : Nat) (t : Bytes), Target r.method t r.uri r.query ∧
    l = methodName r.method ++ List.replicate (k + 1) 32 ++ t ++ List.replicate (j + 1) 32 ++
      (List.replicate n b!"HTTP").flatten ++ b!"/" ++ versionNumber r.version

end Fly.Req
