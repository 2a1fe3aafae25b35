import Verif.Header.Model

/-! # Specification of the header list: a list of (name, value) pairs -/

namespace Fly.Header

abbrev Pairs := List (Bytes × Bytes)

/-- Replace the value of the first pair of that name, or append. -/
def setFirst (n v : Bytes) : Pairs → Pairs
  | [] => [(n, v)]
  | (m, w) :: l => if m = n then (m, v) :: l else (m, w) :: setFirst n v l

/-- Remove the first pair of that name, if any. -/
def removeFirst (n : Bytes) : Pairs → Pairs
  | [] => []
  | (m, w) :: l => if m = n then l else (m, w) :: removeFirst n l

def specStep (l : Pairs) : Op → Pairs
  | .add n v => l ++ [(n, v)]
  | .addHead n v => (n, v) :: l
  | .addIfNo n v => if n ∈ l.map (·.1) then l else l ++ [(n, v)]
  | .addVerIfNo n v => if n ∈ l.map (·.1) then l else l ++ [(n, v)]
  | .set n v => setFirst n v l
  | .delete n => removeFirst n l

def specRun (l : Pairs) : List Op → Pairs
  | [] => l
  | op :: ops => specRun (specStep l op) ops

/-- A header name a server may use: not empty, no NUL. -/
def GoodName (n : Bytes) : Prop := n ≠ [] ∧ 0 ∉ n

def Op.name : Op → Bytes
  | .add n _ => n
  | .addHead n _ => n
  | .addIfNo n _ => n
  | .addVerIfNo n _ => n
  | .set n _ => n
  | .delete n => n

/-- What a reader of the list sees: NULL values as empty ones. -/
def view (h : HList) : Pairs := h.items.map fun f => (f.name.getD [], f.value.getD [])

end Fly.Header
