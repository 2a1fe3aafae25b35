/-! Shared notation: byte strings. -/

namespace Fly

/-- Byte strings of the C code.  A byte is a `Nat`; theorems that need it assume `< 256`. -/
abbrev Bytes := List Nat

end Fly

/-- `b!"GET"` is the list of byte values of the string literal (expanded at elaboration time). -/
macro:max "b!" s:str : term => do
  let elems := s.getString.toUTF8.toList.toArray.map fun b => Lean.Syntax.mkNumLit (toString b.toNat)
  `(([$elems,*] : List Nat))
