import Verif.Header.Model

/-! # What the conversion of responses does to the texts of the application: src/pyserver.c:776-813

A `str` of Python is an object that never changes and can be shared: by constants, dictionaries, other responses.  `PyUnicode_AsUTF8AndSize` gives a pointer to the
text inside the object (for a text in ASCII to the text itself, for others to the copy kept with it), not to a copy. -/

namespace Fly.PyText

abbrev Pairs := List (Bytes × Bytes)

/-- The texts of the `str` objects of the process, by object. -/
abbrev Texts := Nat → Bytes

/-- A value of a dictionary: a `str`, by its object, or something else. -/
inductive Ref where
  | str (id : Nat)
  | other
  deriving DecidableEq, Repr

/-- An element of the header list of a response, src/pyserver.c:783-802; `none`: the key is missing. -/
inductive Item where
  | dict (name value : Option Ref)
  | other
  deriving DecidableEq, Repr

/-- `fly_alpha_upper_to_lower` on every byte, src/char.h:67-74, src/pyserver.c:793-797, written back into the object. -/
def lowerAt (s : Texts) (id : Nat) : Texts := fun i => if i = id then (s id).map Header.lower else s i

/-- The loop over the header list, src/pyserver.c:776-813: the fields added, `none` if the response is replaced by a 500 (what was written stays).  Texts that
have no UTF-8 form (lone surrogates) are left out. -/
def walk (v2 : Bool) : Texts → List Item → Texts × Option Pairs
  | s, [] => (s, some [])
  | s, .dict (some (.str n)) v :: l =>
    let s := if v2 then lowerAt s n else s
    match v with
    | some (.str v) =>
      let r := walk v2 s l
      (r.1, r.2.map ((s n, s v) :: ·))
    | _ => (s, none)
  | s, _ :: _ => (s, none)

/-- A response that a function returned.  `reached`: the conversion got as far as the header list, src/pyserver.c:730-775. -/
structure Call where
  v2 : Bool
  reached : Bool
  items : List Item

def convert (s : Texts) (c : Call) : Texts × Option Pairs := if c.reached then walk c.v2 s c.items else (s, none)

/-- The responses of a process, one after the other, with the fields of each. -/
def history : Texts → List Call → Texts × List (Option Pairs)
  | s, [] => (s, [])
  | s, c :: cs =>
    let r := convert s c
    let q := history r.1 cs
    (q.1, r.2 :: q.2)

end Fly.PyText
