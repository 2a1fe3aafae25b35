import Verif.Basic

/-! # File names, extensions and media types -/

namespace Fly.FileType

/-- `ext` is the extension of the file at `path`: the file's name, the part of the path after the last slash, is
something, a dot, and `ext`, in which there is no dot. -/
def HasExt (path ext : Bytes) : Prop :=
  ∃ dir stem, path = dir ++ stem ++ [46] ++ ext ∧ (dir = [] ∨ ∃ d, dir = d ++ [47]) ∧ 47 ∉ stem ∧ 47 ∉ ext ∧ 46 ∉ ext

/-- The file's name has no dot. -/
def NoExt (path : Bytes) : Prop :=
  ∃ dir name, path = dir ++ name ∧ (dir = [] ∨ ∃ d, dir = d ++ [47]) ∧ 47 ∉ name ∧ 46 ∉ name

/-- The media types of the extensions the server knows. -/
def typeOf (ext : Bytes) : Option Bytes :=
  if ext = b!"txt" then some b!"text/plain"
  else if ext = b!"csv" then some b!"text/csv"
  else if ext = b!"html" ∨ ext = b!"htm" then some b!"text/html"
  else if ext = b!"css" then some b!"text/css"
  else if ext = b!"xml" then some b!"text/xml"
  else if ext = b!"js" then some b!"text/javascript"
  else if ext = b!"rtf" then some b!"text/richtext"
  else none

end Fly.FileType
