import Verif.Basic

/-! # The media type of a file: src/mime.c, src/header.c

A path is a list of bytes without the terminating 0. -/

namespace Fly.FileType

/-- An entry of `mimes`. -/
structure Entry where
  name : Bytes
  exts : List Bytes
  deriving DecidableEq, Repr

/-- `mimes`, src/mime.c:5-16. -/
def mimes : List Entry :=
  [⟨b!"text/plain", [b!"txt"]⟩, ⟨b!"text/csv", [b!"csv"]⟩, ⟨b!"text/html", [b!"html", b!"htm"]⟩,
   ⟨b!"text/css", [b!"css", b!"css"]⟩, ⟨b!"text/xml", [b!"xml"]⟩, ⟨b!"text/javascript", [b!"js"]⟩,
   ⟨b!"text/richtext", [b!"rtf"]⟩, ⟨b!"application/json", []⟩, ⟨b!"application/octet_stream", []⟩,
   ⟨b!"multipart/form-data", []⟩]

/-- The result of the lookup: an entry of the table, `noext_mime` or `unknown_mime` (src/mime.c:19-25). -/
inductive Mime where
  | entry (e : Entry)
  | noext
  | unknown
  deriving DecidableEq, Repr

/-- `strchr`: the rest from the first `c` on. -/
def strchr (c : Nat) : Bytes → Option Bytes
  | [] => none
  | b :: s => if b = c then some (b :: s) else strchr c s

/-- The loop src/mime.c:1138-1140; `fuel` is the length of the path. -/
def afterDots : Nat → Bytes → Bytes
  | 0, p => p
  | fuel + 1, p =>
    if p = [] then p
    else match strchr 46 p with
      | none => p
      | some q => afterDots fuel (q.drop 1)

/-- The loops src/mime.c:1143-1152: the first entry with this extension. -/
def lookup (ext : Bytes) : List Entry → Mime
  | [] => .unknown
  | m :: ms => if ext ∈ m.exts then .entry m else lookup ext ms

/-- `fly_mime_type_from_path_name`, src/mime.c:1133-1154. -/
def fromPath (path : Bytes) : Mime :=
  match strchr 46 path with
  | none => .noext
  | some _ => lookup (afterDots path.length path) mimes

/-- `fly_mime_invalid`, src/mime.c:29-32. -/
def invalid : Mime → Bool
  | .entry _ => false
  | _ => true

/-- `fly_add_content_type`, src/header.c:423-434: the value of the field. -/
def contentType (m : Mime) : Bytes :=
  if invalid m then b!"text/plain"
  else
    match m with
    | .entry e => e.name
    | _ => []

/-- A static file is registered under the type of its path (src/mount.c:345, src/worker.c:277) and sent with it
(src/response.c:1349). -/
def served (path : Bytes) : Bytes := contentType (fromPath path)

end Fly.FileType
