import Verif.Codec.Model

/-! # What the compression libraries promise, and what an encoded response should be -/

namespace Fly.Codec

/-- The content that is to be sent. -/
def Src.content : Src → Bytes
  | .body b => b
  | .file f o _ => f.drop o

/-- No `read` of a file fails. -/
def Src.Readable : Src → Prop
  | .body _ => True
  | .file _ _ ok => ∀ k, ok k = true

/-- `z` was called as the manual allows: until the end is asked for with any input, then always for the end with the
input that is left.  It has taken `i` and written `o` up to now and is not at the end; `left` is the input that is left if
the end was asked for. -/
inductive Zlib.Hist (z : Zlib) : z.State → Bytes → Bytes → Option Bytes → Prop where
  | start : z.Hist z.start [] [] none
  | call {s : z.State} {i o : Bytes} {left : Option Bytes} (fin : Bool) (inp : Bytes) (room : Nat) : z.Hist s i o left →
      (∀ l, left = some l → fin = true ∧ inp = l) →
      (z.deflate s fin inp room).status = .ok →
      z.Hist (z.deflate s fin inp room).state (i ++ inp.take (z.deflate s fin inp room).consumed)
        (o ++ (z.deflate s fin inp room).out)
        (if fin then some (inp.drop (z.deflate s fin inp room).consumed) else none)

/-- The call `deflate(s, fin, inp)` is allowed after `i` was taken and `o` written. -/
def Zlib.Allowed (z : Zlib) (s : z.State) (i o : Bytes) (fin : Bool) (inp : Bytes) : Prop :=
  ∃ left, z.Hist s i o left ∧ ∀ l, left = some l → fin = true ∧ inp = l

/-- The manual of zlib.  `dec` is what a client's decoder makes of a complete stream. -/
structure ZlibOk (z : Zlib) (dec : Bytes → Option Bytes) : Prop where
  /-- never more than the room -/
  fits : ∀ {s i o fin inp}, z.Allowed s i o fin inp → ∀ room, (z.deflate s fin inp room).out.length ≤ room
  /-- only the known results -/
  known : ∀ {s i o fin inp}, z.Allowed s i o fin inp → ∀ room, (z.deflate s fin inp room).status ≠ .other
  /-- the end comes when it is asked for, and then the stream is that of the whole input -/
  ends : ∀ {s i o fin inp}, z.Allowed s i o fin inp → ∀ room, (z.deflate s fin inp room).status = .streamEnd →
    fin = true ∧ dec (o ++ (z.deflate s fin inp room).out) = some (i ++ inp)
  /-- asked for the end, it goes on until there is no room -/
  finishes : ∀ {s i o inp}, z.Allowed s i o true inp → ∀ room, (z.deflate s true inp room).status = .ok →
    (z.deflate s true inp room).out.length = room
  /-- otherwise until there is no input or no room -/
  proceeds : ∀ {s i o inp}, z.Allowed s i o false inp → ∀ room, (z.deflate s false inp room).status = .ok →
    inp.length ≤ (z.deflate s false inp room).consumed ∨ (z.deflate s false inp room).out.length = room
  /-- no room: `Z_BUF_ERROR` -/
  noRoom : ∀ {s i o fin inp}, z.Allowed s i o fin inp → (z.deflate s fin inp 0).status = .bufError
  /-- `Z_BUF_ERROR` only if nothing can be done -/
  bufError : ∀ {s i o fin inp}, z.Allowed s i o fin inp → ∀ room, (z.deflate s fin inp room).status = .bufError →
    room = 0 ∨ (fin = false ∧ inp = [])
  /-- nothing can be done without new input if there was room left after the last call -/
  idle : ∀ {s i o inp}, z.Allowed s i o false inp → ∀ room, (z.deflate s false inp room).status = .ok →
    (z.deflate s false inp room).out.length < room → ∀ room',
    (z.deflate (z.deflate s false inp room).state false [] room').status = .bufError

/-- `b` was called any number of times without asking for the end; it has taken `i` and written `o` up to now. -/
inductive Brotli.Hist (b : Brotli) : b.State → Bytes → Bytes → Prop where
  | start : b.Hist b.start [] []
  | call {s : b.State} {i o : Bytes} (inp : Bytes) (room : Nat) : b.Hist s i o →
      b.Hist (b.compress s false inp room).state (i ++ inp.take (b.compress s false inp room).consumed)
        (o ++ (b.compress s false inp room).out)

/-- The manual of brotli. -/
structure BrotliOk (b : Brotli) (dec : Bytes → Option Bytes) : Prop where
  works : ∀ {s i o}, b.Hist s i o → ∀ fin inp room, (b.compress s fin inp room).ok = true
  fits : ∀ {s i o}, b.Hist s i o → ∀ fin inp room, (b.compress s fin inp room).out.length ≤ room
  /-- it is finished only if asked to -/
  asked : ∀ {s i o}, b.Hist s i o → ∀ inp room, b.finished (b.compress s false inp room).state = false
  /-- asked for the end, it goes on until it is finished, and the stream is that of the whole input, or until there is
  no room; a stream that is not finished is of no use to a decoder -/
  ends : ∀ {s i o}, b.Hist s i o → ∀ inp room,
    (b.finished (b.compress s true inp room).state = true ∧ dec (o ++ (b.compress s true inp room).out) = some (i ++ inp)) ∨
    (b.finished (b.compress s true inp room).state = false ∧ (b.compress s true inp room).out.length = room ∧
      dec (o ++ (b.compress s true inp room).out) = none)

/-- The response a client expects: its `Content-Length` is right and its content is the encoding of `c`. -/
def Good (dec : Bytes → Option Bytes) (c : Bytes) : Answer → Prop
  | .content e n => n = e.length ∧ dec e = some c
  | _ => False

end Fly.Codec
