import Verif.Basic

/-! # Model of the PRIORITY frames of an HTTP/2 connection, `src/v2.c`

The streams of one connection and the pointers between them.  A stream is named by its identifier,
which is never used twice on a connection (v2.c:338-341 refuses any identifier that is not larger than
all earlier ones), so the identifier serves as the address; 0 is the root stream.  A stream that was
never created or has been released is `none`: reading or writing through a pointer to it is undefined
behaviour (`crash`).

Left out: errors for a PRIORITY frame on stream 0 or of a wrong length, and the limit of concurrent
streams (`Verif/H2Stream`); the payload is given as its three fields.  `dprev` is kept although no code
reads it. -/

namespace Fly.H2P

/-- The fields of `struct fly_hv2_stream` used for priorities, src/v2.h:170-199. -/
structure Node where
  weight : Nat
  deps : Nat
  next : Nat
  prev : Nat
  count : Nat
  deriving DecidableEq, Repr

/-- The streams in memory. -/
abbrev Heap := Nat → Option Node

/-- `__fly_hv2_create_stream`, src/v2.c:277-308: all pointers to itself, default weight 16
(src/v2.h, `FLY_HV2_STREAM_DEFAULT_WEIGHT`). -/
def created (id : Nat) : Node := ⟨16, id, id, id, 0⟩

/-- Assign to fields of the stream at address `a`. -/
def upd (h : Heap) (a : Nat) (f : Node → Node) : Heap := fun x => if x = a then (h a).map f else h x

/-- A new connection: only the root stream. -/
def start : Heap := fun x => if x = 0 then some (created 0) else none

/-- `fly_hv2_close_stream`, src/v2.c:376-423: the stream is freed; nothing is unlinked from the
priority lists. -/
def release (h : Heap) (a : Nat) : Heap := fun x => if x = a then none else h x

/-- Where the loop of `__fly_hv2_priority_deps_add` stops. -/
inductive Stop where
  /-- 1017: a lighter stream -/
  | lighter (n : Nat)
  /-- 1016: the stream whose successor is the first one -/
  | last (n : Nat)
  | crash
  /-- not finished after the given number of rounds -/
  | running
  deriving DecidableEq, Repr

/-- Loop of `__fly_hv2_priority_deps_add`, src/v2.c:1016-1017; `first` is `dist->deps`, `w` the weight
of the stream to insert. -/
def walk (h : Heap) (first w : Nat) : Nat → Nat → Stop
  | 0, _ => .running
  | fuel + 1, n =>
    match h n with
    | none => .crash
    | some c =>
      if c.next = first then .last n
      else if c.weight < w then .lighter n
      else walk h first w fuel c.next

inductive Res where
  | done (h : Heap)
  | crash
  | running

/-- `__fly_hv2_priority_deps_add(dist, src)`, src/v2.c:1013-1035. -/
def depsAdd (fuel : Nat) (h : Heap) (dist src : Nat) : Res :=
  match h dist, h src with
  | some d, some s =>
    match walk h d.deps s.weight fuel d.deps with
    | .crash => .crash
    | .running => .running
    | .lighter n =>
      match h n with
      | none => .crash
      | some c =>
        match h c.next with
        | none => .crash                                                     -- n->dnext->dprev, 1018
        | some _ =>
          let h1 := upd h c.next fun x => { x with prev := src }              -- 1018
          let h2 := upd h1 src fun x => { x with next := c.next, prev := n }  -- 1019-1020
          let h3 := if n = d.deps then upd h2 dist fun x => { x with deps := src }   -- 1021-1022
            else upd h2 n fun x => { x with next := src }                     -- 1024
          .done (upd h3 src fun x => { x with count := x.count + 1 })         -- 1025
    | .last n =>
      let h1 := upd h n fun x => { x with next := src }                       -- 1030
      let h2 := upd h1 src fun x => { x with prev := n }                      -- 1031
      let h3 := upd h2 src fun x => { x with next := d.deps }                 -- 1032
      .done (upd h3 src fun x => { x with count := x.count + 1 })             -- 1033
  | _, _ => .crash

/-- `fly_hv2_priority_rebalance`, src/v2.c:1037-1059, for a stream `s` with `exclusive` and
`dependency_id = p` (`none` of the search in 1043 is dereferenced in 1046/1051). -/
def rebalance (fuel : Nat) (h : Heap) (s p : Nat) (exclusive : Bool) : Res :=
  match h p with
  | none => .crash
  | some d =>
    let adopt (h : Heap) : Heap := upd h p fun x => { x with deps := s, count := 1 }
    if exclusive then
      if d.count = 0 then .done (adopt h)                                     -- 1048-1049
      else
        match depsAdd fuel h p s with                                         -- 1046-1047
        | .done h' => .done (adopt h')
        | r => r
    else if d.count = 0 then                                                  -- 1051-1055
      .done (upd (adopt h) s fun x => { x with next := s, prev := s })
    else depsAdd fuel h p s

/-- A received PRIORITY frame: stream, exclusive bit, dependency, weight octet. -/
structure Frame where
  sid : Nat
  exclusive : Bool
  dep : Nat
  weight : Nat
  deriving DecidableEq, Repr

/-- `fly_hv2_weight` returns the octet plus one (src/v2.c:997-1010), and the frame handler stores it in
a `uint8_t` (src/v2.c:1917-1923). -/
def storedWeight (octet : Nat) : Nat := (octet + 1) % 256

/-- The stream of a frame, created when it does not exist: src/v2.c:1748-1755. -/
def withStream (h : Heap) (sid : Nat) : Heap :=
  match h sid with
  | some _ => h
  | none => fun x => if x = sid then some (created sid) else h x

/-- `case FLY_HV2_FRAME_TYPE_PRIORITY`, src/v2.c:1906-1929. -/
def onPriority (fuel : Nat) (h : Heap) (f : Frame) : Res :=
  rebalance fuel (upd (withStream h f.sid) f.sid fun x => { x with weight := storedWeight f.weight })
    f.sid f.dep f.exclusive

/-- A sequence of PRIORITY frames. -/
def onFrames (fuel : Nat) : Heap → List Frame → Res
  | h, [] => .done h
  | h, f :: fs =>
    match onPriority fuel h f with
    | .done h' => onFrames fuel h' fs
    | r => r

end Fly.H2P
