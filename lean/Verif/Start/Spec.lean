import Verif.Start.Model

/-! # What an operator may expect of starting and stopping a server -/

namespace Fly.Start

/-- A process that has created the pid file `i` and is on its way to serve, or serves. -/
def Owns (w : World) (p i : Nat) : Prop :=
  w.procs p = .middle i ∨ ∃ d, w.procs p = .opened d i ∨ w.procs p = .written d i ∨ w.procs p = .configured d i ∨
    w.procs p = .serving d i

/-- Process `p` serves. -/
def Serves (w : World) (p : Nat) : Prop := ∃ d i, w.procs p = .serving d i

/-- What a reader of the pid file sees. -/
def pidText (w : World) : Option Bytes := w.path.map w.data

/-- Nobody deletes the pid file by hand. -/
def Untouched (evs : List Ev) : Prop := Ev.rm ∉ evs

/-- Writes take everything that is offered. -/
def WholeWrites (evs : List Ev) : Prop := ∀ p n, Ev.write p n ∈ evs → (Response.decimal p).length ≤ n

/-- No server is asked to become a daemon. -/
def NoDaemon (evs : List Ev) : Prop := ∀ p, Ev.launch p true ∉ evs

/-- An address that can be used. -/
def Addr.usable (a : Addr) : Bool := a.socket && a.nonblocking && a.reuse && a.bind

/-- The bytes `sendfile(2)` sends: `count` bytes of the file from the offset. -/
def wanted (file : Bytes) (offset count : Nat) : Bytes := (file.drop offset).take count

end Fly.Start
