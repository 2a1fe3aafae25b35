import Verif.Event.Model

/-! # What timers are to the users of the event manager

Times are microseconds. -/

namespace Fly.Event

def Time.us (t : Time) : Int := t.sec * 1000000 + t.usec

/-- A time as `gettimeofday` and the configuration give it. -/
def Norm (t : Time) : Prop := 0 ≤ t.usec ∧ t.usec < 1000000

/-- A registered event on a socket, pipe, ...: its deadline, if any, the length of its timeout, and whether it has an expired handler. -/
structure Timer where
  e : Nat
  deadline : Option Int
  length : Int
  handler : Bool
  deriving DecidableEq, Repr

structure World where
  timers : List Timer
  files : List Nat
  deriving DecidableEq, Repr

inductive Op where
  /-- register a new event -/
  | add (e : Nat) (monitorable infinity handler : Bool) (timeout now : Time) (n : Nat)
  /-- register a registered event anew with FLY_MODIFY; `clear`: the caller also clears the mark of expiration -/
  | modify (e : Nat) (infinity inherit clear : Bool) (timeout : Option Time) (now : Time) (n : Nat)
  /-- what an HTTP/2 connection does when it receives a frame: fly_timeout_restart, then FLY_MODIFY with FLY_INHERIT -/
  | extend (e : Nat) (now now' : Time) (n : Nat)
  /-- fly_event_unregister -/
  | remove (e : Nat)
  /-- the marking of expired events at a turn of the loop -/
  | tick (now : Time)

def World.upd (w : World) (e : Nat) (f : Timer → Timer) : World :=
  { w with timers := w.timers.map fun x => if x.e = e then f x else x }

def specStep (w : World) : Op → World
  | .add e mon inf handler t now _ =>
    if mon then { w with timers := w.timers ++ [⟨e, if inf then none else some (now.us + t.us), t.us, handler⟩] }
    else { w with files := w.files ++ [e] }
  | .modify e inf inh _ t now _ =>
    w.upd e fun x =>
      let len := match t with | some t => t.us | none => x.length
      ⟨e, if inf then none else if inh then x.deadline else some (now.us + len), len, x.handler⟩
  | .extend e now _ _ => w.upd e fun x => ⟨e, some (now.us + x.length), x.length, x.handler⟩
  | .remove e => ⟨w.timers.filter fun x => x.e ≠ e, w.files.filter fun x => x ≠ e⟩
  | .tick _ => w

/-- The program's meaning of an operation. -/
def step (s : Mgr) : Op → Option Mgr
  | .add e mon inf handler t now n => register (s.set e fun _ => ⟨⟨0, 0⟩, t, inf, false, false, mon, false, handler⟩) e now n
  | .modify e inf inh clear t now n =>
    register (s.set e fun v => { v with infinity := inf, inherit := inh, modify := true, timeout := t.getD v.timeout,
                                        expired := v.expired && !clear }) e now n
  | .extend e now now' n =>
    register ((restart s e now).set e fun v => { v with infinity := false, inherit := true, modify := true }) e now' n
  | .remove e => unregister s e
  | .tick now => some (mark s now)

def run : Mgr → List Op → Option Mgr
  | s, [] => some s
  | s, o :: os => (step s o).bind fun s => run s os

/-- `malloc` does not return the address of a node of the tree. -/
def Fresh (s : Mgr) (n : Nat) : Prop := ∀ x ∈ s.index.tree.toList, x.addr ≠ n

/-- What callers guarantee: only events that are not registered are added, only registered ones are changed or removed, a
deadline is inherited only where there is one, times are normalised. -/
def Legal (w : World) : Op → Prop
  | .add e _ _ _ t now _ => (∀ x ∈ w.timers, x.e ≠ e) ∧ e ∉ w.files ∧ Norm t ∧ Norm now
  | .modify e inf inh _ t now _ =>
    (∃ x ∈ w.timers, x.e = e ∧ (inh = true → inf = true ∨ x.deadline ≠ none)) ∧ (∀ t' ∈ t, Norm t') ∧ Norm now
  | .extend e now now' _ => (∃ x ∈ w.timers, x.e = e) ∧ Norm now ∧ Norm now'
  | .remove e => (∃ x ∈ w.timers, x.e = e) ∨ e ∈ w.files
  | .tick now => Norm now

/-- ... and `malloc`, when the new node is made (after the old one is freed). -/
def MallocOk (s : Mgr) : Op → Prop
  | .add _ _ _ _ _ _ n => Fresh s n
  | .modify e _ _ _ _ _ n => ∀ s', deleteIndex s e = some s' → Fresh s' n
  | .extend e _ _ n => ∀ s', deleteIndex s e = some s' → Fresh s' n
  | .remove _ => True
  | .tick _ => True

def AllOk : Mgr → World → List Op → Prop
  | _, _, [] => True
  | s, w, o :: os => Legal w o ∧ MallocOk s o ∧ ∀ s', step s o = some s' → AllOk s' (specStep w o) os

/-- A turn of the loop: the time, how many events are ready, and what their handlers do. -/
structure Turn where
  now : Time
  ready : Nat
  ops : List Op

/-- `fly_event_handler`, src/event.c:845-907: marking, then the expired handlers if nothing is ready, then the handlers.  The
result is the manager and the events whose expired handler was called. -/
def loop : Mgr → List Turn → Option (Mgr × List Nat)
  | s, [] => some (s, [])
  | s, t :: ts =>
    let s := mark s t.now
    let f := turnFires s t.ready
    (unregisterAll s f).bind fun s => (run s t.ops).bind fun s => (loop s ts).map fun r => (r.1, f ++ r.2)

/-- The world after a history. -/
def world (os : List Op) : World := os.foldl specStep ⟨[], []⟩

end Fly.Event
