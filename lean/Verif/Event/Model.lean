import Verif.RBTree.Spec

/-! # The event manager: src/event.c, src/event.h

Modelled: time arithmetic, registration, change and removal of events with the timer index, marking of expired events, choice of
the poll timeout, and which expired handlers a turn of the loop calls.  The timer index is the red-black tree of Verif.RBTree; its
keys are pointers to events, and its comparison reads the deadlines the events have at that moment (`cmp`).  The two queues of
the manager are lists of events in their order (for queues see Verif.Link).  Not modelled: epoll itself, the handlers, signals,
errors of `gettimeofday`, the kqueue variant. -/

namespace Fly.Event

/-- `fly_time_t` = `struct timeval`, src/event.h:74; both fields are 64 bit. -/
structure Time where
  sec : Int
  usec : Int
  deriving DecidableEq, Repr

/-- Conversion of a wide integer to `int` (modulo 2^32). -/
def toInt (x : Int) : Int := (x + 2147483648) % 4294967296 - 2147483648

/-- `int` subtraction; overflow is undefined behaviour. -/
def subInt (a b : Int) : Option Int := if -2147483648 ≤ a - b ∧ a - b ≤ 2147483647 then some (a - b) else none

/-- `__fly_add_time_from_now`, src/event.c:243-254. -/
def addFromNow (now t : Time) : Time :=
  let sec := now.sec + t.sec
  let usec := now.usec + t.usec
  if usec ≥ 1000000 then ⟨sec + 1, usec - 1000000⟩ else ⟨sec, usec⟩

/-- `fly_cmp_time`, src/event.c:565-581. -/
def cmpTime (a b : Time) : Option Int :=
  (subInt (toInt a.sec) (toInt b.sec)).map fun d =>
    if d > 0 then 1
    else if d < 0 then -1
    else if a.usec - b.usec > 0 then 1
    else if a.usec - b.usec < 0 then -1
    else 0

/-- `fly_sub_time`, src/event.c:647-657, and `fly_sub_time_from_base`, 659-669. -/
def subTime (a b : Time) : Option Time :=
  (subInt (toInt a.sec) (toInt b.sec)).map fun sec =>
    let usec := a.usec - b.usec
    if usec < 0 then ⟨sec - 1, usec + 1000 * 1000⟩ else ⟨sec, usec⟩

/-- `fly_sec`, src/event.c:592-597. -/
def ofSec (s : Int) : Time := ⟨s, 0⟩

/-- `fly_msec`, src/event.c:598-603; division and remainder of C. -/
def ofMsec (m : Int) : Time := ⟨m.tdiv 1000, 1000 * m.tmod 1000⟩

/-- The fields of `struct fly_event`, src/event.h:104-195, that matter here; `infinity` and `inherit` are bits of `tflag`,
`modify` one of `flag`, `monitorable` says that the file type is neither regular file nor directory, `expiredHandler` that an
expired handler is set. -/
structure Ev where
  abs : Time
  timeout : Time
  infinity : Bool
  inherit : Bool
  modify : Bool
  monitorable : Bool
  expired : Bool
  expiredHandler : Bool
  deriving DecidableEq, Repr

/-- `struct fly_event_manager`, src/event.h:46-71, and the events at their addresses.  The field `rbnode` of the event at `e` is the
handle variable `e` of the index. -/
structure Mgr where
  ev : Nat → Ev
  index : RB.State Nat Nat
  mon : List Nat
  unmon : List Nat

/-- `fly_event_manager_init`, src/event.c:44-83. -/
def init (ev : Nat → Ev) : Mgr := ⟨ev, RB.State.init, [], []⟩

/-- `__fly_event_cmp`, src/event.c:91-126: the deadlines are read from the events. -/
def cmp (ev : Nat → Ev) (a b : Nat) : Ordering :=
  if (ev a).abs.sec > (ev b).abs.sec then .gt
  else if (ev a).abs.sec < (ev b).abs.sec then .lt
  else if (ev a).abs.usec > (ev b).abs.usec then .gt
  else if (ev a).abs.usec < (ev b).abs.usec then .lt
  else if a > b then .gt
  else if a < b then .lt
  else .eq

/-- An assignment to fields of the event at `e`. -/
def Mgr.set (s : Mgr) (e : Nat) (f : Ev → Ev) : Mgr := { s with ev := fun x => if x = e then f (s.ev e) else s.ev x }

/-- `__fly_add_time_from_now(&event->abs_timeout, &event->timeout)` -/
def setDeadline (s : Mgr) (e : Nat) (now : Time) : Mgr := s.set e fun v => { v with abs := addFromNow now v.timeout }

/-- Insertion into the timer index, src/event.c:316-323 and 371-376; `n` is the address of the new node. -/
def insertIndex (s : Mgr) (e n : Nat) : Option Mgr :=
  (s.index.insert (cmp s.ev) n e e (some e)).map fun i => { s with index := i.1 }

/-- Deletion from the timer index if `rbnode` is set, src/event.c:351-367 and 492-497. -/
def deleteIndex (s : Mgr) (e : Nat) : Option Mgr :=
  match s.index.handles e with
  | none => some s
  | some a => (s.index.delete a).map fun i => { s with index := i }

/-- `fly_event_register`, src/event.c:300-474, at time `now`. -/
def register (s : Mgr) (e : Nat) (now : Time) (n : Nat) : Option Mgr :=
  let v := s.ev e
  if !v.modify then
    (if !v.infinity && v.monitorable then insertIndex (setDeadline s e now) e n else some s).map fun s =>
      if v.monitorable then { s with mon := s.mon ++ [e] } else { s with unmon := s.unmon ++ [e] }
  else if v.monitorable then
    (deleteIndex s e).bind fun s =>
      let s := if !v.infinity && !v.inherit then setDeadline s e now else s
      if !v.infinity then insertIndex s e n else some s
  else some s

/-- `fly_event_unregister`, src/event.c:476-557. -/
def unregister (s : Mgr) (e : Nat) : Option Mgr :=
  if !(s.ev e).monitorable then some { s with unmon := s.unmon.erase e }
  else (deleteIndex s e).map fun s => { s with mon := s.mon.erase e }

/-- `fly_timeout_restart`, src/event.c:583-590. -/
def restart (s : Mgr) (e : Nat) (now : Time) : Mgr := setDeadline s e now

/-- `__fly_expired_from_rbtree`, src/event.c:683-712: the events marked, in this order. -/
def expiredFrom (ev : Nat → Ev) (now : Time) : RB.Tree Nat Nat → List Nat
  | .nil => []
  | .node _ l x r =>
    if (ev x.key).abs.sec > now.sec then expiredFrom ev now l
    else x.data :: (expiredFrom ev now l ++ expiredFrom ev now r)

/-- `__fly_update_event_timeout`, src/event.c:714-734. -/
def mark (s : Mgr) (now : Time) : Mgr :=
  if s.index.count = 0 then s
  else { s with ev := fun x => if x ∈ expiredFrom s.ev now s.index.tree then { s.ev x with expired := true } else s.ev x }

/-- The loop of `__fly_nearest_event`, src/event.c:617-621, at a node that is not nil. -/
def leftmost : RB.Tree Nat Nat → Option Nat
  | .nil => none
  | .node _ .nil x _ => some x.data
  | .node _ l _ _ => leftmost l

/-- `__fly_nearest_event`, src/event.c:610-622. -/
def nearest (s : Mgr) : Option Nat := if s.index.count = 0 then none else leftmost s.index.tree

/-- `fly_milli_diff_time_from_now`, src/event.c:736-748. -/
def milliDiff (t now : Time) : Int :=
  toInt (toInt (1000 * (t.sec - now.sec)) + (t.usec - now.usec).tdiv 1000)

/-- The timeout passed to `epoll_wait`, src/event.c:853-872. -/
def pollTimeout (s : Mgr) (now : Time) : Int :=
  match nearest s with
  | some e => let t := milliDiff (s.ev e).abs now; if t < 0 then 0 else t
  | none => -1

/-- The events whose expired handler `__fly_expired_event`, src/event.c:624-645, calls. -/
def fired (s : Mgr) : List Nat := s.mon.filter fun e => (s.ev e).expired && (s.ev e).expiredHandler

/-- `__fly_expired_event`, src/event.c:624-645: every event fired is unregistered (the handlers are assumed to leave the other
events of the manager alone). -/
def unregisterAll : Mgr → List Nat → Option Mgr
  | s, [] => some s
  | s, e :: es => (unregister s e).bind fun s => unregisterAll s es

/-- `fly_event_handler`, src/event.c:845-907: the expired handlers called in a turn of the loop in which `epoll_wait` returns
`ready` events. -/
def turnFires (s : Mgr) (ready : Nat) : List Nat := if ready = 0 then fired s else []

end Fly.Event
