/-! # Dispatching the events of one turn of the event loop: src/event.c

Modelled: the call of a handler (`fly_event_handle`), what happens to an event whose handler fails, the levels of errors that
end the process, removal of events that are not to be kept, the batch of ready events, the queue of events without readiness
(log entries), the turn in which the wait runs out, and epoll's list of watched descriptors.  The handlers themselves are
arbitrary: what one call does to its own event, to its descriptor and to the manager is an `Outcome`, chosen from the whole
state by a function that is a parameter (`World`).

Simplifications: an event is named by a number that is never used again, so an address given out a second time by the pool counts
as a new event, and access through a pointer to a released event is the outcome `uaf`; timers are in Verif.Event, here the list
of expired events is a parameter of the turn; `sigprocmask`, the notice log and `gettimeofday` do not fail; the kqueue variant and
events registered without a handler (there are none in the code) are left out. -/

namespace Fly.Dispatch

/-- Error levels, src/err.h (`enum fly_error_level`), as used in the switch of `fly_event_handle`, src/event.c:1029-1066. -/
inductive Level where
  | emerg | crit | err | alert | warn | notice | info | debug
  deriving DecidableEq, Repr

/-- The cases of the switch marked "noreturn", src/event.c:1030-1045. -/
def Level.ends : Level → Bool
  | .emerg | .crit | .err => true
  | _ => false

/-- The bits of `flag`, src/event.h:265-269. -/
structure Flag where
  persistent : Bool
  nodelete : Bool
  modify : Bool
  timerNow : Bool
  close : Bool
  deriving DecidableEq, Repr

/-- `flag = 0` -/
def Flag.zero : Flag := ⟨false, false, false, false, false⟩

/-- `FLY_CLOSE_EV` alone -/
def Flag.closeEv : Flag := ⟨false, false, false, false, true⟩

/-- `fly_nodelete`, src/event.h:270-275. -/
def Flag.keep (f : Flag) : Bool := f.persistent || f.nodelete || f.modify

/-- The fields of `struct fly_event`, src/event.h:104-195, that matter here.  `monitorable` is false for regular files
(src/event.h:318-320), that is for log entries; `line` is the log entry such an event stands for. -/
structure Ev where
  fd : Nat
  monitorable : Bool
  flag : Flag
  failTerm : Bool
  line : Nat
  deriving DecidableEq, Repr

/-- What one call of a handler does: the flag it leaves in its event, whether it closed the descriptor of the event, the errors it
added to the event (`fly_event_error_add`), whether it returned `FLY_EVENT_HANDLE_FAILURE`, and the events it made and
registered (an accepted connection, entries of the logs). -/
structure Outcome where
  flag : Flag
  closes : Bool
  errs : List Level
  fails : Bool
  spawn : List Ev
  deriving DecidableEq, Repr

/-- What can be seen from outside: a call of the handler of an event (with the signal mask at that time and what the handler did),
a log entry being written, a descriptor being closed. -/
inductive Obs where
  | call (a : Nat) (masked : Bool) (o : Outcome)
  | write (line : Nat) (masked : Bool) (o : Outcome)
  | close (fd : Nat)
  deriving DecidableEq, Repr

/-- `struct fly_event_manager`, src/event.h:46-71, with the events that are allocated, epoll's list of descriptors with their
`data.ptr`, the open descriptors, the signal mask, and what has been observed so far. -/
structure St where
  heap : Nat → Option Ev
  next : Nat
  mon : List Nat
  unmon : List Nat
  kern : List (Nat × Nat)
  files : List Nat
  masked : Bool
  trace : List Obs

/-- The process goes on, has ended, has used a released event, or does not come to an end. -/
inductive Res where
  | run (s : St)
  | ended (s : St)
  | uaf
  | stuck (s : St)

def Res.bind (r : Res) (f : St → Res) : Res :=
  match r with
  | .run s => f s
  | r => r

/-- The handlers: what the call for an event does in a state. -/
abbrev World := St → Nat → Outcome

/-- An assignment to the event `a`, or its release. -/
def St.put (s : St) (a : Nat) (e : Option Ev) : St := { s with heap := fun x => if x = a then e else s.heap x }

/-- `fly_event_init` (src/event.c:186-241) and `fly_event_register` (300-345 and 405-414) of a new event, with `flag` not containing
`FLY_MODIFY`: `EPOLL_CTL_ADD`.  The descriptor is new to epoll (a handler registers descriptors it just got). -/
def register (s : St) (e : Ev) : St :=
  let s := { s.put s.next (some e) with next := s.next + 1 }
  if e.monitorable then
    let files := if s.files.contains e.fd then s.files else s.files ++ [e.fd]
    { s with mon := s.mon ++ [s.next - 1], kern := s.kern ++ [(e.fd, s.next - 1)], files := files }
  else { s with unmon := s.unmon ++ [s.next - 1] }

/-- `close`: the kernel forgets the descriptor, in epoll's list too. -/
def closeFd (s : St) (fd : Nat) : St :=
  { s with files := s.files.filter (· != fd), kern := s.kern.filter (fun p => p.1 != fd), trace := s.trace ++ [.close fd] }

/-- The effects of a handler. -/
def act (s : St) (a : Nat) (e : Ev) (o : Outcome) : St :=
  let s := s.put a (some { e with flag := o.flag })
  let s := if o.closes then closeFd s e.fd else s
  o.spawn.foldl register s

/-- `__fly_event_handle_failure_log`, src/event.c:954-979, after logging: close the descriptor unless `flag` is `FLY_CLOSE_EV`
(`fail_close` of the event or `close`; both close it), then `flag = FLY_CLOSE_EV`.  Closing what is not open fails. -/
def failure (s : St) (a : Nat) (e : Ev) : Res :=
  if e.flag = Flag.closeEv then .run s
  else if s.files.contains e.fd then .run ((closeFd s e.fd).put a (some { e with flag := Flag.closeEv }))
  else .ended s

/-- What is observed of a call. -/
def seen (e : Ev) (a : Nat) (masked : Bool) (o : Outcome) : Obs :=
  if e.monitorable then .call a masked o else .write e.line masked o

/-- `fly_event_handle`, src/event.c:995-1088: block signals, call the handler, unblock, treat failure, go through the errors. -/
def handle (W : World) (s : St) (a : Nat) : Res :=
  match s.heap a with
  | none => .uaf
  | some e =>
    let s := { s with masked := true }
    let o := W s a
    let s := { s with trace := s.trace ++ [seen e a s.masked o] }
    let s := { act s a e o with masked := false }
    (if o.fails then failure s a { e with flag := o.flag } else .run s).bind fun s =>
      if o.errs.any Level.ends then .ended s
      else if e.failTerm && o.fails then .ended s
      else .run s

/-- `fly_event_unregister`, src/event.c:476-557.  The `EPOLL_CTL_DEL` of a descriptor epoll does not know is an error that ends the
process. -/
def unregister (s : St) (a : Nat) : Res :=
  match s.heap a with
  | none => .uaf
  | some e =>
    if !e.monitorable then .run ({ s with unmon := s.unmon.erase a }.put a none)
    else
      let s := { s with mon := s.mon.erase a }
      if e.flag.close then .run (s.put a none)
      else if s.kern.any (fun p => p.1 == e.fd) then
        .run ({ s with kern := s.kern.filter (fun p => p.1 != e.fd) }.put a none)
      else .ended s

/-- One pass of the loop of `__fly_event_handle`, src/event.c:801-836, or of `__fly_event_handle_nomonitorable`, 770-785: handle, then
remove unless the flag of the event says to keep it. -/
def dispatch (W : World) (s : St) (a : Nat) : Res :=
  (handle W s a).bind fun s =>
    match s.heap a with
    | none => .uaf
    | some e => if e.flag.keep then .run s else unregister s a

/-- The loop of `__fly_event_handle`, src/event.c:801-836, over the events epoll reported. -/
def batch (W : World) : St → List Nat → Res
  | s, [] => .run s
  | s, a :: as => (dispatch W s a).bind fun s => batch W s as

/-- `__fly_event_handle_nomonitorable`, src/event.c:762-787, for at most `n` passes. -/
def drain (W : World) : Nat → St → Res
  | 0, s => if s.unmon.isEmpty then .run s else .stuck s
  | n + 1, s =>
    match s.unmon with
    | [] => .run s
    | a :: _ => (dispatch W s a).bind fun s => drain W n s

/-- The loop body of `__fly_expired_event`, src/event.c:632-642: the expired handler of an event is called without blocking signals,
its errors are not looked at, and the event is removed in any case. -/
def expire1 (X : World) (s : St) (a : Nat) : Res :=
  match s.heap a with
  | none => .uaf
  | some e =>
    let o := X s a
    let s := { s with trace := s.trace ++ [seen e a s.masked o] }
    let s := act s a e o
    (if o.fails then failure s a { e with flag := o.flag } else .run s).bind fun s => unregister s a

/-- `__fly_expired_event`, src/event.c:624-645, for the expired events `as`. -/
def expire (X : World) : St → List Nat → Res
  | s, [] => .run s
  | s, a :: as => (expire1 X s a).bind fun s => expire X s as

/-- How `epoll_wait` returns: with ready events, or because the wait ran out while the events in the list are expired. -/
inductive Wake where
  | ready (as : List Nat)
  | timeout (as : List Nat)
  deriving Repr

/-- One turn of `fly_event_handler`, src/event.c:845-907; a wait that is interrupted is repeated and is not a turn.  `n` bounds the passes
of the second loop. -/
def turn (W X : World) (n : Nat) (s : St) : Wake → Res
  | .ready as => (batch W s as).bind (drain W n)
  | .timeout as => (expire X s as).bind (drain W n)

/-- An event manager with nothing registered (`fly_event_manager_init`, src/event.c:44-83), and events registered before the loop
begins. -/
def start (es : List Ev) : St := es.foldl register ⟨fun _ => none, 0, [], [], [], [], false, []⟩

end Fly.Dispatch
