import Verif.Dispatch.Model

/-! # What dispatching has to do, in terms of what is observed -/

namespace Fly.Dispatch

/-- The events whose handlers were called, in order. -/
def calls : List Obs → List Nat
  | [] => []
  | .call a _ _ :: t => a :: calls t
  | _ :: t => calls t

/-- The log entries written, in order. -/
def written : List Obs → List Nat
  | [] => []
  | .write l _ _ :: t => l :: written t
  | _ :: t => written t

/-- The log entries handlers asked for, in order. -/
def produced : List Obs → List Nat
  | [] => []
  | .call _ _ o :: t => (o.spawn.filter (fun e => !e.monitorable)).map (·.line) ++ produced t
  | _ :: t => produced t

/-- Signals were blocked during every call. -/
def Masked (t : List Obs) : Prop := (∀ a m o, .call a m o ∈ t → m = true) ∧ (∀ l m o, .write l m o ∈ t → m = true)

/-- What every handler of the server does: it leaves the flag `FLY_CLOSE_EV` exactly if it closed the descriptor of its event;
descriptors it registers are new and different from each other; log entries are written by a handler that neither closes nor fails
nor registers anything (`fly_log_event_handler`, src/log.c:633-661, with the lock waited for, 582). -/
structure Contract (W : World) : Prop where
  flagClose : ∀ s a, (W s a).closes = (W s a).flag.close
  closeOnly : ∀ s a, (W s a).flag.close = true → (W s a).flag = Flag.closeEv
  fresh : ∀ s a e, e ∈ (W s a).spawn → e.monitorable = true → e.fd ∉ s.files ∧ e.flag.close = false
  distinct : ∀ s a, (((W s a).spawn.filter (·.monitorable)).map (·.fd)).Nodup
  line : ∀ s a e, s.heap a = some e → e.monitorable = false →
    (W s a).flag = Flag.zero ∧ (W s a).closes = false ∧ (W s a).fails = false ∧ (W s a).spawn = []

/-- What `epoll_wait` may report: descriptors it watches, each once; and what the timers may report: registered events, in the order of
the queue. -/
def Legit (s : St) : Wake → Prop
  | .ready as => as.Nodup ∧ ∀ a ∈ as, ∃ fd, (fd, a) ∈ s.kern
  | .timeout as => as.Sublist s.mon

/-- The server, waiting in `s`, may later be waiting in the second state; handlers `W`, expired handlers `X`. -/
inductive Later (W X : World) (s : St) : St → Prop where
  | here : Later W X s s
  | turn (s1 s2 : St) (w : Wake) (n : Nat) : Later W X s s1 → Legit s1 w → turn W X n s1 w = .run s2 → Later W X s s2

/-- The states in which the server waits, beginning with the events `es`. -/
def Reach (W X : World) (es : List Ev) (s : St) : Prop := Later W X (start es) s

/-- Events a process may begin with: sockets, all different, none closed. -/
def Begin (es : List Ev) : Prop := (∀ e ∈ es, e.monitorable = true ∧ e.flag.close = false) ∧ (es.map (·.fd)).Nodup

/-- The errors of a call that end the process. -/
def Fatal (e : Ev) (o : Outcome) : Prop := (∃ l ∈ o.errs, l = .emerg ∨ l = .crit ∨ l = .err) ∨ (e.failTerm = true ∧ o.fails = true)

/-- A flag that asks to keep the event: persistent, not to be deleted, or modified. -/
def Keeps (f : Flag) : Prop := f.persistent = true ∨ f.nodelete = true ∨ f.modify = true

/-- The events handled in a turn. -/
def Wake.events : Wake → List Nat
  | .ready as => as
  | .timeout as => as

/-- The closings observed with an outcome. -/
def closing (e : Ev) (o : Outcome) : List Obs := if o.closes || o.fails then [.close e.fd] else []

end Fly.Dispatch
