import Verif.Conn.Model

/-! # What clients and operators expect of connections -/

namespace Fly.Conn

/-- The list of protocols a client offers, as it is sent (RFC 7301): each name behind its length. -/
def wire (names : List Bytes) : Bytes := names.flatMap fun n => n.length :: n

/-- The choice the server announces in its documentation: HTTP/2 where it is offered, else HTTP/1.1. -/
def choice (names : List Bytes) : Alpn :=
  if b!"h2" ∈ names then .selected .v2 else if b!"http/1.1" ∈ names then .selected .v1 else .noack

/-- The connection is over: nothing of it is left, and the worker goes on. -/
def Closed (s : St) : Prop :=
  s.worker = .up ∧ s.event = false ∧ s.sock = false ∧ s.conn = .freed ∧ s.ssl ≠ .live ∧ s.acc ≠ .live ∧ s.req ≠ .live ∧ s.res ≠ .live

/-- The connection is open, its event is registered and its objects exist. -/
def Open (s : St) : Prop := s.worker = .up ∧ s.event = true ∧ s.sock = true ∧ s.conn = .live

/-- The events that are shown to end or to break the worker. -/
def Trouble (s : St) (i : In) : Prop :=
  i = .peek .error ∨ i = .shake .syscallGone ∨ i = .resp .interim ∨ (i = .req .error ∧ s.sslFlag = false) ∨
    ((i = .timeout ∨ i = .finish) ∧ (s.handler = .recognize ∨ s.handler = .handshake))

/-- None of them happens. -/
def Calm (s : St) : List In → Prop
  | [] => True
  | i :: is => ¬ Trouble s i ∧ Calm (step s i) is

instance (s : St) : Decidable (Closed s) := inferInstanceAs (Decidable (_ ∧ _))

instance (s : St) (i : In) : Decidable (Trouble s i) := inferInstanceAs (Decidable (_ ∨ _))

instance Calm.dec : (s : St) → (is : List In) → Decidable (Calm s is)
  | _, [] => .isTrue trivial
  | s, i :: is => @instDecidableAnd _ _ inferInstance (Calm.dec (step s i) is)

end Fly.Conn
