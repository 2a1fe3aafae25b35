import Verif.Buffer.Model

/-! # Specification of the connection buffer: a byte queue

The abstract buffer is the list of bytes received and not yet consumed. -/

namespace Fly.Buffer

/-- What happens to a connection buffer. -/
inductive Op where
  /-- the kernel delivers `bs` into the room it was offered -/
  | recv (bs : Bytes)
  /-- the server has processed the first `n` bytes -/
  | consume (n : Nat)

/-- A byte queue: received bytes go to the end, consumed bytes leave at the front. -/
def specStep (q : Bytes) : Op → Bytes
  | .recv bs => q ++ bs
  | .consume n => q.drop n

def specRun (q : Bytes) (ops : List Op) : Bytes := ops.foldl specStep q

/-- The model's meaning of an operation (the success/limit report is dropped here). -/
def step (mem : Nat → Bytes) (b : Buf) : Op → Option Buf
  | .recv bs =>
    match receive mem b bs with
    | some (.success b') => some b'
    | some (.limit b') => some b'
    | none => none
  | .consume n => release b n

def run (mem : Nat → Bytes) : Buf → List Op → Option Buf
  | b, [] => some b
  | b, op :: ops =>
    match step mem b op with
    | none => none
    | some b' => run mem b' ops

/-- `recv` never returns more than it was offered; the server only consumes bytes it has, and not
the very last byte of a buffer that is filled to the brim. -/
def okOp (b : Buf) (q : Bytes) : Op → Prop
  | .recv bs => bs.length ≤ room b
  | .consume n => n ≤ q.length ∧ (room b = 0 → n < q.length)

instance (b : Buf) (q : Bytes) (op : Op) : Decidable (okOp b q op) := by
  cases op <;> unfold okOp <;> infer_instance

def Valid (mem : Nat → Bytes) : Buf → Bytes → List Op → Prop
  | _, _, [] => True
  | b, q, op :: ops => okOp b q op ∧ ∀ b', step mem b op = some b' → Valid mem b' (specStep q op) ops

/-- `n` bytes read by the server at offset `i` of the buffered data: walk to the position
(`fly_update_chain`) and copy (`fly_buffer_memcpy`). -/
def readAt (b : Buf) (i n : Nat) : Option Bytes :=
  ((firstPtr b).bind (advance · i)).bind (memcpy n)

end Fly.Buffer
