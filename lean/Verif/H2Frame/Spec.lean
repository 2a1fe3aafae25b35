import Verif.H2Frame.Model

/-! # Specification of the HTTP/2 wire format (RFC 7540 §4.1, §6.4, §6.5, §6.7, §6.8, §6.9) -/

namespace Fly.H2

/-- RFC 7540 §4.1: the nine bytes of a frame header, `R` being the reserved bit. -/
def wireHeader (length type flags : Nat) (r : Bool) (sid : Nat) : Bytes :=
  [length / 65536, length / 256 % 256, length % 256, type, flags,
   (if r then 128 else 0) + sid / 16777216, sid / 65536 % 256, sid / 256 % 256, sid % 256]

/-- RFC 7540 §6.5.2: the effect of one received setting. -/
def rfcSetting (s : Settings) (id value : Nat) : SettingsResult :=
  match id with
  | 1 => .ok { s with headerTableSize := value }
  | 2 => if value ≤ 1 then .ok { s with enablePush := value } else .protocolError
  | 3 => .ok { s with maxConcurrentStreams := value }
  | 4 => if value ≤ 2147483647 then .ok { s with initialWindowSize := value } else .flowControlError
  | 5 => if 16384 ≤ value ∧ value ≤ 16777215 then .ok { s with maxFrameSize := value } else .protocolError
  | 6 => .ok { s with maxHeaderListSize := value }
  | _ => .ok s

/-- RFC 7540 §6.5: settings are processed in order; the first error ends the connection. -/
def rfcSettings (s : Settings) : List (Nat × Nat) → SettingsResult
  | [] => .ok s
  | (id, v) :: rest =>
    match rfcSetting s id v with
    | .ok s' => rfcSettings s' rest
    | e => e

/-- Wire form of a SETTINGS payload, RFC 7540 §6.5.1. -/
def wireSettings : List (Nat × Nat) → Bytes
  | [] => []
  | (id, v) :: rest =>
    [id / 256, id % 256, v / 16777216, v / 65536 % 256, v / 256 % 256, v % 256] ++ wireSettings rest

/-- Events on the send queue of one stream: the server grants credit for `u` received bytes, or the
oldest waiting frame is handed to the network. -/
inductive WOp where
  | credit (u : Nat)
  | sendFirst

/-- Frames already sent, frames waiting. -/
def wstep (st : List (Option Nat) × YetSend) : WOp → List (Option Nat) × YetSend
  | .credit u => (st.1, sendWindowUpdate st.2 u)
  | .sendFirst =>
    match st.2 with
    | [] => st
    | f :: q => (st.1 ++ [f], q)

/-- Sum of the WINDOW_UPDATE sizes in a list of frames (other frames are `none`). -/
def creditIn (fs : List (Option Nat)) : Nat := (fs.map fun o => o.getD 0).sum

/-- The credit granted by a history. -/
def granted : List WOp → Nat
  | [] => 0
  | .credit u :: ops => u + granted ops
  | .sendFirst :: ops => granted ops

end Fly.H2
