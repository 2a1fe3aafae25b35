import Verif.Basic

/-! # Model of the senders

A schedule is the list of results of successive `send` / `SSL_write` calls: the peer and the kernel
decide how much is taken and when a call would block.  Each sender is run against a schedule and yields
the bytes that went out on the connection and whether the sender reported success. -/

namespace Fly.Send

/-- Result of one write call; `sent n`: at most `n` bytes were taken. -/
inductive Sys where
  | sent (n : Nat)
  | block
  | intr
  | fail
  deriving DecidableEq, Repr

/-- HTTP/1: `fly_response_send` (src/response.c:1587-1652) called by `fly_response_event`
(src/response.c:724-744) again after blocking.  `ptr` is set once before the loop and never advanced;
`byte_from_start` is never updated, so `total` restarts at 0 after blocking. -/
def h1Run (data : Bytes) (total : Nat) : List Sys → Bytes × Bool
  | [] => ([], decide (data.length ≤ total))
  | s :: ss =>
    if data.length ≤ total then ([], true)
    else
      match s with
      | .block => h1Run data 0 ss
      | .intr => ([], false)
      | .fail => ([], false)
      | .sent n =>
        let k := min n (data.length - total)
        let r := h1Run data (total + k) ss
        (data.take k ++ r.1, r.2)

/-- HTTP/2 control and header frames: `__fly_send_frame` (src/v2.c:3280-3363) called again after
blocking by `fly_state_send_frame` (src/v2.c:2882-2983).  `send_fase` survives in the frame, `total` is a
local that restarts at 0. -/
def frameRun (hdr payload : Bytes) (inPayload : Bool) (total : Nat) : List Sys → Bytes × Bool
  | [] => ([], inPayload && decide (payload.length ≤ total))
  | s :: ss =>
    if inPayload && decide (payload.length ≤ total) then ([], true)
    else
      match s with
      | .block => frameRun hdr payload inPayload 0 ss
      | .intr => frameRun hdr payload inPayload total ss
      | .fail => ([], false)
      | .sent n =>
        if inPayload then
          let out := (payload.drop total).take n
          let r := frameRun hdr payload true (total + out.length) ss
          (out ++ r.1, r.2)
        else
          let out := (hdr.drop total).take n
          let r :=
            if hdr.length ≤ total + out.length then frameRun hdr payload true 0 ss
            else frameRun hdr payload false (total + out.length) ss
          (out ++ r.1, r.2)

/-- The header of a DATA frame: `__fly_send_data_fh` (src/v2.c:2429-2531).  Over TLS the rest is
written, over plain TCP always the whole header from its start (2478); `res->blocking` is never set, so
after blocking a new header is started. -/
def dataHeaderRun (tls : Bool) (hdr : Bytes) (total : Nat) : List Sys → Bytes × Bool
  | [] => ([], decide (hdr.length ≤ total))
  | s :: ss =>
    if hdr.length ≤ total then ([], true)
    else
      match s with
      | .block => dataHeaderRun tls hdr 0 ss
      | .intr => ([], false)
      | .fail => ([], false)
      | .sent n =>
        let out := (if tls then hdr.drop total else hdr).take n
        let r := dataHeaderRun tls hdr (total + out.length) ss
        (out ++ r.1, r.2)

/-- Windows of the peer: stream and connection (`p_window_size`). -/
structure Win where
  stream : Int
  conn : Int
  deriving DecidableEq, Repr

/-- `fly_hv2_peer_window_size_update`, src/v2.c:2544-2548. -/
def Win.use (w : Win) (n : Nat) : Win := ⟨w.stream - n, w.conn - n⟩

/-- The payload of a DATA frame: the loop `FLY_RESPONSE_TYPE_BODY` of `fly_send_data_frame`
(src/v2.c:2592-2596, 2667-2721): `byte_from_start` survives blocking. -/
def bodyRun (body : Bytes) (total : Nat) (w : Win) : List Sys → Bytes × Bool × Win
  | [] => ([], decide (body.length ≤ total), w)
  | s :: ss =>
    if body.length ≤ total then ([], true, w)
    else
      match s with
      | .block => bodyRun body total w ss
      | .intr => bodyRun body total w ss
      | .fail => ([], false, w)
      | .sent n =>
        let out := (body.drop total).take n
        let r := bodyRun body (total + out.length) (w.use out.length) ss
        (out ++ r.1, r.2)

/-- What `fly_send_data_frame` decides to send for a body of `len` bytes. -/
inductive DataAct where
  /-- wait for WINDOW_UPDATE -/
  | wait
  /-- no DATA frame, the response is finished -/
  | nothing
  /-- one DATA frame of `len` bytes, with END_STREAM or not -/
  | frame (len : Nat) (fin : Bool)
  deriving DecidableEq, Repr

/-- Start of `fly_send_data_frame`, src/v2.c:2577-2590.  (The comparison is on `size_t`; both windows are
positive there.) -/
def startData (w : Win) (len : Nat) : DataAct :=
  if w.stream ≤ 0 ∨ w.conn ≤ 0 then .wait
  else if len = 0 then .nothing
  else .frame len (decide ((len : Int) < (if w.stream > w.conn then w.conn else w.stream)))

/-- A frame queued for a response: type (1 HEADERS, 9 CONTINUATION), flags, payload. -/
structure OutFrame where
  type : Nat
  flags : Nat
  payload : Bytes
  deriving DecidableEq, Repr

/-- The loop of `fly_send_headers_frame` (src/v2.c:3195-3237) and `__fly_send_headers_frame`
(3138-3158), on the encoded header fields; `acc` are the bytes not yet put in a frame.  The
intermediate buffer is taken as a queue of unlimited capacity (see `C66_block_over_1000_bytes_lost_refuted`). -/
def splitHeaders (maxFrame : Nat) (noContent : Bool) : List Bytes → Bytes → Bool → List OutFrame
  | [], acc, over => [⟨if over then 9 else 1, if noContent then 5 else 4, acc⟩]
  | p :: ps, acc, over =>
    if maxFrame ≤ acc.length + p.length then
      ⟨if over then 9 else 1, 0, acc⟩ :: splitHeaders maxFrame noContent ps p true
    else splitHeaders maxFrame noContent ps (acc ++ p) over

def headerFrames (maxFrame : Nat) (noContent : Bool) (fields : List Bytes) : List OutFrame :=
  splitHeaders maxFrame noContent fields [] false

end Fly.Send
