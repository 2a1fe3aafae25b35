import Verif.H2Ack.Model

/-! # The control frames of a connection that ends (`src/v2.c`)

`fly_hv2_close_handle`, src/v2.c:1445-1471, closes every stream of the connection, the root stream first; this is what `fly_hv2_close_stream` does there to the frames of `H2Ack`.

Simplifications: those of `H2Ack`; `yetsend_count` is taken to be the length of the list it counts. -/

namespace Fly.H2A

/-- `fly_hv2_send_frame_release_only_resource`, src/v2.c:757-762. -/
def releaseOnly (s : St) (a : Nat) : List Block :=
  pbfree (if (s.at a).moved then s.live else pbfree s.live (.payload a)) (.frame a)

/-- The frames that have not been sent, src/v2.c:395-406, with `fly_hv2_send_frame_release_noqueue_remove`, 764-771: a frame to be acknowledged is no longer counted, but stays on the list `yetack`.
`none`: the frame's memory has been released. -/
def dropUnsent : List Nat → St → Option St
  | [], s => some { s with send := [] }
  | a :: rest, s =>
    if .frame a ∈ s.live then dropUnsent rest { s with live := releaseOnly s a, count := if (s.at a).needAck then s.count - 1 else s.count }
    else none

/-- The frames that have not been acknowledged, src/v2.c:409-416.  `none`: the frame's memory has been released. -/
def dropUnacked : List Nat → St → Option St
  | [], s => some { s with yetack := [] }
  | a :: rest, s =>
    if .frame a ∈ s.live then dropUnacked rest { s with live := releaseOnly s a, count := if (s.at a).needAck then s.count - 1 else s.count }
    else none

/-- `fly_hv2_close_stream`, src/v2.c:376-425, of the root stream: the second loop runs if frames to be acknowledged are still counted (408). -/
def closeRoot (s : St) : Option St :=
  (dropUnsent s.send s).bind fun s1 => if s1.count > 0 then dropUnacked s1.yetack s1 else some s1

end Fly.H2A
