import Verif.H2Buf.Props

/-! # A run of the model of Verif.H2Buf -/

namespace Fly.H2Buf

open H2Feed (stream)

/-- The run of the first example in Verif.H2Buf.Props, computed: one frame has been handled, three bytes of the next are in the buffer and 20 have not been read. -/
example : (Buffer.init zeros 1 4 25).map (fun b0 =>
      match start zeros 16384 (fun _ => false) b0 (b!"PRI * HTTP/2.0\r\n\r\nSM\r\n\r\n" ++ stream H2Feed.sampleFrames) [0, 0, 100, 1, 9, 1] with
      | (fs, .waits b rest) => (fs, b.useLen, rest.length)
      | _ => ([], 0, 0)) = some ([⟨4, 0, 0, []⟩], 3, 20) := by decide +kernel

/-! ## A request (`C208_requests_answered_partial`) -/

def settings : H2Feed.Raw := ⟨4, 0, 0, H2.wireSettings [(4, 65535), (5, 16384)]⟩

/-- The block of `Nego.takeTurn`, with a priority. -/
def block : Bytes := [0, 0, 0, 0, 15] ++ Nego.repsTake.flatMap Hpack.Rep.wire

/-- The settings lie in two chunks of 37 bytes: the preface is before them in the first one. -/
def hello : H2Wire.Arrival := H2Wire.arrival ⟨settings.bytes.take 13, [settings.bytes.drop 13 ++ List.replicate 29 0]⟩

/-- The request lies at the beginning of the second chunk, with one byte left. -/
def asked : H2Wire.Arrival := H2Wire.arrival (H2Wire.place 1 37 1 block)

theorem asked_talk : H2Wire.Talk (Nego.negotiating Nego.sampleSite2) H2Trip.sampleConn 4096 4 (H2Wire.Client.fresh 65535) [asked] [.turn Nego.takeTurn] :=
  .next _ _ _ _ [_] _ (.bare _ [(b!":path", b!"/f")] _ _ _ _ (.turn Nego.takeTurn) 5 _ ⟨Nego.take_says, fun _ => ⟨Nego.take_asked, trivial⟩, fun h => absurd Nego.take_met h⟩
    ⟨[0, 0, 0, 0, 15], Nego.repsTake.flatMap Hpack.Rep.wire, Or.inr rfl, rfl, H2Wire.place_holds 1 37 1 _ (by decide) (by decide +kernel), H2Wire.place_behind _ _ _ _ _⟩
    (by decide) (by decide) rfl rfl ⟨rfl, rfl, rfl, rfl⟩ H2Wire.take_draws) (.done _)

theorem frames_fit : ∀ f ∈ [settings, ⟨1, 37, 1, block⟩], f.Fits 16384 := by unfold H2Feed.Raw.Fits; decide +kernel

/-- The preface, the settings and the request arrive with four events, in chunks of 37 bytes. -/
example (g : Hpack.DNode) : ∃ l os rs, H2Wire.run (Nego.negotiating Nego.sampleSite2) H2Trip.sampleConn (H2Wire.Link.init 4 g 4096) [hello, asked] = some (l, os, rs) ∧ rs.map (·.1) = [1] := by
  have hns : (stream [settings, ⟨1, 37, 1, block⟩]).length ≤ ((13 :: 8 :: 36 :: List.replicate 60 1).filter (· ≠ 0)).length := by decide +kernel
  obtain ⟨b0, h1, h2⟩ := C208_requests_answered_partial Nego.sampleSite2 Nego.sampleSite_written H2Trip.sampleConn (by decide) 4 g 4096 [(4, 65535), (5, 16384)]
    (by unfold H2Wire.Setting; decide) 65535 (Or.inr ⟨[], [(5, 16384)], rfl, by decide⟩) zeros zeros_length 500 37 (by decide) (by decide) (fun _ => false)
    [⟨1, 37, 1, block⟩] frames_fit 0 24 (by decide) (13 :: 8 :: 36 :: List.replicate 60 1) hns 1 (by decide) hello [asked] _ asked_talk
  obtain ⟨b0', k1, k2⟩ := C208_no_overflow_partial zeros zeros_length 500 37 (by decide) (by decide) 16384 (by decide) (fun _ => false) [settings, ⟨1, 37, 1, block⟩] frames_fit (by simp)
    (by decide) 0 24 (by decide) (13 :: 8 :: 36 :: List.replicate 60 1 ++ List.replicate 1 0)
  have hb : b0' = b0 := Option.some.inj (by rw [← k1, h1])
  rcases h2 with ⟨done, h2⟩ | ⟨_, h2⟩
  · rw [hb] at k2
    exact absurd h2 (k2 done)
  · have hb0 : b0 = ⟨[Buffer.Chunk.fresh (zeros 37)], 500, 37, 0⟩ := Option.some.inj (by rw [← h1]; rfl)
    obtain ⟨l, os, rs, r1, r2, _⟩ := h2 (by rw [hb0]; decide +kernel)
    exact ⟨l, os, rs, r1, r2⟩

end Fly.H2Buf
