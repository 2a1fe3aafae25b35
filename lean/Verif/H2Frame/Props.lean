import Verif.H2Frame.Lemmas
import Verif.H2Frame.Spec

/-! # Theorems: HTTP/2 wire codecs -/

namespace Fly.H2
open Fly.Buffer

/-! ## C07 frame header -/

/-- The bytes written for a frame header are those of RFC 7540 §4.1. -/
theorem C07_written_header_layout (len type flags sid : Nat) (r : Bool) (h1 : len < 2 ^ 24) (h4 : sid < 2 ^ 31) :
    frameHeader len type flags r sid = wireHeader len type flags r sid := by
  have e1 : len / 256 ^ 2 % 256 = len / 65536 := by
    rw [show (256:Nat) ^ 2 = 65536 from rfl]; omega
  have e2 : sid / 256 ^ 3 % 256 = sid / 16777216 := by
    rw [show (256:Nat) ^ 3 = 16777216 from rfl]; omega
  have e3 : ((if r then 128 else 0) ||| sid / 16777216) = (if r then 128 else 0) + sid / 16777216 := by
    cases r
    · simp
    · simp only [if_true]; exact or128 _ (by omega)
  simp only [frameHeader, wireHeader, toBE, e1, e2, e3]
  simp

/-- Any nine bytes followed by anything, over any split of the bytes over the buffer's chunks: the
readers return the fields of RFC 7540 §4.1 (the reserved bit is ignored), and the payload pointer is
at the tenth byte. -/
theorem C07_read_header (len type flags sid : Nat) (r : Bool) (payload : Bytes)
    (h1 : len < 2 ^ 24) (h4 : sid < 2 ^ 31)
    (c : Cursor) (hc : c.cur ≠ [] ∧ ∀ p ∈ c.rest, p ≠ [])
    (hb : c.cur ++ c.rest.flatten = wireHeader len type flags r sid ++ payload) :
    lengthOf c = some len ∧ typeOf c = some type ∧ flagsOf c = some flags ∧ sidOf c = some sid ∧
    (payload ≠ [] → ∃ p, payloadOf c = some p ∧ p.cur ++ p.rest.flatten = payload) := by
  have hne : NE c := ⟨hc.1, hc.2⟩
  have hf : c.flat = wireHeader len type flags r sid ++ payload := hb
  have hl : 9 ≤ c.flat.length := by rw [hf]; simp [wireHeader]
  refine ⟨?_, ?_, ?_, ?_, ?_⟩
  · obtain ⟨x, e1, _⟩ := takeN_spec 3 c hne (by omega)
    simp only [lengthOf, e1, Option.map_some, hf, wireHeader]
    simp [be]; omega
  · rw [typeOf, byteAt_spec 3 c hne (by omega), hf]; rfl
  · rw [flagsOf, byteAt_spec 4 c hne (by omega), hf]; rfl
  · rw [sidOf_spec c hne _ _ _ _ payload (by rw [hf]; rfl)]
    have : clearTop ((if r then 128 else 0) + sid / 16777216) = sid / 16777216 := by
      unfold clearTop; cases r <;> simp <;> omega
    rw [this]
    simp [be]; omega
  · intro hp
    have := List.length_pos_iff.2 hp
    obtain ⟨p, e1, _, e3⟩ := payloadOf_spec c hne (by rw [hf]; simp [wireHeader]; omega)
    refine ⟨p, e1, ?_⟩
    have : p.flat = payload := by rw [e3, hf]; rfl
    exact this

/-- C07: what was written is read back, whatever the chunking. -/
theorem C07_frame_header_roundtrip (len type flags sid : Nat) (r : Bool) (payload : Bytes)
    (h1 : len < 2 ^ 24) (h4 : sid < 2 ^ 31)
    (c : Cursor) (hc : c.cur ≠ [] ∧ ∀ p ∈ c.rest, p ≠ [])
    (hb : c.cur ++ c.rest.flatten = frameHeader len type flags r sid ++ payload) :
    lengthOf c = some len ∧ typeOf c = some type ∧ flagsOf c = some flags ∧ sidOf c = some sid ∧
    (payload ≠ [] → ∃ p, payloadOf c = some p ∧ p.cur ++ p.rest.flatten = payload) := by
  rw [C07_written_header_layout len type flags sid r h1 h4] at hb
  exact C07_read_header len type flags sid r payload h1 h4 c hc hb

/-- A DATA frame header split over three chunks, inside the length and inside the stream id. -/
example : ∃ c : Cursor, (c.cur ≠ [] ∧ ∀ p ∈ c.rest, p ≠ []) ∧ c.rest.length = 2 ∧
    c.cur ++ c.rest.flatten = frameHeader 300 0 1 true 70001 ++ [7, 8] :=
  ⟨⟨[0, 1], [[44, 0, 1, 128, 1], [17, 113, 7, 8]]⟩, by decide⟩

/-- REFUTED part: the reserved bit is taken from the wrong bit of byte 5.  For every header and every split
over chunks the reported value is bit 24 of the stream id, whatever the reserved bit is. -/
theorem C07_reserved_bit_misread_refuted (len type flags sid : Nat) (r : Bool) (payload : Bytes)
    (c : Cursor) (hc : c.cur ≠ [] ∧ ∀ p ∈ c.rest, p ≠ [])
    (hb : c.cur ++ c.rest.flatten = wireHeader len type flags r sid ++ payload) :
    rOf c = some (decide (sid / 2 ^ 24 % 2 = 1)) := by
  have hf : c.flat = wireHeader len type flags r sid ++ payload := hb
  rw [rOf, byteAt_spec 5 c ⟨hc.1, hc.2⟩ (by rw [hf]; simp [wireHeader]), hf]
  have e : (wireHeader len type flags r sid ++ payload)[5]? = some ((if r then 128 else 0) + sid / 16777216) := rfl
  rw [e]
  simp only [Option.map_some, Option.some.injEq, decide_eq_decide]
  cases r <;> simp <;> omega

/-- Stream 2^24 without, stream 1 with the reserved bit: both are misreported. -/
example : rOf ⟨frameHeader 0 0 0 false (2 ^ 24) ++ [0], []⟩ = some true ∧ rOf ⟨frameHeader 0 0 0 true 1 ++ [0], []⟩ = some false := by decide

/-- The 31-bit reader (window increments, last-stream-id) is right when the four bytes do not touch
the end of a chunk. -/
theorem C07_read31_contiguous_partial (v : Nat) (r : Bool) (hv : v < 2 ^ 31) (c : Cursor) (t : Bytes)
    (ht : t ≠ []) (hc : c.cur = windowPayload v r ++ t) :
    read31 c = some (v, some ⟨t, c.rest⟩) := by
  have := List.length_pos_iff.2 ht
  have hl : ¬ c.cur.length ≤ 4 := by rw [hc]; simp [windowPayload, toBE]; omega
  unfold read31
  rw [if_neg hl, hc]
  simp only [windowPayload, toBE, List.cons_append, List.nil_append]
  have := be_sid r v hv
  simp only [toBE] at this
  rw [this]

example : ∃ (c : Cursor) (t : Bytes), t ≠ [] ∧ c.cur = windowPayload 65535 true ++ t := ⟨⟨[128, 0, 255, 255, 1], []⟩, [1], by decide⟩

/-- REFUTED part: whenever the four bytes reach the end of a chunk the reader clears the top bit of the last
byte instead of the first.  For every value and split the number read is exactly this; so it is wrong for
every value with bit 7 set, and for every set reserved bit. -/
theorem C07_read31_chunk_crossing_refuted (v : Nat) (r : Bool) (hv : v < 2 ^ 31) (t : Bytes)
    (c : Cursor) (hc : c.cur ≠ [] ∧ ∀ p ∈ c.rest, p ≠ []) (hx : c.cur.length ≤ 4) (hb : c.cur ++ c.rest.flatten = windowPayload v r ++ t) :
    (read31 c).map (·.1) = some ((if r then 2 ^ 31 else 0) + (v - if v / 128 % 2 = 1 then 128 else 0)) := by
  have hf : c.flat = windowPayload v r ++ t := hb
  obtain ⟨x, e1, _⟩ := takeSlow_spec 4 c ⟨hc.1, hc.2⟩ (by rw [hf]; simp [windowPayload, toBE])
  unfold read31
  rw [if_pos hx, e1, hf]
  have ht : (windowPayload v r ++ t).take 4 = [(if r then 128 else 0) + v / 16777216, v / 65536 % 256, v / 256 % 256, v % 256] := by
    have : v / 256 ^ 3 % 256 = v / 16777216 := by rw [show (256:Nat) ^ 3 = 16777216 from rfl]; omega
    have e3 : ((if r then 128 else 0) ||| v / 16777216) = (if r then 128 else 0) + v / 16777216 := by
      cases r
      · simp
      · simp only [if_true]; exact or128 _ (by omega)
    simp [windowPayload, toBE, this, e3]
  simp only [Option.bind_some, ht, Option.map_some, Option.some.injEq]
  simp only [be, clearTop, List.length_cons, List.length_nil]
  cases r <;> simp <;> split <;> omega

/-- An increment of 128 over two chunks is read as 0. -/
example : (read31 ⟨[0, 0], [[0, 128, 9]]⟩).map (·.1) = some 0 := by decide

/-! ## C14 window updates -/

theorem wrun_spec (ops : List WOp) (hops : ∀ u, WOp.credit u ∈ ops → 1 ≤ u ∧ u ≤ windowSizeMax)
    (st : List (Option Nat) × YetSend) (h1 : Good st.1) (h2 : Good st.2) :
    let r := ops.foldl wstep st
    Good r.1 ∧ Good r.2 ∧ creditIn r.1 + creditIn r.2 = creditIn st.1 + creditIn st.2 + granted ops ∧
      (r.1 ++ r.2).filter (· == none) = (st.1 ++ st.2).filter (· == none) := by
  induction ops generalizing st with
  | nil => exact ⟨h1, h2, by simp [granted], rfl⟩
  | cons op ops ih =>
    have ih := ih (fun u hu => hops u (by simp [hu])) (wstep st op)
    cases op with
    | credit u =>
      obtain ⟨a, b⟩ := hops u (by simp)
      obtain ⟨g1, g2, g3, g4, g5⟩ := combine_spec st.2.length st.2 u h2 a b
      simp only [wstep, sendWindowUpdate] at ih ⊢
      rw [read31nb_windowPayload _ g3] at ih
      have hg : Good ((combine st.2.length st.2 u).1 ++ [some (combine st.2.length st.2 u).2]) := by
        intro s hs
        rcases List.mem_append.1 hs with hs | hs
        · exact g1 s hs
        · simp at hs; subst hs; exact ⟨g2, g3⟩
      obtain ⟨k1, k2, k3, k4⟩ := ih h1 hg
      simp only [List.foldl_cons, wstep, sendWindowUpdate]
      rw [read31nb_windowPayload _ g3]
      refine ⟨k1, k2, ?_, ?_⟩
      · rw [k3]
        simp only [creditIn, granted, total] at g4 ⊢
        simp only [List.map_append, List.sum_append, List.map_cons, List.map_nil, Option.getD_some, List.sum_cons,
          List.sum_nil]
        omega
      · rw [k4]
        simp only [List.filter_append, g5]
        simp
    | sendFirst =>
      simp only [List.foldl_cons]
      obtain ⟨s1, q⟩ := st
      cases q with
      | nil => exact ih h1 h2
      | cons f q =>
        have a : Good (s1 ++ [f]) := by
          intro s hs
          rcases List.mem_append.1 hs with hs | hs
          · exact h1 s hs
          · simp at hs; subst hs; exact h2 s (by simp)
        have b : Good q := fun s hs => h2 s (by simp [hs])
        obtain ⟨k1, k2, k3, k4⟩ := ih a b
        refine ⟨k1, k2, ?_, ?_⟩
        · simp only [wstep] at k3 ⊢
          rw [k3]
          simp only [creditIn, granted, List.map_append, List.sum_append, List.map_cons, List.sum_cons, List.map_nil, List.sum_nil]
          omega
        · simp only [wstep] at k4 ⊢
          rw [k4]; simp

/-- C14: whatever credits are granted and whenever waiting frames are sent, the WINDOW_UPDATE frames
sent and waiting add up to exactly the credit granted, each is between 1 and 2^31-1, and the other
frames of the stream are neither lost, duplicated nor reordered. -/
theorem C14_window_updates_conserve_credit (ops : List WOp)
    (hops : ∀ u, WOp.credit u ∈ ops → 1 ≤ u ∧ u ≤ 2147483647)
    (q : YetSend) (hq : ∀ s, some s ∈ q → 1 ≤ s ∧ s ≤ 2147483647) :
    let r := ops.foldl wstep ([], q)
    creditIn (r.1 ++ r.2) = creditIn q + granted ops ∧
    (∀ s, some s ∈ r.1 ++ r.2 → 1 ≤ s ∧ s ≤ 2147483647) ∧
    (r.1 ++ r.2).filter (· == none) = q.filter (· == none) := by
  obtain ⟨k1, k2, k3, k4⟩ := wrun_spec ops hops ([], q) (by intro s hs; simp at hs) hq
  refine ⟨?_, ?_, by simpa using k4⟩
  · simp only [creditIn, List.map_append, List.sum_append] at k3 ⊢
    rw [k3]; simp
  · intro s hs
    rcases List.mem_append.1 hs with hs | hs
    · exact k1 s hs
    · exact k2 s hs

/-- Two credits are merged behind a waiting frame of another kind; a third does not fit. -/
example : [WOp.credit 1000, .credit 2000, .sendFirst, .credit 2147483647].foldl wstep ([], [none])
    = ([none], [some 3000, some 2147483647]) := by decide

/-! ## C56 peer settings -/

/-- Values for which the implementation follows the RFC. -/
def okSetting (p : Nat × Nat) : Prop :=
  p.1 < 2 ^ 16 ∧ p.2 < 2 ^ 32 ∧ (p.1 = 5 → 16384 ≤ p.2 ∧ p.2 ≤ 16777215) ∧
  (p.1 = 6 → 16384 ≤ p.2 ∧ p.2 ≤ 16777215)

instance (p : Nat × Nat) : Decidable (okSetting p) := by unfold okSetting; infer_instance

theorem wireSettings_eq (l : List (Nat × Nat)) (h : ∀ p ∈ l, p.1 < 2 ^ 16 ∧ p.2 < 2 ^ 32) :
    wireSettings l = (l.map fun p => settingBytes p.1 p.2).flatten := by
  induction l with
  | nil => rfl
  | cons p l ih =>
    obtain ⟨id, v⟩ := p
    obtain ⟨h1, h2⟩ := h (id, v) (by simp)
    simp only [wireSettings, List.map_cons, List.flatten_cons, ih fun q hq => h q (by simp [hq])]
    congr 1
    simp only [settingBytes, toBE]
    simp only [show (256:Nat) ^ 3 = 16777216 from rfl, show (256:Nat) ^ 2 = 65536 from rfl, Nat.pow_one, Nat.pow_zero,
      Nat.div_one, List.cons_append, List.nil_append]
    rw [Nat.mod_eq_of_lt (a := id / 256) (by simp at h1; omega),
      Nat.mod_eq_of_lt (a := v / 16777216) (by simp at h2; omega)]

theorem applySetting_rfc (s : Settings) (id v : Nat) (h : okSetting (id, v))
    (hw : id = 4 → s.windowSize = s.initialWindowSize) : applySetting s id v = rfcSetting s id v := by
  obtain ⟨h1, h2, h5, h6⟩ := h
  simp only at h1 h2 h5 h6
  unfold rfcSetting
  split <;> unfold applySetting
  · rfl
  · simp only [show ¬ (2:Nat) = 1 by omega, if_false, if_true]
    congr 1
    apply propext; omega
  · rfl
  · simp only [show ¬ (4:Nat) = 1 by omega, show ¬ (4:Nat) = 2 by omega, show ¬ (4:Nat) = 3 by omega, if_false, if_true]
    by_cases hv : v ≤ 2147483647
    · rw [if_neg (by unfold windowSizeMax; omega), if_pos hv]
      have := hw rfl
      rw [this, Int.sub_self, Int.sub_zero, toU32]
      have : ((v : Int) % 2 ^ 32).toNat = v := by omega
      rw [this]
    · rw [if_pos (by unfold windowSizeMax; omega), if_neg hv]
  · simp only [show ¬ (5:Nat) = 1 by omega, show ¬ (5:Nat) = 2 by omega, show ¬ (5:Nat) = 3 by omega,
      show ¬ (5:Nat) = 4 by omega, if_false, if_true]
    have := h5 rfl
    rw [if_neg (by unfold frameSizeMax; omega), if_pos this]
  · simp only [show ¬ (6:Nat) = 1 by omega, show ¬ (6:Nat) = 2 by omega, show ¬ (6:Nat) = 3 by omega,
      show ¬ (6:Nat) = 4 by omega, show ¬ (6:Nat) = 5 by omega, if_false, if_true]
    have := h6 rfl
    rw [if_pos (by unfold frameSizeDefault frameSizeMax; omega)]
  · next a b c d e f =>
    rw [if_neg a, if_neg b, if_neg c, if_neg d, if_neg e, if_neg f]

theorem rfcSetting_window (s s' : Settings) (id v : Nat) (h : rfcSetting s id v = .ok s') :
    s'.windowSize = s.windowSize ∧ (id ≠ 4 → s'.initialWindowSize = s.initialWindowSize) := by
  unfold rfcSetting at h
  split at h <;> (try split at h) <;> simp at h <;> subst h <;> simp_all

/-- C56 (partial): however the SETTINGS payload is split over the buffer's chunks, the settings are
applied in order as RFC 7540 §6.5.2 says, the first offending one deciding the error.
Missing: MAX_FRAME_SIZE out of range, MAX_HEADER_LIST_SIZE outside 16384..16777215, and more than one
INITIAL_WINDOW_SIZE over the connection's life (see the refutations below). -/
theorem C56_peer_settings_partial (s : Settings) (l : List (Nat × Nat)) (hl : ∀ p ∈ l, okSetting p)
    (hw : s.windowSize = s.initialWindowSize) (h4 : (l.filter fun p => p.1 = 4).length ≤ 1)
    (c : Cursor) (hc : c.cur ≠ [] ∧ ∀ p ∈ c.rest, p ≠ [])
    (rest : Bytes) (hr : rest ≠ []) (hb : c.cur ++ c.rest.flatten = wireSettings l ++ rest) :
    peerSettings s l.length (some c) = some (rfcSettings s l) := by
  rw [peerSettings_ok s l (some c) rest ⟨c, rfl, ⟨hc.1, hc.2⟩, by
    rw [wireSettings_eq l fun p hp => ⟨(hl p hp).1, (hl p hp).2.1⟩] at hb; exact hb⟩ hr
    (fun p hp => ⟨(hl p hp).1, (hl p hp).2.1⟩)]
  have key : ∀ (l : List (Nat × Nat)) (s : Settings), (∀ p ∈ l, okSetting p) →
      ((∀ p ∈ l, p.1 ≠ 4) ∨ (s.windowSize = s.initialWindowSize ∧ (l.filter fun p => p.1 = 4).length ≤ 1)) →
      l.foldl stepSetting (.ok s) = rfcSettings s l := by
    intro l
    induction l with
    | nil => intros; rfl
    | cons p l ih =>
      intro s hl hw
      obtain ⟨id, v⟩ := p
      simp only [List.foldl_cons, rfcSettings, stepSetting]
      rw [applySetting_rfc s id v (hl _ (by simp)) (fun h => by
        rcases hw with hw | hw
        · exact absurd h (hw (id, v) (by simp))
        · exact hw.1)]
      cases hs : rfcSetting s id v with
      | ok s' =>
        refine ih s' (fun q hq => hl q (by simp [hq])) ?_
        obtain ⟨w1, w2⟩ := rfcSetting_window s s' id v hs
        rcases hw with hw | hw
        · exact .inl fun q hq => hw q (by simp [hq])
        · by_cases h4 : id = 4
          · left
            have := hw.2
            simp only [List.filter_cons, h4, decide_true, if_true, List.length_cons] at this
            have hz : (l.filter fun p => p.1 = 4) = [] := List.eq_nil_of_length_eq_zero (by omega)
            intro q hq
            have := List.filter_eq_nil_iff.1 hz q hq
            simpa using this
          · right
            refine ⟨by rw [w1, w2 h4]; exact hw.1, ?_⟩
            have := hw.2
            simpa [List.filter_cons, h4] using this
      | protocolError => exact stepSetting_stuck _ _ (by simp)
      | flowControlError => exact stepSetting_stuck _ _ (by simp)
  rw [key l s hl (.inr ⟨hw, h4⟩)]

def defaultSettings : Settings := ⟨4096, 1, 100, 65535, 16384, 16384, 65535⟩

/-- Three settings over two chunks. -/
example : ∃ c : Cursor, (c.cur ≠ [] ∧ ∀ p ∈ c.rest, p ≠ []) ∧
    c.cur ++ c.rest.flatten = wireSettings [(4, 1048576), (3, 128), (5, 65536)] ++ [0] ∧
    (∀ p ∈ [(4, 1048576), (3, 128), (5, 65536)], okSetting p) ∧
    peerSettings defaultSettings 3 (some c) =
      some (.ok { defaultSettings with initialWindowSize := 1048576, maxConcurrentStreams := 128, maxFrameSize := 65536 }) :=
  ⟨⟨[0, 4, 0, 16, 0], [[0, 0, 3, 0, 0, 0, 128, 0, 5, 0, 1], [0, 0, 0]]⟩, by decide, by decide, by decide, by decide⟩

/-- REFUTED: every legal MAX_HEADER_LIST_SIZE below 16384 or from 16777216 on is treated as a connection error,
whatever the settings before. -/
theorem C56_small_header_list_size_refused_refuted (s : Settings) (v : Nat) (hv : v < 2 ^ 32) (ho : v < 16384 ∨ 16777215 < v)
    (c : Cursor) (hc : c.cur ≠ [] ∧ ∀ p ∈ c.rest, p ≠ []) (rest : Bytes) (hr : rest ≠ [])
    (hb : c.cur ++ c.rest.flatten = wireSettings [(6, v)] ++ rest) :
    peerSettings s 1 (some c) = some .protocolError ∧ rfcSettings s [(6, v)] = .ok { s with maxHeaderListSize := v } := by
  have hv' : ∀ p ∈ [(6, v)], p.1 < 2 ^ 16 ∧ p.2 < 2 ^ 32 := by simp; exact hv
  rw [wireSettings_eq _ hv'] at hb
  refine ⟨?_, rfl⟩
  have := peerSettings_ok s [(6, v)] (some c) rest ⟨c, rfl, ⟨hc.1, hc.2⟩, hb⟩ hr hv'
  simp only [List.length_cons, List.length_nil] at this
  rw [this]
  simp only [List.foldl_cons, List.foldl_nil, stepSetting, applySetting]
  rw [if_neg (by omega), if_neg (by omega), if_neg (by omega), if_neg (by omega), if_neg (by omega), if_pos trivial,
    if_neg (by unfold frameSizeDefault frameSizeMax; omega)]

example : peerSettings defaultSettings 1 (some ⟨[0, 6, 0, 0, 32, 0, 0], []⟩) = some .protocolError := by decide

/-- REFUTED: every illegal MAX_FRAME_SIZE is accepted: below 16384 as it is (with 0 the server would send empty
frames), above 16777215 as 16777215. -/
theorem C56_zero_frame_size_accepted_refuted (s : Settings) (v : Nat) (hv : v < 2 ^ 32) (ho : v < 16384 ∨ 16777215 < v)
    (c : Cursor) (hc : c.cur ≠ [] ∧ ∀ p ∈ c.rest, p ≠ []) (rest : Bytes) (hr : rest ≠ [])
    (hb : c.cur ++ c.rest.flatten = wireSettings [(5, v)] ++ rest) :
    peerSettings s 1 (some c) = some (.ok { s with maxFrameSize := min v 16777215 }) ∧ rfcSettings s [(5, v)] = .protocolError := by
  have hv' : ∀ p ∈ [(5, v)], p.1 < 2 ^ 16 ∧ p.2 < 2 ^ 32 := by simp; exact hv
  rw [wireSettings_eq _ hv'] at hb
  refine ⟨?_, ?_⟩
  · have := peerSettings_ok s [(5, v)] (some c) rest ⟨c, rfl, ⟨hc.1, hc.2⟩, hb⟩ hr hv'
    simp only [List.length_cons, List.length_nil] at this
    rw [this]
    simp only [List.foldl_cons, List.foldl_nil, stepSetting, applySetting]
    rw [if_neg (by omega), if_neg (by omega), if_neg (by omega), if_neg (by omega), if_pos trivial]
    by_cases h : v > frameSizeMax
    · rw [if_pos h]
      unfold frameSizeMax at h ⊢
      rw [Nat.min_eq_right (by omega)]
    · rw [if_neg h]
      unfold frameSizeMax at h
      rw [Nat.min_eq_left (by omega)]
  · simp only [rfcSettings, rfcSetting]
    rw [if_neg (by omega)]

example : peerSettings defaultSettings 1 (some ⟨[0, 5, 0, 0, 0, 0, 0], []⟩) = some (.ok { defaultSettings with maxFrameSize := 0 }) := by decide

/-- REFUTED: after a first INITIAL_WINDOW_SIZE `a` that differs from the window in use, no later one `b` is what
the peer said: the difference is taken off. -/
theorem C56_second_initial_window_wrong_refuted (s : Settings) (a b : Nat) (ha : a ≤ windowSizeMax) (hb' : b ≤ windowSizeMax)
    (hw : s.windowSize = s.initialWindowSize) (hs : s.initialWindowSize ≤ windowSizeMax) (hne : a ≠ s.initialWindowSize)
    (c : Cursor) (hc : c.cur ≠ [] ∧ ∀ p ∈ c.rest, p ≠ []) (rest : Bytes) (hr : rest ≠ [])
    (hb : c.cur ++ c.rest.flatten = wireSettings [(4, a), (4, b)] ++ rest) :
    ∃ w, peerSettings s 2 (some c) = some (.ok { s with initialWindowSize := w }) ∧ w ≠ b ∧
      rfcSettings s [(4, a), (4, b)] = .ok { s with initialWindowSize := b } := by
  unfold windowSizeMax at ha hb' hs
  have hv' : ∀ p ∈ [(4, a), (4, b)], p.1 < 2 ^ 16 ∧ p.2 < 2 ^ 32 := by simp; omega
  rw [wireSettings_eq _ hv'] at hb
  refine ⟨toU32 ((b : Int) - ((a : Int) - s.initialWindowSize)), ?_, ?_, ?_⟩
  · have := peerSettings_ok s [(4, a), (4, b)] (some c) rest ⟨c, rfl, ⟨hc.1, hc.2⟩, hb⟩ hr hv'
    simp only [List.length_cons, List.length_nil] at this
    rw [this]
    have t : toU32 ((a : Int) - ((s.initialWindowSize : Int) - s.windowSize)) = a := by
      rw [hw]; unfold toU32; omega
    have na : ¬ a > windowSizeMax := by unfold windowSizeMax; omega
    have nb : ¬ b > windowSizeMax := by unfold windowSizeMax; omega
    simp only [List.foldl_cons, List.foldl_nil, stepSetting, applySetting, na, nb, if_false, t]
    simp [hw]
  · unfold toU32
    omega
  · simp only [rfcSettings, rfcSetting]
    rw [if_pos (by omega)]
    simp only
    rw [if_pos (by omega)]

/-- 131070, then 65536: understood as 1. -/
example : peerSettings defaultSettings 2 (some ⟨wireSettings [(4, 131070), (4, 65536)] ++ [0], []⟩) =
    some (.ok { defaultSettings with initialWindowSize := 1 }) := by decide

/-! ## C57 PING -/

/-- C57 (partial): the reply to a PING carries the eight opaque bytes it was sent with, on stream 0.
Missing: the type and the ACK flag, see below. -/
theorem C57_ping_reply_echoes_data_partial (data : Bytes) (hl : data.length = 8) (hb : ∀ b ∈ data, b < 256)
    (c : Cursor) (hc : c.cur ≠ [] ∧ ∀ p ∈ c.rest, p ≠ []) (rest : Bytes)
    (hf : c.cur ++ c.rest.flatten = data ++ rest) :
    ∃ v, (read64 c).map (·.1) = some v ∧ (pingReply v).payload = data := by
  have hf' : c.flat = data ++ rest := hf
  obtain ⟨r, e1, _⟩ := takeN_spec 8 c ⟨hc.1, hc.2⟩ (by rw [hf']; simp; omega)
  refine ⟨be data, ?_, ?_⟩
  · simp only [read64, e1, Option.map_some, hf']
    rw [List.take_append_of_le_length (by omega), List.take_of_length_le (by omega)]
  · have := toBE_be data hb
    rw [hl] at this
    exact this

example : ∃ c : Cursor, (c.cur ≠ [] ∧ ∀ p ∈ c.rest, p ≠ []) ∧
    c.cur ++ c.rest.flatten = [1, 2, 3, 4, 5, 6, 7, 255] ++ [0, 0] := ⟨⟨[1, 2, 3], [[4, 5, 6, 7], [255, 0, 0]]⟩, by decide⟩

/-- REFUTED: no reply is ever a PING with the ACK flag (§6.7); it is a GOAWAY whose last-stream-id and
error code are the opaque data. -/
theorem C57_ping_reply_is_goaway_refuted (v : Nat) :
    (pingReply v).header = wireHeader 8 7 0 false 0 ∧ (pingReply v).header ≠ wireHeader 8 6 1 false 0 := by
  have : (pingReply v).header = wireHeader 8 7 0 false 0 := C07_written_header_layout 8 7 0 0 false (by omega) (by omega)
  exact ⟨this, by rw [this]; decide⟩

/-! ## C58 GOAWAY and RST_STREAM -/

/-- C58: the GOAWAY the server sends is a GOAWAY frame on stream 0 with the highest handled stream id
and the error code as its eight payload bytes. -/
theorem C58_goaway_layout (lastSid code : Nat) (h1 : lastSid < 2 ^ 31) (h2 : code < 2 ^ 32) :
    (goawayFrame lastSid code false).header = wireHeader 8 7 0 false 0 ∧
    ∃ a b, (goawayFrame lastSid code false).payload = a ++ b ∧ a.length = 4 ∧ b.length = 4 ∧
      be a = lastSid ∧ be b = code := by
  refine ⟨C07_written_header_layout 8 7 0 0 false (by omega) (by omega), toBE 4 lastSid, toBE 4 code, ?_, by simp [toBE_length],
    by simp [toBE_length], ?_, ?_⟩
  · simp [goawayFrame, toBE]
  · rw [be_toBE, Nat.mod_eq_of_lt (by simp at h1 ⊢; omega)]
  · rw [be_toBE, Nat.mod_eq_of_lt (by simpa using h2)]

/-- C58: RST_STREAM names the stream it resets and carries the error code. -/
theorem C58_rst_layout (sid code : Nat) (h1 : sid < 2 ^ 31) (h2 : code < 2 ^ 32) :
    (rstFrame sid code).header = wireHeader 4 3 0 false sid ∧
    (rstFrame sid code).payload.length = 4 ∧ be (rstFrame sid code).payload = code := by
  refine ⟨C07_written_header_layout 4 3 0 sid false (by omega) h1, by simp [rstFrame, toBE_length], ?_⟩
  rw [rstFrame, be_toBE, Nat.mod_eq_of_lt (by simpa using h2)]

example : goawayFrame 258 1 false = ⟨[0, 0, 8, 7, 0, 0, 0, 0, 0], [0, 0, 1, 2, 0, 0, 0, 1]⟩ := by decide
example : rstFrame 5 8 = ⟨[0, 0, 4, 3, 0, 0, 0, 0, 5], [0, 0, 0, 8]⟩ := by decide

/-! ## C59 server SETTINGS -/

/-- C59 (partial): a SETTINGS frame with one setting has the wire form of RFC 7540 §6.5.1.
Missing: two or more settings. -/
theorem C59_one_setting_payload_partial (id v : Nat) (h1 : id < 2 ^ 16) (h2 : v < 2 ^ 32) (mem : Bytes) (hm : mem.length = 6) :
    settingsPayload mem [(id, v)] = wireSettings [(id, v)] := by
  rw [wireSettings_eq _ (by simp [h1, h2])]
  match mem, hm with
  | [_, _, _, _, _, _], _ => simp [settingsPayload, writeAt, settingBytes, toBE]

example : settingsPayload [9, 9, 9, 9, 9, 9] [(4, 65536)] = [0, 4, 0, 1, 0, 0] := by decide

/-- REFUTED for every list of two or more settings: only the last one is written, at the front; the
remaining bytes of the payload are whatever the memory held. -/
theorem C59_only_last_setting_sent_refuted (l : List (Nat × Nat)) (id v : Nat) (mem : Bytes) (hm : 6 ≤ mem.length) :
    settingsPayload mem (l ++ [(id, v)]) = settingBytes id v ++ mem.drop 6 := by
  have hl : ∀ id v, (settingBytes id v).length = 6 := by intro id v; simp [settingBytes, toBE_length]
  induction l generalizing mem with
  | nil => simp [settingsPayload, writeAt, hl]
  | cons p l ih =>
    obtain ⟨i, w⟩ := p
    simp only [List.cons_append, settingsPayload]
    have hw : writeAt mem 0 (settingBytes i w) = settingBytes i w ++ mem.drop 6 := by simp [writeAt, hl]
    rw [hw, ih _ (by simp [hl])]
    rw [List.drop_append, hl, List.drop_of_length_le (by rw [hl]; omega)]
    simp

example : settingsPayload (List.replicate 12 170) [(3, 100), (4, 65535)] = [0, 4, 0, 0, 255, 255, 170, 170, 170, 170, 170, 170] ∧
    wireSettings [(3, 100), (4, 65535)] = [0, 3, 0, 0, 0, 100, 0, 4, 0, 0, 255, 255] := by decide

end Fly.H2
