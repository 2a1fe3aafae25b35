import Verif.H2Feed.Spec
import Verif.H2Wire.Props

/-! # C207: the frames of an HTTP/2 client do not depend on how its bytes arrive -/

namespace Fly.H2Feed

open Buffer (Cursor NE)
open H2 (wireHeader)

theorem headOf_begins {c : Cursor} (hne : NE c) {len type flags sid : Nat} (hl : len < 2 ^ 24) (hs : sid < 2 ^ 31) {more : Bytes} (hm : more ≠ [])
    (hf : c.flat = wireHeader len type flags false sid ++ more) :
    ∃ p, H2Wire.headOf c = some ⟨len, type, flags, sid, some p⟩ ∧ NE p ∧ p.flat = more := by
  obtain ⟨h1, h2, h3, h4, _⟩ := H2.C07_read_header len type flags sid false more hl hs c ⟨hne.cur, hne.rest⟩ hf
  have hlen : 9 < c.flat.length := by
    have hrl := List.length_pos_iff.2 hm
    rw [hf, List.length_append]
    have : (wireHeader len type flags false sid).length = 9 := rfl
    omega
  obtain ⟨p, e1, e2, e3⟩ := H2.payloadOf_spec c hne hlen
  refine ⟨p, ?_, e2, ?_⟩
  · unfold H2Wire.headOf
    rw [h1, h2, h3, h4, e1]
  · rw [e3, hf]; rfl

theorem bytes_length (f : Raw) : f.bytes.length = 9 + f.payload.length := by
  unfold Raw.bytes
  rw [List.length_append]; rfl

/-- A complete frame is taken. -/
theorem turn_frame {lay : Bytes → Cursor} (hk : Keeps lay) {max : Nat} (hmax : max < 2 ^ 24) {f : Raw} (hf : f.Fits max) (more : Bytes) :
    turn lay max (f.bytes ++ more) = .frame f more := by
  obtain ⟨k1, k2, behind, k3, k4⟩ := hk (f.bytes ++ more)
  have hb := bytes_length f
  have hfl : (lay (f.bytes ++ more)).flat = wireHeader f.payload.length f.type f.flags false f.sid ++ (f.payload ++ more ++ behind) := by
    show (lay (f.bytes ++ more)).cur ++ _ = _
    rw [k4]; simp [Raw.bytes]
  obtain ⟨p, e1, e2, e3⟩ := headOf_begins ⟨k1, k2⟩ (by have := hf.2; omega) hf.1 (by simp [k3]) hfl
  have hbl := List.length_pos_iff.2 k3
  unfold turn
  rw [if_neg (by rw [List.length_append]; omega), e1]
  simp only
  rw [if_neg (by have := hf.2; omega), if_neg (by rw [List.length_append]; omega)]
  have := Buffer.memcpy_spec f.payload.length p e2 (by rw [e3]; simp only [List.length_append]; omega)
  rw [this, e3]
  simp only [List.append_assoc, List.take_left]
  rw [← hb, List.drop_left]

/-- A frame that has not arrived completely is waited for. -/
theorem turn_wait {lay : Bytes → Cursor} (hk : Keeps lay) {max : Nat} (hmax : max < 2 ^ 24) {f : Raw} (hf : f.Fits max) {b : Bytes} (hb : b <+: f.bytes)
    (hl : b.length < f.bytes.length) : turn lay max b = .wait := by
  unfold turn
  by_cases h9 : b.length < 9
  · rw [if_pos h9]
  · rw [if_neg h9]
    obtain ⟨z, hz⟩ := hb
    obtain ⟨k1, k2, behind, k3, k4⟩ := hk b
    have hwl : (wireHeader f.payload.length f.type f.flags false f.sid).length = 9 := rfl
    have hcut : b = wireHeader f.payload.length f.type f.flags false f.sid ++ b.drop 9 := by
      have h1 : (b ++ z).take 9 = wireHeader f.payload.length f.type f.flags false f.sid := by
        rw [hz]; unfold Raw.bytes; rw [← hwl, List.take_left]
      rw [List.take_append_of_le_length (by omega)] at h1
      conv => lhs; rw [← List.take_append_drop 9 b, h1]
    have hfl : (lay b).flat = wireHeader f.payload.length f.type f.flags false f.sid ++ (b.drop 9 ++ behind) := by
      show (lay b).cur ++ _ = _
      rw [k4]
      conv => lhs; rw [hcut]
      simp
    obtain ⟨p, e1, e2, e3⟩ := headOf_begins ⟨k1, k2⟩ (by have := hf.2; omega) hf.1 (by simp [k3]) hfl
    rw [e1]
    have hbl := bytes_length f
    simp only
    rw [if_neg (by have := hf.2; omega), if_pos (by omega)]

theorem turn_nil (lay : Bytes → Cursor) (max : Nat) : turn lay max [] = .wait := by simp [turn]

/-- What is left is less than the next frame. -/
def Short (left : Bytes) : List Raw → Prop
  | [] => left = []
  | f :: _ => left <+: f.bytes ∧ left.length < f.bytes.length

/-- One run of the loop: it takes complete frames from the front, and ends with less than a frame or with one that begins a response. -/
theorem loop_spec {lay : Bytes → Cursor} (hk : Keeps lay) {max : Nat} (hmax : max < 2 ^ 24) (pause : Raw → Bool) : ∀ (n : Nat) (fs : List Raw) (b : Bytes), (∀ f ∈ fs, f.Fits max) →
    b <+: stream fs → b.length ≤ n →
    ∃ done todo left, fs = done ++ todo ∧ loop lay max pause n b = (done, .waits left) ∧ b = stream done ++ left ∧ (Short left todo ∨ ∃ f ∈ done, pause f = true)
  | 0, fs, b, _, _, h => by
    have hb : b = [] := List.length_eq_zero_iff.1 (by omega)
    subst hb
    refine ⟨[], fs, [], rfl, rfl, rfl, Or.inl ?_⟩
    cases fs with
    | nil => rfl
    | cons f t => exact ⟨List.nil_prefix, by rw [bytes_length, List.length_nil]; omega⟩
  | n + 1, [], b, _, hp, _ => by
    have hb : b = [] := by simpa [stream] using hp
    subst hb
    exact ⟨[], [], [], rfl, by unfold loop; rw [turn_nil], rfl, Or.inl rfl⟩
  | n + 1, f :: fs, b, hf, hp, hn => by
    have e : stream (f :: fs) = f.bytes ++ stream fs := by simp [stream]
    rw [e] at hp
    by_cases hl : b.length < f.bytes.length
    · have hb : b <+: f.bytes := List.prefix_of_prefix_length_le hp (List.prefix_append _ _) (by omega)
      refine ⟨[], f :: fs, b, rfl, ?_, rfl, Or.inl ⟨hb, hl⟩⟩
      unfold loop
      rw [turn_wait hk hmax (hf f (by simp)) hb hl]
    · have hb : f.bytes <+: b := List.prefix_of_prefix_length_le (List.prefix_append _ _) hp (by omega)
      obtain ⟨c, rfl⟩ := hb
      have hc := (List.prefix_append_right_inj _).1 hp
      unfold loop
      rw [turn_frame hk hmax (hf f (by simp))]
      simp only
      by_cases hpf : pause f = true
      · rw [if_pos hpf]
        exact ⟨[f], fs, c, rfl, rfl, by simp [stream], Or.inr ⟨f, by simp, hpf⟩⟩
      · rw [if_neg hpf]
        have hbl := bytes_length f
        rw [List.length_append] at hn
        obtain ⟨done, todo, left, h1, h2, h3, h4⟩ := loop_spec hk hmax pause n fs c (fun g hg => hf g (by simp [hg])) hc (by omega)
        refine ⟨f :: done, todo, left, by rw [h1]; rfl, by rw [h2], by rw [h3]; simp [stream], ?_⟩
        rcases h4 with h | ⟨g, hg, hpg⟩
        · exact Or.inl h
        · exact Or.inr ⟨g, by simp [hg], hpg⟩

theorem stream_length (fs : List Raw) : fs.length ≤ (stream fs).length := by
  induction fs with
  | nil => simp
  | cons f fs ih =>
    have := bytes_length f
    simp only [stream, List.map_cons, List.flatten_cons, List.length_append, List.length_cons] at ih ⊢
    omega

theorem stream_append (a b : List Raw) : stream (a ++ b) = stream a ++ stream b := by simp [stream]

theorem feed_spec {lay : Bytes → Cursor} (hk : Keeps lay) {max : Nat} (hmax : max < 2 ^ 24) (pause : Raw → Bool) : ∀ (reads : List Bytes) (fs : List Raw) (b : Bytes),
    (∀ f ∈ fs, f.Fits max) → b ++ reads.flatten <+: stream fs →
    ∃ done todo left, fs = done ++ todo ∧ feed lay max pause b reads = (done, .waits left) ∧ b ++ reads.flatten = stream done ++ left ∧
      ((∀ f ∈ fs, pause f = false) → Short b fs → Short left todo)
  | [], fs, b, _, _ => ⟨[], fs, b, rfl, rfl, by simp [stream], fun _ hs => hs⟩
  | r :: rs, fs, b, hf, hp => by
    have hp1 : b ++ r <+: stream fs := (by simp : b ++ r <+: b ++ (r :: rs).flatten).trans hp
    obtain ⟨done, todo, left, h1, h2, h3, h4⟩ := loop_spec hk hmax pause (b ++ r).length fs (b ++ r) hf hp1 (Nat.le_refl _)
    have hp2 : left ++ rs.flatten <+: stream todo := by
      have : b ++ (r :: rs).flatten = stream done ++ (left ++ rs.flatten) := by
        rw [List.flatten_cons, ← List.append_assoc, h3, List.append_assoc]
      rw [this, h1, stream_append] at hp
      exact (List.prefix_append_right_inj _).1 hp
    obtain ⟨done', todo', left', g1, g2, g3, g4⟩ := feed_spec hk hmax pause rs todo left (fun f h => hf f (by rw [h1]; simp [h])) hp2
    refine ⟨done ++ done', todo', left', by rw [h1, g1, List.append_assoc], ?_, ?_, fun hn _ => ?_⟩
    · unfold feed
      rw [h2]
      simp only [g2]
    · rw [List.flatten_cons, ← List.append_assoc, h3, List.append_assoc, g3]
      simp [stream]
    · refine g4 (fun f hf => hn f (by rw [h1]; simp [hf])) ?_
      rcases h4 with h | ⟨f, hf, hpf⟩
      · exact h
      · rw [hn f (by rw [h1]; simp [hf])] at hpf; exact absurd hpf (by simp)

/-- **C207: no frame is lost, repeated or changed.** Whatever frames a client sends, none longer than allowed, in whatever reads their bytes arrive, in whatever pieces of memory the buffer
keeps them and whichever of them begin responses: at every moment frames from the beginning on have been handled, in order and each once, with their type, flags, stream and payload; the
bytes of all others are in the buffer or still to come.  Missing: buffers whose memory ends with the last byte, frames that end the connection (C124, C203). -/
theorem C207_frames_in_order_partial (lay : Bytes → Cursor) (hk : Keeps lay) (max : Nat) (hmax : max < 2 ^ 24) (pause : Raw → Bool) (fs : List Raw) (hf : ∀ f ∈ fs, f.Fits max) (reads : List Bytes)
    (hp : reads.flatten <+: stream fs) :
    ∃ done todo left, fs = done ++ todo ∧ feed lay max pause [] reads = (done, .waits left) ∧ reads.flatten = stream done ++ left := by
  obtain ⟨done, todo, left, h1, h2, h3, _⟩ := feed_spec hk hmax pause reads fs [] hf (by simpa using hp)
  exact ⟨done, todo, left, h1, h2, by simpa using h3⟩

/-- **C207: frames that begin no response are handled at once.** If none of the frames begins a response, exactly those have been handled whose bytes have arrived completely. -/
theorem C207_frames_at_once_partial (lay : Bytes → Cursor) (hk : Keeps lay) (max : Nat) (hmax : max < 2 ^ 24) (pause : Raw → Bool) (fs : List Raw) (hf : ∀ f ∈ fs, f.Fits max)
    (hn : ∀ f ∈ fs, pause f = false) (reads : List Bytes) (hp : reads.flatten <+: stream fs) :
    ∃ done todo left, fs = done ++ todo ∧ feed lay max pause [] reads = (done, .waits left) ∧ reads.flatten = stream done ++ left ∧
      (todo = [] → left = []) ∧ ∀ f t, todo = f :: t → left.length < f.bytes.length := by
  obtain ⟨done, todo, left, h1, h2, h3, h4⟩ := feed_spec hk hmax pause reads fs [] hf (by simpa using hp)
  have h4 := h4 hn (by
    cases fs with
    | nil => rfl
    | cons f t => exact ⟨List.nil_prefix, by rw [bytes_length, List.length_nil]; omega⟩)
  refine ⟨done, todo, left, h1, h2, by simpa using h3, fun h => ?_, fun f t h => ?_⟩
  · rw [h] at h4; exact h4
  · rw [h] at h4; exact h4.2

theorem feed_append (lay : Bytes → Cursor) (max : Nat) (pause : Raw → Bool) : ∀ (r1 r2 : List Bytes) (b : Bytes) (fs : List Raw) (left : Bytes),
    feed lay max pause b r1 = (fs, .waits left) → feed lay max pause b (r1 ++ r2) = (fs ++ (feed lay max pause left r2).1, (feed lay max pause left r2).2)
  | [], r2, b, fs, left, h => by
    simp only [feed, Prod.mk.injEq, End.waits.injEq] at h
    obtain ⟨rfl, rfl⟩ := h
    simp
  | r :: r1, r2, b, fs, left, h => by
    rw [List.cons_append]
    unfold feed at h
    conv => lhs; unfold feed
    cases hl : loop lay max pause (b ++ r).length (b ++ r) with
    | mk gs e =>
      rw [hl] at h
      cases e with
      | waits l =>
        simp only at h ⊢
        obtain ⟨a1, a2⟩ := Prod.mk.inj h
        have := feed_append lay max pause r1 r2 l (feed lay max pause l r1).1 left (Prod.ext rfl a2)
        rw [this, ← a1, List.append_assoc]
      | tooLong => simp at h
      | undef => simp at h

/-- Every further event lets at least the frames up to the next response be handled. -/
theorem feed_events {lay : Bytes → Cursor} (hk : Keeps lay) {max : Nat} (hmax : max < 2 ^ 24) (pause : Raw → Bool) : ∀ (m : Nat) (fs : List Raw), (∀ f ∈ fs, f.Fits max) →
    (fs.filter pause).length ≤ m → feed lay max pause (stream fs) (List.replicate (m + 1) []) = (fs, .waits [])
  | m, fs, hf, hm => by
    obtain ⟨done, todo, left, h1, h2, h3, h4⟩ := loop_spec hk hmax pause (stream fs).length fs (stream fs) hf (List.prefix_refl _) (Nat.le_refl _)
    have hleft : left = stream todo := by
      rw [h1, stream_append] at h3
      exact (List.append_cancel_left h3).symm
    have hshort : Short left todo → todo = [] := by
      intro h
      cases todo with
      | nil => rfl
      | cons f t =>
        have := h.2
        rw [hleft] at this
        simp only [stream, List.map_cons, List.flatten_cons, List.length_append] at this
        omega
    rw [List.replicate_succ]
    unfold feed
    rw [List.append_nil, h2]
    simp only
    rw [hleft]
    have hrest : feed lay max pause (stream todo) (List.replicate m []) = (todo, .waits []) := by
      cases m with
      | zero =>
        have : todo = [] := by
          rcases h4 with h | ⟨f, hfd, hpf⟩
          · exact hshort h
          · exfalso
            have : f ∈ fs.filter pause := List.mem_filter.2 ⟨by rw [h1]; simp [hfd], hpf⟩
            have := List.length_pos_iff.2 (List.ne_nil_of_mem this)
            omega
        rw [this]; rfl
      | succ m =>
        refine feed_events hk hmax pause m todo (fun f h => hf f (by rw [h1]; simp [h])) ?_
        rcases h4 with h | ⟨f, hfd, hpf⟩
        · rw [hshort h]; simp
        · have hd : 0 < (done.filter pause).length := List.length_pos_iff.2 (List.ne_nil_of_mem (List.mem_filter.2 ⟨hfd, hpf⟩))
          rw [h1, List.filter_append, List.length_append] at hm
          omega
    rw [hrest, h1]
termination_by m => m

/-- **C207: all frames are handled.** Once all bytes have arrived, and after as many further events as there are frames that begin responses and one more, all frames have been handled and
nothing is left. -/
theorem C207_all_frames_partial (lay : Bytes → Cursor) (hk : Keeps lay) (max : Nat) (hmax : max < 2 ^ 24) (pause : Raw → Bool) (fs : List Raw) (hf : ∀ f ∈ fs, f.Fits max) (reads : List Bytes)
    (hp : reads.flatten = stream fs) (m : Nat) (hm : (fs.filter pause).length < m) : feed lay max pause [] (reads ++ List.replicate m []) = (fs, .waits []) := by
  obtain ⟨done, todo, left, h1, h2, h3⟩ := C207_frames_in_order_partial lay hk max hmax pause fs hf reads (by rw [hp]; exact List.prefix_refl _)
  have hleft : left = stream todo := by
    rw [hp, h1, stream_append] at h3
    exact (List.append_cancel_left h3).symm
  rw [feed_append _ _ _ _ _ _ _ _ h2, hleft]
  obtain ⟨m, rfl⟩ : ∃ k, m = k + 1 := ⟨m - 1, by omega⟩
  rw [feed_events hk hmax pause m todo (fun f h => hf f (by rw [h1]; simp [h])) (by
    rw [h1, List.filter_append, List.length_append] at hm
    omega), h1]

/-- A frame that is too long is not waited for. -/
theorem turn_tooLong {lay : Bytes → Cursor} (hk : Keeps lay) {max : Nat} {f : Raw} (hs : f.sid < 2 ^ 31) (h1 : max < f.payload.length) (h2 : f.payload.length < 2 ^ 24) (b : Bytes) :
    turn lay max (wireHeader f.payload.length f.type f.flags false f.sid ++ b) = .tooLong := by
  obtain ⟨k1, k2, behind, k3, k4⟩ := hk (wireHeader f.payload.length f.type f.flags false f.sid ++ b)
  have hwl : (wireHeader f.payload.length f.type f.flags false f.sid).length = 9 := rfl
  obtain ⟨p, e1, e2, e3⟩ := headOf_begins (type := f.type) (flags := f.flags) (more := b ++ behind) ⟨k1, k2⟩ h2 hs (by simp [k3]) (by
    show (lay _).cur ++ _ = _
    rw [k4]; simp)
  unfold turn
  rw [if_neg (by rw [List.length_append]; omega), e1]
  simp only
  rw [if_pos h1]

theorem loop_tooLong {lay : Bytes → Cursor} (hk : Keeps lay) {max : Nat} (hmax : max < 2 ^ 24) {f : Raw} (hs : f.sid < 2 ^ 31) (h1 : max < f.payload.length) (h2 : f.payload.length < 2 ^ 24) (b : Bytes)
    (pause : Raw → Bool) : ∀ (fs : List Raw) (n : Nat), (∀ g ∈ fs, g.Fits max ∧ pause g = false) → fs.length < n →
      loop lay max pause n (stream fs ++ (wireHeader f.payload.length f.type f.flags false f.sid ++ b)) = (fs, .tooLong)
  | _, 0, _, h => by omega
  | [], n + 1, _, _ => by
    show loop lay max pause (n + 1) (wireHeader f.payload.length f.type f.flags false f.sid ++ b) = _
    unfold loop
    rw [turn_tooLong hk hs h1 h2]
  | g :: fs, n + 1, hf, h => by
    have ih := loop_tooLong hk hmax hs h1 h2 b pause fs n (fun x hx => hf x (by simp [hx])) (by simpa using h)
    have e : ∀ x, stream (g :: fs) ++ x = g.bytes ++ (stream fs ++ x) := by intro x; simp [stream]
    rw [e]
    unfold loop
    rw [turn_frame hk hmax (hf g (by simp)).1]
    simp only [(hf g (by simp)).2, Bool.false_eq_true, if_false, ih]

theorem feed_tooLong {lay : Bytes → Cursor} (hk : Keeps lay) {max : Nat} (hmax : max < 2 ^ 24) {f : Raw} (hs : f.sid < 2 ^ 31) (h1 : max < f.payload.length) (h2 : f.payload.length < 2 ^ 24) (x : Bytes)
    (pause : Raw → Bool) : ∀ (reads : List Bytes) (fs : List Raw) (b : Bytes), (∀ g ∈ fs, g.Fits max ∧ pause g = false) →
      (Short b fs ∨ (fs = [] ∧ b.length < 9)) →
      b ++ reads.flatten = stream fs ++ (wireHeader f.payload.length f.type f.flags false f.sid ++ x) → feed lay max pause b reads = (fs, .tooLong)
  | [], fs, b, _, hb, he => by
    exfalso
    have hwl : (wireHeader f.payload.length f.type f.flags false f.sid).length = 9 := rfl
    have hl := congrArg List.length he
    simp only [List.flatten_nil, List.append_nil, List.length_append, hwl] at hl
    rcases hb with h | ⟨rfl, h⟩
    · cases fs with
      | nil => rw [show b = [] from h] at hl; simp at hl; omega
      | cons g t =>
        have := h.2
        simp only [stream, List.map_cons, List.flatten_cons, List.length_append] at hl
        omega
    · omega
  | r :: rs, fs, b, hf, hb, he => by
    have hwl : (wireHeader f.payload.length f.type f.flags false f.sid).length = 9 := rfl
    rw [List.flatten_cons, ← List.append_assoc] at he
    by_cases hlen : (stream fs).length + 9 ≤ (b ++ r).length
    · -- the header of the frame has arrived
      have hp : stream fs ++ wireHeader f.payload.length f.type f.flags false f.sid <+: b ++ r := by
        refine List.prefix_of_prefix_length_le (l₃ := (b ++ r) ++ rs.flatten) ?_ (List.prefix_append _ _) (by rw [List.length_append, hwl]; exact hlen)
        rw [he, ← List.append_assoc]; exact List.prefix_append _ _
      obtain ⟨y, hy⟩ := hp
      rw [List.append_assoc] at hy
      have hn := stream_length fs
      have := loop_tooLong hk hmax hs h1 h2 y pause fs (b ++ r).length hf (by omega)
      unfold feed
      rw [← hy] at this ⊢
      rw [this]
    · by_cases hst : (stream fs).length ≤ (b ++ r).length
      · -- all frames before it, and less than its header
        have hp : stream fs <+: b ++ r := List.prefix_of_prefix_length_le (l₃ := (b ++ r) ++ rs.flatten) (by rw [he]; exact List.prefix_append _ _) (List.prefix_append _ _) hst
        obtain ⟨y, hy⟩ := hp
        have hyl := congrArg List.length hy
        rw [List.length_append] at hyl
        have hwait : ∀ m, loop lay max pause m y = ([], .waits y) := by
          intro m
          cases m with
          | zero => rfl
          | succ m => unfold loop turn; rw [if_pos (by omega)]
        have hloop : ∀ (gs : List Raw) (m : Nat), (∀ g ∈ gs, g.Fits max ∧ pause g = false) → gs.length ≤ m → loop lay max pause m (stream gs ++ y) = (gs, .waits y) := by
          intro gs
          induction gs with
          | nil => intro m _ _; exact hwait m
          | cons g gs ih =>
            intro m hg hm
            cases m with
            | zero => simp at hm
            | succ m =>
              have e : stream (g :: gs) ++ y = g.bytes ++ (stream gs ++ y) := by simp [stream]
              rw [e]
              unfold loop
              rw [turn_frame hk hmax (hg g (by simp)).1]
              simp only [(hg g (by simp)).2, Bool.false_eq_true, if_false, ih m (fun x hx => hg x (by simp [hx])) (by simpa using hm)]
        have hn := stream_length fs
        have hl := hloop fs (b ++ r).length hf (by omega)
        rw [hy] at hl
        have hrest : y ++ rs.flatten = stream [] ++ (wireHeader f.payload.length f.type f.flags false f.sid ++ x) := by
          rw [← hy, List.append_assoc] at he
          exact List.append_cancel_left he
        have ih := feed_tooLong hk hmax hs h1 h2 x pause rs [] y (by simp) (Or.inr ⟨rfl, by omega⟩) hrest
        unfold feed
        rw [hl]
        simp only [ih, List.append_nil]
      · -- within the frames before it
        have hp : b ++ r <+: stream fs := List.prefix_of_prefix_length_le (l₃ := (b ++ r) ++ rs.flatten) (List.prefix_append _ _) (by rw [he]; exact List.prefix_append _ _) (by omega)
        obtain ⟨done, todo, left, g1, hl, g2, g3⟩ := loop_spec hk hmax pause (b ++ r).length fs (b ++ r) (fun g hg => (hf g hg).1) hp (Nat.le_refl _)
        have g3 : Short left todo := by
          rcases g3 with h | ⟨g, hg, hpg⟩
          · exact h
          · rw [(hf g (by rw [g1]; simp [hg])).2] at hpg; exact absurd hpg (by simp)
        have hrest : left ++ rs.flatten = stream todo ++ (wireHeader f.payload.length f.type f.flags false f.sid ++ x) := by
          rw [g2, g1, stream_append, List.append_assoc, List.append_assoc] at he
          exact List.append_cancel_left he
        have ih := feed_tooLong hk hmax hs h1 h2 x pause rs todo left (fun g hg => hf g (by rw [g1]; simp [hg])) (Or.inl g3) hrest
        unfold feed
        rw [hl]
        simp only [ih]
        rw [g1]

/-- **C207: a frame longer than allowed is refused** as soon as its header has arrived, behind the frames before it, however the bytes arrive. -/
theorem C207_long_frame_refused_partial (lay : Bytes → Cursor) (hk : Keeps lay) (max : Nat) (hmax : max < 2 ^ 24) (pause : Raw → Bool) (fs : List Raw) (hf : ∀ g ∈ fs, g.Fits max ∧ pause g = false) (f : Raw) (hs : f.sid < 2 ^ 31)
    (h1 : max < f.payload.length) (h2 : f.payload.length < 2 ^ 24) (n : Nat) (hn : 9 ≤ n) (reads : List Bytes) (hr : reads.flatten = stream fs ++ f.bytes.take n) :
    feed lay max pause [] reads = (fs, .tooLong) := by
  have hwl : (wireHeader f.payload.length f.type f.flags false f.sid).length = 9 := rfl
  refine feed_tooLong hk hmax hs h1 h2 (f.payload.take (n - 9)) pause reads fs [] hf (Or.inl ?_) ?_
  · cases fs with
    | nil => rfl
    | cons g t => exact ⟨List.nil_prefix, by rw [bytes_length, List.length_nil]; omega⟩
  · rw [List.nil_append, hr]
    unfold Raw.bytes
    rw [List.take_append, List.take_of_length_le (by omega), hwl]

/-! ## To the requests -/

theorem loopAt_fst (lay : Bytes → Cursor) (max : Nat) (pause : Raw → Bool) : ∀ (n : Nat) (b : Bytes), (loopAt lay max pause n b).map (·.1) = (loop lay max pause n b).1
  | 0, _ => rfl
  | n + 1, b => by
    unfold loopAt loop
    cases turn lay max b with
    | wait => rfl
    | tooLong => rfl
    | undef => rfl
    | frame f left =>
      simp only [List.map_cons]
      split
      · rfl
      · rw [loopAt_fst lay max pause n left]

theorem feedAt_fst (lay : Bytes → Cursor) (max : Nat) (pause : Raw → Bool) : ∀ (reads : List Bytes) (b : Bytes), (feedAt lay max pause b reads).map (·.1) = (feed lay max pause b reads).1
  | [], _ => rfl
  | r :: rs, b => by
    unfold feedAt feed
    rw [List.map_append, loopAt_fst]
    cases h : loop lay max pause (b ++ r).length (b ++ r) with
    | mk fs e =>
      cases e with
      | waits left => simp only [feedAt_fst lay max pause rs left]
      | tooLong => simp
      | undef => simp

/-- The frame at the beginning of the buffer is there, whatever follows. -/
theorem lay_holds {lay : Bytes → Cursor} (hk : Keeps lay) {max : Nat} (hmax : max ≤ 16384) {f : Raw} (hf : f.Fits max) (more : Bytes) :
    H2Wire.Holds (lay (f.bytes ++ more)) f.type f.flags f.sid f.payload := by
  obtain ⟨k1, k2, behind, k3, k4⟩ := hk (f.bytes ++ more)
  refine ⟨⟨k1, k2⟩, hf.1, by have := hf.2; omega, false, more ++ behind, by simp [k3], ?_⟩
  rw [k4]; simp [Raw.bytes]

theorem loopAt_holds {lay : Bytes → Cursor} (hk : Keeps lay) {max : Nat} (hmax : max ≤ 16384) (pause : Raw → Bool) : ∀ (n : Nat) (fs : List Raw) (b : Bytes), (∀ f ∈ fs, f.Fits max) →
    b <+: stream fs → ∀ q ∈ loopAt lay max pause n b, H2Wire.Holds q.2 q.1.type q.1.flags q.1.sid q.1.payload
  | 0, _, _, _, _ => by simp [loopAt]
  | n + 1, [], b, _, hp => by
    have hb : b = [] := by simpa [stream] using hp
    subst hb
    unfold loopAt
    simp [turn_nil]
  | n + 1, f :: fs, b, hf, hp => by
    have e : stream (f :: fs) = f.bytes ++ stream fs := by simp [stream]
    rw [e] at hp
    unfold loopAt
    by_cases hl : b.length < f.bytes.length
    · have hb : b <+: f.bytes := List.prefix_of_prefix_length_le hp (List.prefix_append _ _) (by omega)
      rw [turn_wait hk (by omega) (hf f (by simp)) hb hl]
      simp
    · have hb : f.bytes <+: b := List.prefix_of_prefix_length_le (List.prefix_append _ _) hp (by omega)
      obtain ⟨c, rfl⟩ := hb
      have hc := (List.prefix_append_right_inj _).1 hp
      rw [turn_frame hk (by omega) (hf f (by simp))]
      intro q hq
      simp only [List.mem_cons] at hq
      rcases hq with rfl | hq
      · exact lay_holds hk hmax (hf f (by simp)) c
      · split at hq
        · simp at hq
        · exact loopAt_holds hk hmax pause n fs c (fun g hg => hf g (by simp [hg])) hc q hq

/-- **C207: where the frames lie.** While a frame is handled, its bytes are at the place of the buffer that is handed on, whatever has arrived of the frames behind it. -/
theorem C207_places_partial {lay : Bytes → Cursor} (hk : Keeps lay) {max : Nat} (hmax : max ≤ 16384) (pause : Raw → Bool) : ∀ (reads : List Bytes) (fs : List Raw) (b : Bytes), (∀ f ∈ fs, f.Fits max) →
    b ++ reads.flatten <+: stream fs → ∀ q ∈ feedAt lay max pause b reads, H2Wire.Holds q.2 q.1.type q.1.flags q.1.sid q.1.payload
  | [], _, _, _, _ => by simp [feedAt]
  | r :: rs, fs, b, hf, hp => by
    have hp1 : b ++ r <+: stream fs := (by simp : b ++ r <+: b ++ (r :: rs).flatten).trans hp
    obtain ⟨done, todo, left, h1, h2, h3, _⟩ := loop_spec hk (show max < 2 ^ 24 by omega) pause (b ++ r).length fs (b ++ r) hf hp1 (Nat.le_refl _)
    have hp2 : left ++ rs.flatten <+: stream todo := by
      have : b ++ (r :: rs).flatten = stream done ++ (left ++ rs.flatten) := by
        rw [List.flatten_cons, ← List.append_assoc, h3, List.append_assoc]
      rw [this, h1, stream_append] at hp
      exact (List.prefix_append_right_inj _).1 hp
    intro q hq
    unfold feedAt at hq
    rw [h2] at hq
    simp only [List.mem_append] at hq
    rcases hq with hq | hq
    · exact loopAt_holds hk hmax pause _ fs _ hf hp1 q hq
    · exact C207_places_partial hk hmax pause rs todo left (fun f h => hf f (by rw [h1]; simp [h])) hp2 q hq

open H2Wire (Arrival Talk Client Link Starts Setting Calm) in
open H2Refuse (Step) in
open Nego (negotiating) in
open Trip (WrittenPath Each) in
/-- **C207: requests do not depend on how their bytes arrive.** A client sends its settings and then frames with requests as in C199.  However their bytes are cut into reads and wherever the
buffer keeps them, exactly the frames of the client are handled, and every request is answered with what it asks for or the refusal it deserves, on its stream.  The hypothesis `hf` says that the
frames are those of C199, at the places where they lie in the buffer.  Missing: as in C199, and frames that are handled before the responses to those before them have been sent. -/
theorem C207_requests_answered_partial (s : Site.Site) (hr : ∀ x ∈ s.app.routes, WrittenPath x.1) (k : H2Trip.Conn) (hk : 16384 ≤ k.maxFrame ∧ k.maxFrame < 2 ^ 24)
    (maxBody : Nat) (g : Hpack.DNode) (limit : Nat) (ss : List (Nat × Nat)) (hss : ∀ p ∈ ss, Setting p) (init : Nat) (hinit : Starts ss init)
    (lay : Bytes → Cursor) (hl : Keeps lay) (pause : Raw → Bool) (fs : List Raw) (hfit : ∀ f ∈ (⟨4, 0, 0, H2.wireSettings ss⟩ : Raw) :: fs, f.Fits 16384)
    (reads : List Bytes) (hreads : reads.flatten = stream (⟨4, 0, 0, H2.wireSettings ss⟩ :: fs))
    (m : Nat) (hm : (((⟨4, 0, 0, H2.wireSettings ss⟩ : Raw) :: fs).filter pause).length < m)
    (first : Arrival) (as : List Arrival) (xs : List Step)
    (hplaces : (feedAt lay 16384 pause [] (reads ++ List.replicate m [])).map (·.2) = (first :: as).map (·.place))
    (hf : Talk (negotiating s) k limit maxBody (Client.fresh init) as xs) :
    (feedAt lay 16384 pause [] (reads ++ List.replicate m [])).map (·.1) = ⟨4, 0, 0, H2.wireSettings ss⟩ :: fs ∧
    ∃ l os rs, H2Wire.run (negotiating s) k (Link.init maxBody g limit) (first :: as) = some (l, os, rs) ∧ rs.map (·.1) = xs.map (·.inc.sid) ∧
      Each (Step.Answered (negotiating s) k) xs (rs.map (·.2)) ∧ ∀ o ∈ os, Calm o := by
  have hall := C207_all_frames_partial lay hl 16384 (by decide) pause _ hfit reads hreads m hm
  have h1 : (feedAt lay 16384 pause [] (reads ++ List.replicate m [])).map (·.1) = ⟨4, 0, 0, H2.wireSettings ss⟩ :: fs := by rw [feedAt_fst, hall]
  refine ⟨h1, H2Wire.C199_frames_answered_partial s hr k hk maxBody g limit first ss ?_ hss init hinit as xs hf⟩
  have hflat : (reads ++ List.replicate m ([] : Bytes)).flatten = stream (⟨4, 0, 0, H2.wireSettings ss⟩ :: fs) := by
    rw [List.flatten_append, hreads]; simp
  have hh := C207_places_partial hl (Nat.le_refl _) pause (reads ++ List.replicate m []) _ [] hfit (by rw [List.nil_append, hflat]; exact List.prefix_refl _)
  cases hq : feedAt lay 16384 pause [] (reads ++ List.replicate m []) with
  | nil => rw [hq] at h1; simp at h1
  | cons q qs =>
    rw [hq] at h1 hplaces hh
    simp only [List.map_cons, List.cons.injEq] at h1 hplaces
    have := hh q (by simp)
    rw [hplaces.1, h1.1] at this
    exact this

/-- A buffer in two pieces of memory. -/
def twoPieces (b : Bytes) : Cursor := if 2 ≤ b.length then ⟨b.take (b.length / 2), [b.drop (b.length / 2), [7]]⟩ else ⟨b ++ [7], []⟩

theorem twoPieces_keeps : Keeps twoPieces := by
  intro b
  unfold twoPieces
  split
  · refine ⟨?_, ?_, [7], by simp, by simp [← List.append_assoc]⟩
    · intro h
      have := congrArg List.length h
      rw [List.length_take, List.length_nil] at this; omega
    · intro p hp
      simp only [List.mem_cons, List.not_mem_nil, or_false] at hp
      rcases hp with rfl | rfl
      · intro h
        have := congrArg List.length h
        rw [List.length_drop, List.length_nil] at this; omega
      · simp
  · exact ⟨by simp, by simp, [7], by simp, by simp⟩

/-- SETTINGS, DATA in two frames. -/
def sampleFrames : List Raw := [⟨4, 0, 0, []⟩, ⟨0, 0, 3, b!"hel"⟩, ⟨0, 1, 3, b!"lo"⟩]

theorem sampleFrames_fit : ∀ f ∈ sampleFrames, f.Fits 16384 := by
  intro f hf
  simp only [sampleFrames, List.mem_cons, List.not_mem_nil, or_false] at hf
  rcases hf with rfl | rfl | rfl <;> exact ⟨by decide, by decide⟩

/-- The last DATA frame of a request begins its response. -/
def sampleBegins (f : Raw) : Bool := decide (f.type = 0 ∧ f.flags = 1)

example : feed twoPieces 16384 sampleBegins [] ((stream sampleFrames).map (fun b => [b]) ++ [[], []]) = (sampleFrames, .waits []) :=
  C207_all_frames_partial twoPieces twoPieces_keeps 16384 (by decide) sampleBegins sampleFrames sampleFrames_fit _ (by decide) 2 (by decide)

example : feed twoPieces 16384 sampleBegins [] [[0, 0, 0, 4], [0, 0, 0, 0, 0, 0, 0], [3, 0, 0, 0, 0, 0, 3, 104, 101]] = ([⟨4, 0, 0, []⟩], .waits [0, 0, 3, 0, 0, 0, 0, 0, 3, 104, 101]) := by
  decide +kernel

/-- The frame behind one that begins a response stays in the buffer until the next event. -/
example : feed twoPieces 16384 sampleBegins [] [stream [⟨0, 1, 3, b!"lo"⟩, ⟨4, 1, 0, []⟩]] = ([⟨0, 1, 3, b!"lo"⟩], .waits (stream [⟨4, 1, 0, []⟩])) := by decide +kernel

example : feed twoPieces 4 sampleBegins [] [stream [⟨0, 0, 3, b!"hel"⟩] ++ [0], [0, 5, 0, 1, 0, 0, 0], [3, 104]] = ([⟨0, 0, 3, b!"hel"⟩], .tooLong) :=
  C207_long_frame_refused_partial twoPieces twoPieces_keeps 4 (by decide) sampleBegins [⟨0, 0, 3, b!"hel"⟩] (fun g hg => by rw [List.mem_singleton.1 hg]; exact ⟨⟨by decide, by decide⟩, by decide⟩)
    ⟨0, 1, 3, b!"hello"⟩ (by decide) (by decide) (by decide) 10 (by decide) _ (by decide)

/-- A buffer in one piece. -/
def onePiece (b : Bytes) : Cursor := ⟨b ++ [0], []⟩

theorem onePiece_keeps : Keeps onePiece := fun b => ⟨by simp [onePiece], by simp [onePiece], [0], by simp, by simp [onePiece]⟩

/-- The frames of `H2Wire.frames`. -/
def talkFrames : List Raw :=
  [⟨4, 1, 0, []⟩, ⟨1, 37, 1, [0, 0, 0, 0, 15] ++ Nego.repsTake.flatMap Hpack.Rep.wire⟩, ⟨1, 4, 3, H2Wire.repsFive.flatMap Hpack.Rep.wire⟩, ⟨0, 0, 3, b!"he"⟩,
    ⟨1, 5, 5, H2Refuse.repsFine.flatMap Hpack.Rep.wire⟩, ⟨8, 0, 0, [0, 0, 1, 200]⟩, ⟨8, 0, 3, [0, 0, 0, 9]⟩, ⟨1, 4, 7, H2Wire.repsFive.flatMap Hpack.Rep.wire⟩, ⟨16, 0, 3, b!"u=1"⟩,
    ⟨0, 1, 3, b!"llo"⟩, ⟨250, 255, 0, b!"?"⟩, ⟨3, 0, 7, [0, 0, 0, 8]⟩]

def talkHello : Raw := ⟨4, 0, 0, H2.wireSettings [(4, 65535), (5, 16384)]⟩

/-- The conversation of C199 with one frame in every read. -/
example (g : Hpack.DNode) (pause : Raw → Bool) (hpause : pause = fun _ => false) :
    ∃ l os rs, H2Wire.run (Nego.negotiating Nego.sampleSite2) H2Trip.sampleConn (H2Wire.Link.init 4 g 4096)
      (H2Wire.arrival (H2Wire.place 4 0 0 (H2.wireSettings [(4, 65535), (5, 16384)])) :: H2Wire.frames) = some (l, os, rs) ∧ rs.map (·.1) = [1, 5, 3] := by
  subst hpause
  obtain ⟨_, l, os, rs, h1, h2, _⟩ := C207_requests_answered_partial Nego.sampleSite2 Nego.sampleSite_written H2Trip.sampleConn (by decide) 4 g 4096 [(4, 65535), (5, 16384)]
    (by unfold H2Wire.Setting; decide) 65535 (Or.inr ⟨[], [(5, 16384)], rfl, by decide⟩) onePiece onePiece_keeps (fun _ => false) talkFrames
    (by unfold Raw.Fits; decide +kernel) ((talkHello :: talkFrames).map Raw.bytes) rfl 1 (by decide +kernel)
    (H2Wire.arrival (H2Wire.place 4 0 0 (H2.wireSettings [(4, 65535), (5, 16384)]))) H2Wire.frames _ (by decide +kernel) H2Wire.frames_talk
  exact ⟨l, os, rs, h1, h2⟩

end Fly.H2Feed
