import Verif.H2Stream.Spec
set_option linter.all false

namespace Fly.H2S

/-- Outputs that are neither `opened` nor `dispatch` nor credit. -/
def quiet : Out → Bool
  | .opened _ => false
  | .dispatch .. => false
  | .windowUpdate .. => false
  | .closed _ => false
  | _ => true

/-- The connection's list of streams and limits are the same. -/
structure Core (x y : Ctx) : Prop where
  id : y.s.id = x.s.id
  streams : y.c.streams = x.c.streams
  root : y.c.root = x.c.root
  count : y.c.count = x.c.count
  maxSid : y.c.maxSid = x.c.maxSid
  maxConc : y.c.maxConc = x.c.maxConc
  maxBody : y.c.maxBody = x.c.maxBody
  maxFrame : y.c.maxFrame = x.c.maxFrame
  goaway : x.c.goaway = true → y.c.goaway = true
  ended : (x.c.ended = true → x.c.goaway = true) → y.c.ended = true → y.c.goaway = true

theorem Core.refl (x : Ctx) : Core x x := ⟨rfl, rfl, rfl, rfl, rfl, rfl, rfl, rfl, fun h => h, fun h => h⟩
theorem Core.trans {x y z : Ctx} (h1 : Core x y) (h2 : Core y z) : Core x z :=
  ⟨by rw [h2.id, h1.id], by rw [h2.streams, h1.streams], by rw [h2.root, h1.root], by rw [h2.count, h1.count],
    by rw [h2.maxSid, h1.maxSid], by rw [h2.maxConc, h1.maxConc], by rw [h2.maxBody, h1.maxBody],
    by rw [h2.maxFrame, h1.maxFrame], fun g => h2.goaway (h1.goaway g), fun g => h2.ended (h1.ended g)⟩

/-- A part of handling `f` that touches neither headers nor body and does not answer. -/
structure Quiet (f : Frame) (x y : Ctx) : Prop where
  core : Core x y
  headers : y.s.headers = x.s.headers
  body : y.s.body = x.s.body
  discard : y.s.discard = x.s.discard
  canResp : y.s.canResp = x.s.canResp
  st : y.s.st = .halfRemote → x.s.st = .halfRemote ∨ ((f.type = 0 ∨ f.type = 1) ∧ endStream f = true)
  pe : y.s.peerEnd = true → x.s.peerEnd = true ∨ ((f.type = 1 ∨ f.type = 9) ∧ endHeaders f = true)
  out : ∃ o, y.o = x.o ++ o ∧ ∀ a ∈ o, quiet a = true
  noEmergency : y.c.ended = true → x.c.ended = true

theorem Quiet.refl (f : Frame) (x : Ctx) : Quiet f x x :=
  ⟨Core.refl x, rfl, rfl, rfl, rfl, .inl, .inl, ⟨[], by simp, by simp⟩, fun h => h⟩

theorem Quiet.trans {f : Frame} {x y z : Ctx} (h1 : Quiet f x y) (h2 : Quiet f y z) : Quiet f x z := by
  obtain ⟨o1, e1, q1⟩ := h1.out
  obtain ⟨o2, e2, q2⟩ := h2.out
  refine ⟨h1.core.trans h2.core, by rw [h2.headers, h1.headers], by rw [h2.body, h1.body], by rw [h2.discard, h1.discard],
    by rw [h2.canResp, h1.canResp], ?_, ?_, ⟨o1 ++ o2, by rw [e2, e1, List.append_assoc], ?_⟩,
    fun g => h1.noEmergency (h2.noEmergency g)⟩
  · intro h; rcases h2.st h with h | h
    · exact h1.st h
    · exact .inr h
  · intro h; rcases h2.pe h with h | h
    · exact h1.pe h
    · exact .inr h
  · intro a ha
    rcases List.mem_append.1 ha with ha | ha
    · exact q1 a ha
    · exact q2 a ha

theorem q_connErr (f : Frame) (n : Nat) (x : Ctx) : Quiet f x (x.connErr n) :=
  ⟨⟨rfl, rfl, rfl, rfl, rfl, rfl, rfl, rfl, fun _ => rfl, fun _ _ => rfl⟩, rfl, rfl, rfl, rfl, .inl, .inl,
    ⟨[.goaway n], rfl, by simp [quiet]⟩, fun h => h⟩
theorem q_streamErr (f : Frame) (n : Nat) (x : Ctx) : Quiet f x (x.streamErr n) :=
  ⟨⟨rfl, rfl, rfl, rfl, rfl, rfl, rfl, rfl, fun h => h, fun h => h⟩, rfl, rfl, rfl, rfl, by simp [Ctx.streamErr], .inl,
    ⟨[.rst x.s.id n], rfl, by simp [quiet]⟩, fun h => h⟩
theorem q_when (f : Frame) (b : Bool) (g : Ctx → Ctx) (x : Ctx) (h : b = true → Quiet f x (g x)) : Quiet f x (x.when b g) := by
  unfold Ctx.when; split
  · next hb => exact h hb
  · exact Quiet.refl f x
theorem q_st (f : Frame) (x : Ctx) (st : SState) (h : st = .halfRemote → (f.type = 0 ∨ f.type = 1) ∧ endStream f = true) :
    Quiet f x { x with s := { x.s with st := st } } :=
  ⟨⟨rfl, rfl, rfl, rfl, rfl, rfl, rfl, rfl, fun h => h, fun h => h⟩, rfl, rfl, rfl, rfl, fun e => .inr (h e), .inl,
    ⟨[], by simp, by simp⟩, fun h => h⟩
theorem q_pe (f : Frame) (x : Ctx) (h : (f.type = 1 ∨ f.type = 9) ∧ endHeaders f = true) :
    Quiet f x { x with s := { x.s with peerEnd := true } } :=
  ⟨⟨rfl, rfl, rfl, rfl, rfl, rfl, rfl, rfl, fun h => h, fun h => h⟩, rfl, rfl, rfl, rfl, .inl, fun _ => .inr h,
    ⟨[], by simp, by simp⟩, fun h => h⟩

/-- Handlers other than DATA, HEADERS, CONTINUATION, PUSH_PROMISE. -/
theorem handle_other (f : Frame) (x y : Ctx) (h : handle f x = some y) (h0 : f.type ≠ 0) (h1 : f.type ≠ 1) (h5 : f.type ≠ 5)
    (h9 : f.type ≠ 9) : Quiet f x y := by
  unfold handle at h
  split at h
  · next he => exact absurd he h0
  · next he => exact absurd he h1
  · unfold onPriority at h
    simp only [Option.some.injEq] at h; subst h
    have e1 := q_when f (x.s.id == 0) (Ctx.connErr protocolError) x (fun _ => q_connErr _ _ _)
    generalize x.when (x.s.id == 0) (Ctx.connErr protocolError) = x1 at e1 ⊢
    exact e1.trans (q_when _ _ _ _ (fun _ => q_streamErr _ _ _))
  · unfold onRst at h
    simp only [Option.some.injEq] at h; subst h
    have e1 := q_when f (x.s.id == 0) (Ctx.connErr protocolError) x (fun _ => q_connErr _ _ _)
    generalize x.when (x.s.id == 0) (Ctx.connErr protocolError) = x1 at e1 ⊢
    have e2 := q_when f (x1.s.st == .idle) (Ctx.connErr protocolError) x1 (fun _ => q_connErr _ _ _)
    generalize x1.when (x1.s.st == .idle) (Ctx.connErr protocolError) = x2 at e2 ⊢
    have e3 := q_when f (f.length != 4) (Ctx.connErr frameSizeError) x2 (fun _ => q_connErr _ _ _)
    generalize x2.when (f.length != 4) (Ctx.connErr frameSizeError) = x3 at e3 ⊢
    exact e1.trans (e2.trans (e3.trans (q_st _ _ _ (by simp))))
  · unfold onSettings at h
    simp only at h
    have e1 := q_when f (f.sid != 0) (Ctx.connErr protocolError) x (fun _ => q_connErr _ _ _)
    generalize x.when (f.sid != 0) (Ctx.connErr protocolError) = x1 at e1 h
    have e2 := q_when f (f.length % 6 != 0) (Ctx.connErr frameSizeError) x1 (fun _ => q_connErr _ _ _)
    generalize x1.when (f.length % 6 != 0) (Ctx.connErr frameSizeError) = x2 at e2 h
    split at h
    · simp only [Option.some.injEq] at h; subst h; exact e1.trans e2
    · split at h
      · simp only [Option.some.injEq] at h; subst h; exact e1.trans (e2.trans (q_connErr _ _ _))
      · simp only [Option.some.injEq] at h; subst h; exact e1.trans (e2.trans (q_connErr _ _ _))
      · simp only [Option.some.injEq] at h; subst h
        exact e1.trans (e2.trans ⟨⟨rfl, rfl, rfl, rfl, rfl, rfl, rfl, rfl, fun h => h, fun h => h⟩, rfl, rfl, rfl, rfl, .inl, .inl,
          ⟨[.settingsAck], rfl, by simp [quiet]⟩, fun h => h⟩)
  · next he => exact absurd he h5
  · unfold onPing at h
    simp only [Option.some.injEq] at h; subst h
    have e1 := q_when f (f.sid != 0) (Ctx.connErr protocolError) x (fun _ => q_connErr _ _ _)
    generalize x.when (f.sid != 0) (Ctx.connErr protocolError) = x1 at e1 ⊢
    have e2 := q_when f (f.length != 8) (Ctx.connErr frameSizeError) x1 (fun _ => q_connErr _ _ _)
    generalize x1.when (f.length != 8) (Ctx.connErr frameSizeError) = x2 at e2 ⊢
    exact e1.trans (e2.trans ⟨⟨rfl, rfl, rfl, rfl, rfl, rfl, rfl, rfl, fun h => h, fun h => h⟩, rfl, rfl, rfl, rfl, .inl, .inl,
          ⟨[.pong], rfl, by simp [quiet]⟩, fun h => h⟩)
  · unfold onGoaway at h
    simp only [Option.some.injEq] at h; subst h
    have e1 := q_when f (f.sid != 0) (Ctx.connErr protocolError) x (fun _ => q_connErr _ _ _)
    generalize x.when (f.sid != 0) (Ctx.connErr protocolError) = x1 at e1 ⊢
    have e2 : Quiet f x1 { x1 with c := { x1.c with goaway := true } } :=
      ⟨⟨rfl, rfl, rfl, rfl, rfl, rfl, rfl, rfl, fun _ => rfl, fun _ _ => rfl⟩, rfl, rfl, rfl, rfl, .inl, .inl,
          ⟨[], by simp, by simp⟩, fun h => h⟩
    exact e1.trans (e2.trans (q_when _ _ _ _ (fun _ => q_connErr _ _ _)))
  · unfold onWindowUpdate at h
    simp only at h
    have e1 := q_when f (f.length != 4) (Ctx.connErr frameSizeError) x (fun _ => q_connErr _ _ _)
    generalize x.when (f.length != 4) (Ctx.connErr frameSizeError) = x1 at e1 h
    have e2 := q_when f (f.increment == 0 && f.sid == 0) (Ctx.streamErr protocolError) x1 (fun _ => q_streamErr _ _ _)
    generalize x1.when (f.increment == 0 && f.sid == 0) (Ctx.streamErr protocolError) = x2 at e2 h
    have e3 := q_when f (f.increment == 0 && f.sid != 0) (Ctx.connErr protocolError) x2 (fun _ => q_connErr _ _ _)
    generalize x2.when (f.increment == 0 && f.sid != 0) (Ctx.connErr protocolError) = x3 at e3 h
    split at h
    · simp only [Option.some.injEq] at h; subst h
      exact e1.trans (e2.trans (e3.trans ⟨⟨rfl, rfl, rfl, rfl, rfl, rfl, rfl, rfl, fun h => h, fun h => h⟩, rfl, rfl, rfl, rfl, .inl, .inl,
          ⟨[], by simp, by simp⟩, fun h => h⟩))
    · simp only [Option.some.injEq] at h; subst h
      exact e1.trans (e2.trans (e3.trans ⟨⟨rfl, rfl, rfl, rfl, rfl, rfl, rfl, rfl, fun h => h, fun h => h⟩, rfl, rfl, rfl, rfl, .inl, .inl,
          ⟨[], by simp, by simp⟩, fun h => h⟩))
  · next he => exact absurd he h9
  · simp only [Option.some.injEq] at h; subst h; exact Quiet.refl f x

/-- DATA, decomposed. -/
theorem onData_cases (f : Frame) (hf : f.type = 0) (x y : Ctx) (h : onData f x = some y) :
    ∃ x1 x2 b, Quiet f x x1 ∧ (x.s.id = 0 → x1.c.goaway = true) ∧
      parseData x1 (dataLen f) f.data = some (x2, b) ∧
      (b = false → y = x2.emergency) ∧ (b = true → ∃ x3, Quiet f x2 x3 ∧ x3.c.goaway = x2.c.goaway ∧ x3.o = x2.o ∧
        respond f x3 = some y) := by
  unfold onData at h
  simp only at h
  have e1 := q_when f (x.s.id == 0) (Ctx.connErr protocolError) x (fun _ => q_connErr _ _ _)
  have g1 : x.s.id = 0 → (x.when (x.s.id == 0) (Ctx.connErr protocolError)).c.goaway = true := by
    intro hid
    simp [Ctx.when, hid, Ctx.connErr]
  generalize hx1 : x.when (x.s.id == 0) (Ctx.connErr protocolError) = x1 at h e1 g1
  have e2 := q_when f (!(x1.s.st == .open_ || x1.s.st == .halfLocal)) (Ctx.streamErr streamClosed) x1 (fun _ => q_streamErr _ _ _)
  have g2 : (x1.when (!(x1.s.st == .open_ || x1.s.st == .halfLocal)) (Ctx.streamErr streamClosed)).c.goaway = x1.c.goaway := by
    simp only [Ctx.when]; split <;> rfl
  generalize hx2 : x1.when (!(x1.s.st == .open_ || x1.s.st == .halfLocal)) (Ctx.streamErr streamClosed) = x2 at h e2 g2
  split at h
  · simp at h
  · next x3 hp =>
    simp only [Option.some.injEq] at h
    exact ⟨x2, x3, false, e1.trans e2, fun a => by rw [g2]; exact g1 a, hp, fun _ => h.symm, by simp⟩
  · next x3 hp =>
    refine ⟨x2, x3, true, e1.trans e2, fun a => by rw [g2]; exact g1 a, hp, by simp, fun _ => ⟨_, ?_, ?_, ?_, h⟩⟩
    · exact q_when _ _ _ _ (fun he => q_st _ _ _ (fun _ => ⟨.inl hf, he⟩))
    · simp only [Ctx.when]; split <;> rfl
    · simp only [Ctx.when]; split <;> rfl

/-- HEADERS, decomposed. -/
theorem onHeaders_cases (f : Frame) (hf : f.type = 1) (x y : Ctx) (h : onHeaders f x = some y) :
    ∃ x1 x3, Quiet f x x1 ∧ (x1.s.headers = none → f.hdrs = []) ∧
      Quiet f { x1 with s := { x1.s with headers := x1.s.headers.map (· ++ f.hdrs) } } x3 ∧ respond f x3 = some y := by
  unfold onHeaders at h
  simp only at h
  have e1 := q_when f (x.s.id == 0) (Ctx.connErr protocolError) x (fun _ => q_connErr _ _ _)
  generalize hx1 : x.when (x.s.id == 0) (Ctx.connErr protocolError) = x1 at h e1
  have e2 := q_when f (!(x1.s.st == .idle || x1.s.st == .reservedLocal || x1.s.st == .open_ || x1.s.st == .halfRemote))
    (Ctx.streamErr streamClosed) x1 (fun _ => q_streamErr _ _ _)
  generalize hx2 : x1.when (!(x1.s.st == .idle || x1.s.st == .reservedLocal || x1.s.st == .open_ || x1.s.st == .halfRemote))
    (Ctx.streamErr streamClosed) = x2 at h e2
  have e3 := q_when f (x2.s.st == .idle) (fun x => { x with s := { x.s with st := .open_ } }) x2 (fun _ => q_st _ _ _ (by simp))
  generalize hx3 : x2.when (x2.s.st == .idle) (fun x => { x with s := { x.s with st := .open_ } }) = x3 at h e3
  have e4 := q_when f (x3.s.st == .reservedRemote) (fun x => { x with s := { x.s with st := .halfLocal } }) x3 (fun _ => q_st _ _ _ (by simp))
  generalize hx4 : x3.when (x3.s.st == .reservedRemote) (fun x => { x with s := { x.s with st := .halfLocal } }) = x4 at h e4
  split at h
  · simp at h
  · next hn =>
    refine ⟨x4, _, e1.trans (e2.trans (e3.trans e4)), ?_, ?_, h⟩
    · intro hx
      simpa [hx] using hn
    · generalize hx5 : ({ x4 with s := { x4.s with headers := x4.s.headers.map (· ++ f.hdrs) } } : Ctx) = x5
      have e6 := q_when f (!f.hdrsOk) (Ctx.connErr compressionError) x5 (fun _ => q_connErr _ _ _)
      generalize hx6 : x5.when (!f.hdrsOk) (Ctx.connErr compressionError) = x6 at e6 ⊢
      have e7 := q_when f (endStream f) (fun x => { x with s := { x.s with st := .halfRemote } }) x6
        (fun he => q_st _ _ _ (fun _ => ⟨.inr hf, he⟩))
      generalize hx7 : x6.when (endStream f) (fun x => { x with s := { x.s with st := .halfRemote } }) = x7 at e7 ⊢
      have e8 := q_when f (endHeaders f) (fun x => { x with s := { x.s with peerEnd := true } }) x7 (fun he => q_pe _ _ ⟨.inl hf, he⟩)
      exact e6.trans (e7.trans e8)

/-- CONTINUATION, decomposed. -/
theorem onCont_cases (f : Frame) (hf : f.type = 9) (x y : Ctx) (h : onContinuation f x = some y) :
    ∃ x1, f.sid ≠ 0 ∧ Quiet f x x1 ∧
      Quiet f { x1 with s := { x1.s with headers := x1.s.headers.map (· ++ f.hdrs) } } y := by
  unfold onContinuation at h
  split at h
  · simp at h
  · next h0 =>
    simp only [Option.some.injEq] at h; subst h
    refine ⟨_, h0, q_when f (endHeaders f) (Ctx.connErr protocolError) x (fun _ => q_connErr _ _ _), ?_⟩
    exact q_when _ _ _ _ (fun he => q_pe _ _ ⟨.inr hf, he⟩)

/-- Respond, decomposed. -/
theorem respond_cases (f : Frame) (x y : Ctx) (h : respond f x = some y) :
    (y = x ∧ ¬ (x.s.st = .halfRemote ∧ (x.s.peerEnd = true ∨ x.s.canResp = true))) ∨
    (x.s.st = .halfRemote ∧ (x.s.peerEnd = true ∨ x.s.canResp = true) ∧ ∃ hs, x.s.headers = some hs ∧
      ∃ o, y.o = x.o ++ .dispatch x.s.id hs x.s.body x.s.discard :: o ∧ (∀ a ∈ o, quiet a = true) ∧
        y.s = { x.s with canResp := true } ∧ Core x y ∧ (f.respOk = true → y.c = x.c ∧ o = []) ∧
        (f.respOk = false → y.c.goaway = true)) := by
  unfold respond at h
  split at h
  · next hc =>
    simp only [Bool.and_eq_true, decide_eq_true_eq, Bool.or_eq_true] at hc
    split at h
    · simp at h
    · next hs hh =>
      right
      refine ⟨hc.1, hc.2, hs, hh, ?_⟩
      simp only [Option.some.injEq] at h; subst h
      cases hr : f.respOk
      · refine ⟨[.emergency], ?_, by simp [quiet], rfl, ⟨rfl, rfl, rfl, rfl, rfl, rfl, rfl, rfl, fun _ => rfl, fun _ _ => rfl⟩, by simp, fun _ => rfl⟩
        simp [Ctx.emergency]
      · exact ⟨[], rfl, by simp, rfl, ⟨rfl, rfl, rfl, rfl, rfl, rfl, rfl, rfl, fun h => h, fun h => h⟩, fun _ => ⟨rfl, rfl⟩, by simp⟩
  · next hc =>
    left
    simp only [Bool.and_eq_true, decide_eq_true_eq, Bool.or_eq_true] at hc
    simp only [Option.some.injEq] at h
    exact ⟨h.symm, hc⟩

theorem credit_ab (sid a n : Nat) (h : a ≠ 0) :
    creditFor sid [.windowUpdate a n, .windowUpdate 0 n] = if sid = 0 ∨ sid = a then n else 0 := by
  by_cases h1 : sid = 0
  · subst h1; simp [creditFor, h]
  · by_cases h2 : sid = a
    · subst h2; simp [creditFor, Ne.symm h]
    · simp [creditFor, h1, h2, Ne.symm h1, Ne.symm h2]
theorem credit_ba (sid a n : Nat) (h : a ≠ 0) :
    creditFor sid [.windowUpdate 0 n, .windowUpdate a n] = if sid = 0 ∨ sid = a then n else 0 := by
  by_cases h1 : sid = 0
  · subst h1; simp [creditFor, h]
  · by_cases h2 : sid = a
    · subst h2; simp [creditFor, Ne.symm h]
    · simp [creditFor, h1, h2, Ne.symm h1, Ne.symm h2]

/-- parseData, decomposed. -/
theorem parseData_cases (x : Ctx) (len : Nat) (data : Bytes) (y : Ctx) (b : Bool) (h : parseData x len data = some (y, b)) :
    Core x y ∧ y.c = x.c ∧ y.s.st = x.s.st ∧ y.s.peerEnd = x.s.peerEnd ∧ y.s.canResp = x.s.canResp ∧ y.s.headers = x.s.headers ∧
    (∃ o, y.o = x.o ++ o ∧ (∀ sid, x.s.id ≠ 0 → b = true → creditFor sid o = if sid = 0 ∨ sid = x.s.id then len else 0) ∧ openedIds o = [] ∧
      ∀ a ∈ o, ∃ s n, a = .windowUpdate s n) ∧
    (b = true → y.s.discard = false → x.s.discard = false ∧
      (len = 0 ∧ y.s.body = x.s.body ∨ (y.s.body.map (·.2)).getD [] = (x.s.body.map (·.2)).getD [] ++ data)) ∧
    (x.s.discard = true → y.s.discard = true) := by
  unfold parseData at h
  split at h
  · next h0 =>
    simp only [Option.some.injEq, Prod.mk.injEq] at h
    obtain ⟨rfl, rfl⟩ := h
    refine ⟨Core.refl _, rfl, rfl, rfl, rfl, rfl, ⟨[], by simp, ?_, rfl, by simp⟩, fun _ hd => ⟨hd, .inl ⟨h0, rfl⟩⟩, fun h => h⟩
    · simp [creditFor, h0]
  · split at h
    · simp at h
    · next h0 hs hh =>
      simp only at h
      split at h
      · next hd =>
        simp only [Option.some.injEq, Prod.mk.injEq] at h
        obtain ⟨rfl, rfl⟩ := h
        refine ⟨⟨rfl, rfl, rfl, rfl, rfl, rfl, rfl, rfl, fun h => h, fun h => h⟩, rfl, rfl, rfl, rfl, rfl, ⟨_, rfl, ?_, rfl, by simp⟩,
          fun _ hd' => absurd (hd'.symm.trans hd) (by simp), fun h => h⟩
        · intro sid hi _; exact credit_ab _ _ _ hi
      · next hd =>
        split at h
        · simp only [Option.some.injEq, Prod.mk.injEq] at h
          obtain ⟨rfl, rfl⟩ := h
          refine ⟨⟨rfl, rfl, rfl, rfl, rfl, rfl, rfl, rfl, fun h => h, fun h => h⟩, rfl, rfl, rfl, rfl, rfl, ⟨_, rfl, ?_, rfl, by simp⟩,
            fun _ hd' => absurd hd' (by simp), fun _ => rfl⟩
          · intro sid hi _; exact credit_ab _ _ _ hi
        · split at h
          · simp only [Option.some.injEq, Prod.mk.injEq] at h
            obtain ⟨rfl, rfl⟩ := h
            exact ⟨⟨rfl, rfl, rfl, rfl, rfl, rfl, rfl, rfl, fun h => h, fun h => h⟩, rfl, rfl, rfl, rfl, rfl, ⟨[], by simp, by simp, rfl, by simp⟩,
              by simp, fun h => h⟩
          · simp only [Option.some.injEq, Prod.mk.injEq] at h
            obtain ⟨rfl, rfl⟩ := h
            refine ⟨⟨rfl, rfl, rfl, rfl, rfl, rfl, rfl, rfl, fun h => h, fun h => h⟩, rfl, rfl, rfl, rfl, rfl, ⟨_, rfl, ?_, rfl, by simp⟩,
              ?_, fun h => h⟩
            · intro sid hi _; exact credit_ba _ _ _ hi
            · intro _ _
              refine ⟨by simpa using hd, .inr ?_⟩
              simp only [Option.map_some, Option.getD_some, bodyOf]
              cases x.s.body <;> simp


def AllPlain (fs : List Frame) : Prop := ∀ f ∈ fs, PlainData f

/-- What is known of a live stream after the frames `fs`. -/
structure SOK (fs : List Frame) (s : Stream) : Prop where
  pe : s.peerEnd = true → PeerEndedHeaders s.id fs
  st : s.st = .halfRemote → PeerEndedStream s.id fs
  cr : s.canResp = true → PeerEndedHeaders s.id fs ∧ PeerEndedStream s.id fs
  hd : s.headers = some (hdrsOf s.id fs)
  bd : AllPlain fs → s.discard = false → (s.body.map (·.2)).getD [] = dataOf s.id fs

/-- Every answer goes to a complete request, with its headers and body. -/
def DispatchGood (fs : List Frame) (o : List Out) : Prop :=
  ∀ sid hs b d, Out.dispatch sid hs b d ∈ o → hs = hdrsOf sid fs ∧ PeerEndedHeaders sid fs ∧ PeerEndedStream sid fs ∧
    (AllPlain fs → d = false → (b.map (·.2)).getD [] = dataOf sid fs)

theorem peh_mono {sid : Nat} {fs : List Frame} (f : Frame) (h : PeerEndedHeaders sid fs) : PeerEndedHeaders sid (fs ++ [f]) := by
  obtain ⟨g, h1, h2⟩ := h
  exact ⟨g, by simp [h1], h2⟩
theorem pes_mono {sid : Nat} {fs : List Frame} (f : Frame) (h : PeerEndedStream sid fs) : PeerEndedStream sid (fs ++ [f]) := by
  obtain ⟨g, h1, h2⟩ := h
  exact ⟨g, by simp [h1], h2⟩
theorem peh_last (fs : List Frame) (f : Frame) (h : f.type = 1 ∨ f.type = 9) (he : endHeaders f = true) :
    PeerEndedHeaders f.sid (fs ++ [f]) := ⟨f, by simp, h, rfl, he⟩
theorem pes_last (fs : List Frame) (f : Frame) (h : f.type = 0 ∨ f.type = 1) (he : endStream f = true) :
    PeerEndedStream f.sid (fs ++ [f]) := ⟨f, by simp, h, rfl, he⟩

theorem hdrsOf_snoc (sid : Nat) (fs : List Frame) (f : Frame) :
    hdrsOf sid (fs ++ [f]) = hdrsOf sid fs ++ (if (f.type = 1 ∨ f.type = 9) ∧ f.sid = sid then f.hdrs else []) := by
  unfold hdrsOf
  rw [List.filter_append, List.flatMap_append]
  congr 1
  by_cases h : (f.type = 1 ∨ f.type = 9) ∧ f.sid = sid
  · rw [if_pos h]
    have : ((f.type == 1 || f.type == 9) && f.sid == sid) = true := by simpa using h
    simp [List.filter_cons, this]
  · rw [if_neg h]
    have : ((f.type == 1 || f.type == 9) && f.sid == sid) = false := by
      rw [Bool.eq_false_iff]; intro h'; exact h (by simpa using h')
    simp [List.filter_cons, this]

theorem dataOf_snoc (sid : Nat) (fs : List Frame) (f : Frame) :
    dataOf sid (fs ++ [f]) = dataOf sid fs ++ (if f.type = 0 ∧ f.sid = sid then f.data else []) := by
  unfold dataOf
  rw [List.filter_append, List.flatMap_append]
  congr 1
  by_cases h : f.type = 0 ∧ f.sid = sid
  · rw [if_pos h]
    have : (f.type == 0 && f.sid == sid) = true := by simpa using h
    simp [List.filter_cons, this]
  · rw [if_neg h]
    have : (f.type == 0 && f.sid == sid) = false := by
      rw [Bool.eq_false_iff]; intro h'; exact h (by simpa using h')
    simp [List.filter_cons, this]

theorem SOK.other {fs : List Frame} {s : Stream} (h : SOK fs s) (f : Frame) (hne : f.sid ≠ s.id) : SOK (fs ++ [f]) s := by
  refine ⟨fun a => peh_mono f (h.pe a), fun a => pes_mono f (h.st a), fun a => ⟨peh_mono f (h.cr a).1, pes_mono f (h.cr a).2⟩, ?_, ?_⟩
  · rw [h.hd, hdrsOf_snoc]; simp [hne]
  · intro hp hd; rw [h.bd (fun g hg => hp g (by simp [hg])) hd, dataOf_snoc]; simp [hne]

theorem openedIds_append (a b : List Out) : openedIds (a ++ b) = openedIds a ++ openedIds b := by
  unfold openedIds; rw [List.filterMap_append]

theorem openedIds_quiet (o : List Out) (h : ∀ a ∈ o, quiet a = true) : openedIds o = [] := by
  unfold openedIds
  rw [List.filterMap_eq_nil_iff]
  intro a ha
  have := h a ha
  cases a <;> simp_all [quiet]

theorem creditFor_append (sid : Nat) (a b : List Out) : creditFor sid (a ++ b) = creditFor sid a + creditFor sid b := by
  unfold creditFor; rw [List.filterMap_append, List.sum_append]

theorem creditFor_quiet (sid : Nat) (o : List Out) (h : ∀ a ∈ o, quiet a = true) : creditFor sid o = 0 := by
  unfold creditFor
  have : (List.filterMap (fun a => match a with
    | .windowUpdate s n => if s = sid then some n else none
    | _ => none) o) = [] := by
    rw [List.filterMap_eq_nil_iff]
    intro a ha
    have := h a ha
    cases a <;> simp_all [quiet]
  exact congrArg List.sum this

theorem good_append {fs : List Frame} {a b : List Out} (h1 : DispatchGood fs a) (h2 : DispatchGood fs b) : DispatchGood fs (a ++ b) := by
  intro sid hs bd d hm
  rcases List.mem_append.1 hm with hm | hm
  · exact h1 _ _ _ _ hm
  · exact h2 _ _ _ _ hm

theorem good_quiet {fs : List Frame} {o : List Out} (h : ∀ a ∈ o, quiet a = true) : DispatchGood fs o := by
  intro sid hs bd d hm
  have := h _ hm
  simp [quiet] at this

theorem good_wu {fs : List Frame} {o : List Out} (h : ∀ a ∈ o, ∃ s n, a = Out.windowUpdate s n) : DispatchGood fs o := by
  intro sid hs bd d hm
  obtain ⟨s, n, h⟩ := h _ hm
  cases h

/-- Stream facts while `f` is being handled: relative to the final history but with headers and body
as parameters. -/
structure Mid (fs : List Frame) (s : Stream) (hs : List (Bytes × Bytes)) (bd : Bytes) : Prop where
  pe : s.peerEnd = true → PeerEndedHeaders s.id fs
  st : s.st = .halfRemote → PeerEndedStream s.id fs
  cr : s.canResp = true → PeerEndedHeaders s.id fs ∧ PeerEndedStream s.id fs
  hd : s.headers = some hs
  bd : AllPlain fs → s.discard = false → (s.body.map (·.2)).getD [] = bd

theorem SOK.mid {fs : List Frame} {s : Stream} (h : SOK fs s) (f : Frame) : Mid (fs ++ [f]) s (hdrsOf s.id fs) (dataOf s.id fs) :=
  ⟨fun a => peh_mono f (h.pe a), fun a => pes_mono f (h.st a), fun a => ⟨peh_mono f (h.cr a).1, pes_mono f (h.cr a).2⟩, h.hd,
    fun hp => h.bd (fun g hg => hp g (by simp [hg]))⟩

theorem Mid.quiet {fs : List Frame} {f : Frame} {x y : Ctx} {hs bd} (h : Mid (fs ++ [f]) x.s hs bd) (hid : x.s.id = f.sid)
    (q : Quiet f x y) : Mid (fs ++ [f]) y.s hs bd := by
  refine ⟨?_, ?_, ?_, by rw [q.headers, h.hd], by rw [q.discard, q.body]; exact h.bd⟩
  · intro a
    rw [q.core.id]
    rcases q.pe a with a | ⟨a, b⟩
    · exact h.pe a
    · rw [hid]; exact peh_last fs f a b
  · intro a
    rw [q.core.id]
    rcases q.st a with a | ⟨a, b⟩
    · exact h.st a
    · rw [hid]; exact pes_last fs f a b
  · intro a
    rw [q.core.id]
    rw [q.canResp] at a
    exact h.cr a

/-- Outcome of handling `f` on a stream of the client. -/
theorem handle_spec (fs : List Frame) (f : Frame) (x y : Ctx) (h : handle f x = some y) (hid : x.s.id = f.sid)
    (hne : f.sid ≠ 0) (hs : SOK fs x.s) :
    Core x y ∧ (y.c.goaway = false → SOK (fs ++ [f]) y.s) ∧ ∃ o, y.o = x.o ++ o ∧ openedIds o = [] ∧ DispatchGood (fs ++ [f]) o ∧
      (PlainData f → y.c.goaway = false → ∀ sid, creditFor sid o = if f.type = 0 ∧ (sid = 0 ∨ sid = f.sid) then f.length else 0) := by
  have hm := hs.mid f
  have hsn := hdrsOf_snoc x.s.id fs f
  have hdn := dataOf_snoc x.s.id fs f
  by_cases h0 : f.type = 0
  · -- DATA
    have h' : onData f x = some y := by unfold handle at h; rw [h0] at h; exact h
    obtain ⟨x1, x2, b, q1, g1, hpd, hbf, hbt⟩ := onData_cases f h0 x y h'
    obtain ⟨c2, cc2, s2, p2, r2, hd2, ⟨o2, e2, cr2, op2, w2⟩, bd2, dm2⟩ := parseData_cases _ _ _ _ _ hpd
    have hlen : PlainData f → dataLen f = f.length := by intro hp; unfold dataLen; rw [(hp h0).1]; rfl
    obtain ⟨o1, e1, k1⟩ := q1.out
    have hid1 : x1.s.id ≠ 0 := by rw [q1.core.id, hid]; exact hne
    cases b with
    | false =>
      have hy := hbf rfl; subst hy
      refine ⟨q1.core.trans (c2.trans ⟨rfl, rfl, rfl, rfl, rfl, rfl, rfl, rfl, fun _ => rfl, fun _ _ => rfl⟩), by simp [Ctx.emergency],
        o1 ++ o2 ++ [.emergency], by simp [Ctx.emergency, e2, e1], ?_, ?_, by simp [Ctx.emergency]⟩
      · rw [openedIds_append, openedIds_append, openedIds_quiet o1 k1, op2]; rfl
      · exact good_append (good_append (good_quiet k1) (good_wu w2)) (good_quiet (by simp [quiet]))
    | true =>
      obtain ⟨x3, q3, g3, eo3, hr⟩ := hbt rfl
      have m1 := hm.quiet hid q1
      have m2 : Mid (fs ++ [f]) x2.s (hdrsOf x.s.id fs) (dataOf x.s.id (fs ++ [f])) := by
        refine ⟨by rw [p2, c2.id]; exact m1.pe, by rw [s2, c2.id]; exact m1.st, by rw [r2, c2.id]; exact m1.cr, by rw [hd2, m1.hd], ?_⟩
        intro hap hd
        have hp : PlainData f := hap f (by simp)
        obtain ⟨d1, d2⟩ := bd2 rfl hd
        rw [hlen hp] at d2
        rw [hdn, if_pos ⟨h0, hid.symm⟩]
        rcases d2 with ⟨l0, d2⟩ | d2
        · rw [d2, m1.bd hap d1]
          have : f.data = [] := List.eq_nil_of_length_eq_zero (by rw [(hp h0).2]; exact l0)
          rw [this, List.append_nil]
        · rw [d2, m1.bd hap d1]
      have hid2 : x2.s.id = f.sid := by rw [c2.id, q1.core.id, hid]
      have m3 := m2.quiet hid2 q3
      have hsame : hdrsOf x.s.id (fs ++ [f]) = hdrsOf x.s.id fs := by rw [hsn]; simp [h0]
      have hid3 : x3.s.id = x.s.id := by rw [q3.core.id, hid2, hid]
      have hidx : x1.s.id = f.sid := by rw [q1.core.id, hid]
      have cr2' : PlainData f → ∀ sid, creditFor sid o2 = if f.type = 0 ∧ (sid = 0 ∨ sid = f.sid) then f.length else 0 := by
        intro hp sid
        rw [cr2 sid hid1 rfl, hlen hp, hidx]
        simp [h0]
      rcases respond_cases f x3 y hr with ⟨rfl, _⟩ | ⟨st, pc, hs', hh, o, eo, ko, es, co, _, _⟩
      · refine ⟨q1.core.trans (c2.trans q3.core), fun _ => ?_, o1 ++ o2, by rw [eo3, e2, e1, List.append_assoc], ?_, ?_, ?_⟩
        · refine ⟨m3.pe, m3.st, m3.cr, ?_, ?_⟩
          · rw [hid3, hsame]; exact m3.hd
          · rw [hid3]; exact m3.bd
        · rw [openedIds_append, openedIds_quiet o1 k1, op2]; rfl
        · exact good_append (good_quiet k1) (good_wu w2)
        · intro hp _ sid; rw [creditFor_append, creditFor_quiet sid o1 k1, cr2' hp, Nat.zero_add]
      · have hpeh : PeerEndedHeaders x3.s.id (fs ++ [f]) := by
          rcases pc with pc | pc
          · exact m3.pe pc
          · exact (m3.cr pc).1
        have hdd : hs' = hdrsOf x3.s.id (fs ++ [f]) := by
          have := m3.hd; rw [hh] at this
          rw [hid3, hsame]; exact Option.some.inj this
        refine ⟨q1.core.trans (c2.trans (q3.core.trans co)), fun _ => ?_, o1 ++ o2 ++ .dispatch x3.s.id hs' x3.s.body x3.s.discard :: o,
          by rw [eo, eo3, e2, e1]; simp, ?_, ?_, ?_⟩
        · rw [es]
          refine ⟨m3.pe, m3.st, fun _ => ⟨hpeh, m3.st st⟩, ?_, ?_⟩
          · show x3.s.headers = some (hdrsOf x3.s.id (fs ++ [f]))
            rw [hid3, hsame]; exact m3.hd
          · show AllPlain (fs ++ [f]) → x3.s.discard = false → _ = dataOf x3.s.id (fs ++ [f])
            rw [hid3]; exact m3.bd
        · rw [openedIds_append, openedIds_append, openedIds_quiet o1 k1, op2]
          have := openedIds_quiet o ko
          unfold openedIds at this ⊢
          simpa using this
        · refine good_append (good_append (good_quiet k1) (good_wu w2)) ?_
          intro sid hs'' bd d hmem
          rcases List.mem_cons.1 hmem with hmem | hmem
          · cases hmem
            refine ⟨hdd, hpeh, m3.st st, fun hp hd => ?_⟩
            rw [hid3]; exact m3.bd hp hd
          · have := ko _ hmem; simp [quiet] at this
        · intro hp _ sid
          rw [creditFor_append, creditFor_append, creditFor_quiet sid o1 k1, cr2' hp, Nat.zero_add]
          have := creditFor_quiet sid o ko
          unfold creditFor at this ⊢
          simp [this]
  · have hd0 : dataOf x.s.id (fs ++ [f]) = dataOf x.s.id fs := by rw [hdn]; simp [h0]
    by_cases h1 : f.type = 1
    · -- HEADERS
      have h' : onHeaders f x = some y := by unfold handle at h; rw [h1] at h; exact h
      obtain ⟨x1, x3, q1, hn, q3, hr⟩ := onHeaders_cases f h1 x y h'
      obtain ⟨o1, e1, k1⟩ := q1.out
      obtain ⟨o3, e3, k3⟩ := q3.out
      have m1 := hm.quiet hid q1
      have hsame : hdrsOf x.s.id (fs ++ [f]) = hdrsOf x.s.id fs ++ f.hdrs := by rw [hsn, if_pos ⟨.inl h1, hid.symm⟩]
      have m2 : Mid (fs ++ [f]) ({ x1 with s := { x1.s with headers := x1.s.headers.map (· ++ f.hdrs) } } : Ctx).s
          (hdrsOf x.s.id (fs ++ [f])) (dataOf x.s.id fs) := by
        refine ⟨m1.pe, m1.st, m1.cr, ?_, m1.bd⟩
        show x1.s.headers.map (· ++ f.hdrs) = _
        rw [m1.hd, hsame]; rfl
      have hid2 : x1.s.id = f.sid := by rw [q1.core.id, hid]
      have m3 := m2.quiet (show _ = f.sid from hid2) q3
      have hid3 : x3.s.id = x.s.id := by rw [q3.core.id]; show x1.s.id = _; rw [hid2, hid]
      have c12 : Core x ({ x1 with s := { x1.s with headers := x1.s.headers.map (· ++ f.hdrs) } } : Ctx) :=
        q1.core.trans ⟨rfl, rfl, rfl, rfl, rfl, rfl, rfl, rfl, fun h => h, fun h => h⟩
      have e3' : x3.o = x.o ++ (o1 ++ o3) := by rw [e3]; show x1.o ++ o3 = _; rw [e1, List.append_assoc]
      have k13 : ∀ a ∈ o1 ++ o3, quiet a = true := by
        intro a ha; rcases List.mem_append.1 ha with ha | ha
        · exact k1 a ha
        · exact k3 a ha
      rcases respond_cases f x3 y hr with ⟨rfl, _⟩ | ⟨st, pc, hs', hh, o, eo, ko, es, co, _, _⟩
      · refine ⟨c12.trans q3.core, fun _ => ?_, o1 ++ o3, e3', openedIds_quiet _ k13, good_quiet k13, ?_⟩
        · refine ⟨m3.pe, m3.st, m3.cr, ?_, ?_⟩
          · rw [hid3]; exact m3.hd
          · rw [hid3, hd0]; exact m3.bd
        · intro _ _ sid; rw [creditFor_quiet sid _ k13]; simp [h0]
      · have hpeh : PeerEndedHeaders x3.s.id (fs ++ [f]) := by
          rcases pc with pc | pc
          · exact m3.pe pc
          · exact (m3.cr pc).1
        have hdd : hs' = hdrsOf x3.s.id (fs ++ [f]) := by
          have := m3.hd; rw [hh] at this
          rw [hid3]; exact Option.some.inj this
        refine ⟨c12.trans (q3.core.trans co), fun _ => ?_, (o1 ++ o3) ++ .dispatch x3.s.id hs' x3.s.body x3.s.discard :: o,
          by rw [eo, e3']; simp, ?_, ?_, ?_⟩
        · rw [es]
          refine ⟨m3.pe, m3.st, fun _ => ⟨hpeh, m3.st st⟩, ?_, ?_⟩
          · show x3.s.headers = some (hdrsOf x3.s.id (fs ++ [f]))
            rw [hid3]; exact m3.hd
          · show AllPlain (fs ++ [f]) → x3.s.discard = false → _ = dataOf x3.s.id (fs ++ [f])
            rw [hid3, hd0]; exact m3.bd
        · rw [openedIds_append, openedIds_quiet _ k13]
          have := openedIds_quiet o ko
          unfold openedIds at this ⊢
          simpa using this
        · refine good_append (good_quiet k13) ?_
          intro sid hs'' bd d hmem
          rcases List.mem_cons.1 hmem with hmem | hmem
          · cases hmem
            refine ⟨hdd, hpeh, m3.st st, fun hp hd => ?_⟩
            rw [hid3, hd0]; exact m3.bd hp hd
          · have := ko _ hmem; simp [quiet] at this
        · intro _ _ sid
          rw [creditFor_append, creditFor_quiet sid _ k13]
          have := creditFor_quiet sid o ko
          unfold creditFor at this ⊢
          simp [this, h0]
    · by_cases h9 : f.type = 9
      · -- CONTINUATION
        have h' : onContinuation f x = some y := by unfold handle at h; rw [h9] at h; exact h
        obtain ⟨x1, _, q1, q3⟩ := onCont_cases f h9 x y h'
        obtain ⟨o1, e1, k1⟩ := q1.out
        obtain ⟨o3, e3, k3⟩ := q3.out
        have m1 := hm.quiet hid q1
        have hsame : hdrsOf x.s.id (fs ++ [f]) = hdrsOf x.s.id fs ++ f.hdrs := by rw [hsn, if_pos ⟨.inr h9, hid.symm⟩]
        have m2 : Mid (fs ++ [f]) ({ x1 with s := { x1.s with headers := x1.s.headers.map (· ++ f.hdrs) } } : Ctx).s
            (hdrsOf x.s.id (fs ++ [f])) (dataOf x.s.id fs) := by
          refine ⟨m1.pe, m1.st, m1.cr, ?_, m1.bd⟩
          show x1.s.headers.map (· ++ f.hdrs) = _
          rw [m1.hd, hsame]; rfl
        have hid2 : x1.s.id = f.sid := by rw [q1.core.id, hid]
        have m3 := m2.quiet (show _ = f.sid from hid2) q3
        have hid3 : y.s.id = x.s.id := by rw [q3.core.id]; show x1.s.id = _; rw [hid2, hid]
        have c12 : Core x ({ x1 with s := { x1.s with headers := x1.s.headers.map (· ++ f.hdrs) } } : Ctx) :=
          q1.core.trans ⟨rfl, rfl, rfl, rfl, rfl, rfl, rfl, rfl, fun h => h, fun h => h⟩
        have k13 : ∀ a ∈ o1 ++ o3, quiet a = true := by
          intro a ha; rcases List.mem_append.1 ha with ha | ha
          · exact k1 a ha
          · exact k3 a ha
        refine ⟨c12.trans q3.core, fun _ => ?_, o1 ++ o3, ?_, openedIds_quiet _ k13, good_quiet k13, ?_⟩
        · refine ⟨m3.pe, m3.st, m3.cr, ?_, ?_⟩
          · rw [hid3]; exact m3.hd
          · rw [hid3, hd0]; exact m3.bd
        · rw [e3]; show x1.o ++ o3 = _; rw [e1, List.append_assoc]
        · intro _ _ sid; rw [creditFor_quiet sid _ k13]; simp [h0]
      · have hsame : hdrsOf x.s.id (fs ++ [f]) = hdrsOf x.s.id fs := by rw [hsn]; simp [h1, h9]
        by_cases h5 : f.type = 5
        · have h' : onPushPromise f x = some y := by unfold handle at h; rw [h5] at h; exact h
          unfold onPushPromise at h'
          simp only [Option.some.injEq] at h'; subst h'
          have e1 := q_when f (f.sid == 0) (Ctx.connErr protocolError) x (fun _ => q_connErr _ _ _)
          generalize x.when (f.sid == 0) (Ctx.connErr protocolError) = x1 at e1 ⊢
          have e2 := q_when f (!(x1.s.st == .open_ || x1.s.st == .halfRemote)) (Ctx.connErr protocolError) x1 (fun _ => q_connErr _ _ _)
          generalize x1.when (!(x1.s.st == .open_ || x1.s.st == .halfRemote)) (Ctx.connErr protocolError) = x2 at e2 ⊢
          have e3 := (q_connErr f protocolError x2).trans (q_connErr f protocolError (x2.connErr protocolError))
          have q := e1.trans (e2.trans e3)
          obtain ⟨o, eo, ko⟩ := q.out
          have k' : ∀ a ∈ o ++ [Out.emergency], quiet a = true := by
            intro a ha; rcases List.mem_append.1 ha with ha | ha
            · exact ko a ha
            · simp at ha; subst ha; rfl
          refine ⟨q.core.trans ⟨rfl, rfl, rfl, rfl, rfl, rfl, rfl, rfl, fun _ => rfl, fun _ _ => rfl⟩, by simp [Ctx.emergency], o ++ [.emergency], ?_,
            openedIds_quiet _ k', good_quiet k', by simp [Ctx.emergency]⟩
          simp only [Ctx.emergency, eo, List.append_assoc]
        · have q := handle_other f x y h h0 h1 h5 h9
          obtain ⟨o, eo, ko⟩ := q.out
          have m := hm.quiet hid q
          refine ⟨q.core, fun _ => ?_, o, eo, openedIds_quiet _ ko, good_quiet ko, fun _ _ sid => by rw [creditFor_quiet sid _ ko]; simp [h0]⟩
          refine ⟨m.pe, m.st, m.cr, ?_, ?_⟩
          · rw [q.core.id, hsame]; exact m.hd
          · rw [q.core.id, hd0]; exact m.bd

end Fly.H2S
