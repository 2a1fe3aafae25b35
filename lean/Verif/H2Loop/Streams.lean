import Verif.H2Stream.Inv
set_option linter.all false

/-! A frame changes no other stream than its own. -/

namespace Fly.H2S

/-- The stream keeps its id, the list of streams is the same. -/
def Kp (x y : Ctx) : Prop := y.s.id = x.s.id ∧ y.c.streams = x.c.streams ∧ y.c.root = x.c.root ∧ y.c.maxFrame = x.c.maxFrame

theorem Kp.refl (x : Ctx) : Kp x x := ⟨rfl, rfl, rfl, rfl⟩
theorem Kp.trans {x y z : Ctx} (a : Kp x y) (b : Kp y z) : Kp x z := ⟨by rw [b.1, a.1], by rw [b.2.1, a.2.1], by rw [b.2.2.1, a.2.2.1], by rw [b.2.2.2, a.2.2.2]⟩
theorem kp_when {b : Bool} {g : Ctx → Ctx} {x0 x : Ctx} (h : Kp x0 x) (hg : Kp x (g x)) : Kp x0 (x.when b g) := by
  unfold Ctx.when; split
  · exact h.trans hg
  · exact h
theorem kp_parse {x y : Ctx} {len : Nat} {data : Bytes} {b : Bool} (hp : parseData x len data = some (y, b)) : Kp x y := by
  unfold parseData at hp
  split at hp
  · simp only [Option.some.injEq, Prod.mk.injEq] at hp; obtain ⟨rfl, _⟩ := hp; exact Kp.refl _
  · split at hp
    · simp at hp
    · simp only at hp
      split at hp
      · simp only [Option.some.injEq, Prod.mk.injEq] at hp; obtain ⟨rfl, _⟩ := hp; exact ⟨rfl, rfl, rfl, rfl⟩
      · split at hp
        · simp only [Option.some.injEq, Prod.mk.injEq] at hp; obtain ⟨rfl, _⟩ := hp; exact ⟨rfl, rfl, rfl, rfl⟩
        · split at hp
          · simp only [Option.some.injEq, Prod.mk.injEq] at hp; obtain ⟨rfl, _⟩ := hp; exact ⟨rfl, rfl, rfl, rfl⟩
          · simp only [Option.some.injEq, Prod.mk.injEq] at hp; obtain ⟨rfl, _⟩ := hp; exact ⟨rfl, rfl, rfl, rfl⟩
theorem kp_respond {f : Frame} {x y : Ctx} (h : respond f x = some y) : Kp x y := by
  unfold respond at h
  split at h
  · split at h
    · simp at h
    · simp only at h
      split at h
      · simp only [Option.some.injEq] at h; subst h; exact ⟨rfl, rfl, rfl, rfl⟩
      · simp only [Option.some.injEq] at h; subst h; exact ⟨rfl, rfl, rfl, rfl⟩
  · simp only [Option.some.injEq] at h; subst h; exact Kp.refl _

theorem kp_handle {f : Frame} {x y : Ctx} (hh : handle f x = some y) : Kp x y := by
  have k : ∀ (x : Ctx) (n : Nat), Kp x (x.connErr n) := fun x n => ⟨rfl, rfl, rfl, rfl⟩
  have s : ∀ (x : Ctx) (n : Nat), Kp x (x.streamErr n) := fun x n => ⟨rfl, rfl, rfl, rfl⟩
  unfold handle at hh
  split at hh
  · unfold onData at hh
    simp only at hh
    split at hh
    · simp at hh
    · next hp =>
      simp only [Option.some.injEq] at hh; subst hh
      exact ((kp_when (kp_when (Kp.refl x) (k _ _)) (s _ _)).trans (kp_parse hp)).trans ⟨rfl, rfl, rfl, rfl⟩
    · next hp =>
      exact (kp_when ((kp_when (kp_when (Kp.refl x) (k _ _)) (s _ _)).trans (kp_parse hp)) ⟨rfl, rfl, rfl, rfl⟩).trans (kp_respond hh)
  · unfold onHeaders at hh
    simp only at hh
    split at hh
    · simp at hh
    · refine Kp.trans ?_ (kp_respond hh)
      refine kp_when (kp_when (kp_when ?_ (k _ _)) ⟨rfl, rfl, rfl, rfl⟩) ⟨rfl, rfl, rfl, rfl⟩
      refine Kp.trans (y := Ctx.when _ _ _) ?_ ⟨rfl, rfl, rfl, rfl⟩
      exact kp_when (kp_when (kp_when (kp_when (Kp.refl x) (k _ _)) (s _ _)) ⟨rfl, rfl, rfl, rfl⟩) ⟨rfl, rfl, rfl, rfl⟩
  · unfold onPriority at hh
    simp only [Option.some.injEq] at hh; subst hh
    exact kp_when (kp_when (Kp.refl x) (k _ _)) (s _ _)
  · unfold onRst at hh
    simp only [Option.some.injEq] at hh; subst hh
    refine Kp.trans (y := Ctx.when _ _ _) ?_ ⟨rfl, rfl, rfl, rfl⟩
    exact kp_when (kp_when (kp_when (Kp.refl x) (k _ _)) (k _ _)) (k _ _)
  · unfold onSettings at hh
    simp only at hh
    have := kp_when (b := f.length % 6 != 0) (kp_when (b := f.sid != 0) (Kp.refl x) (k _ protocolError)) (k _ frameSizeError)
    split at hh
    · simp only [Option.some.injEq] at hh; subst hh; exact this
    · split at hh
      · simp only [Option.some.injEq] at hh; subst hh; exact this.trans ⟨rfl, rfl, rfl, rfl⟩
      · simp only [Option.some.injEq] at hh; subst hh; exact this.trans ⟨rfl, rfl, rfl, rfl⟩
      · simp only [Option.some.injEq] at hh; subst hh; exact this.trans ⟨rfl, rfl, rfl, rfl⟩
  · unfold onPushPromise at hh
    simp only [Option.some.injEq] at hh; subst hh
    exact (kp_when (kp_when (Kp.refl x) (k _ _)) (k _ _)).trans ⟨rfl, rfl, rfl, rfl⟩
  · unfold onPing at hh
    simp only [Option.some.injEq] at hh; subst hh
    have := kp_when (b := f.length != 8) (kp_when (b := f.sid != 0) (Kp.refl x) (k _ protocolError)) (k _ frameSizeError)
    exact this.trans ⟨rfl, rfl, rfl, rfl⟩
  · unfold onGoaway at hh
    simp only [Option.some.injEq] at hh; subst hh
    have := kp_when (b := f.sid != 0) (Kp.refl x) (k _ protocolError)
    refine kp_when (g := Ctx.connErr 0) ?_ (k _ _)
    exact this.trans ⟨rfl, rfl, rfl, rfl⟩
  · unfold onWindowUpdate at hh
    simp only at hh
    have := kp_when (b := f.increment == 0 && f.sid != 0) (kp_when (b := f.increment == 0 && f.sid == 0)
      (kp_when (b := f.length != 4) (Kp.refl x) (k _ frameSizeError)) (s _ protocolError)) (k _ protocolError)
    split at hh
    · simp only [Option.some.injEq] at hh; subst hh; exact this.trans ⟨rfl, rfl, rfl, rfl⟩
    · simp only [Option.some.injEq] at hh; subst hh; exact this.trans ⟨rfl, rfl, rfl, rfl⟩
  · unfold onContinuation at hh
    split at hh
    · simp at hh
    · simp only [Option.some.injEq] at hh; subst hh
      refine kp_when ?_ ⟨rfl, rfl, rfl, rfl⟩
      have := kp_when (b := endHeaders f) (Kp.refl x) (k _ protocolError)
      exact this.trans ⟨rfl, rfl, rfl, rfl⟩
  · simp only [Option.some.injEq] at hh; subst hh; exact Kp.refl _

theorem find_replace (S : List Stream) (t : Stream) (sid : Nat) (h : t.id ≠ sid) :
    (S.map fun u => if u.id = t.id then t else u).find? (fun s => s.id == sid) = S.find? (fun s => s.id == sid) := by
  induction S with
  | nil => rfl
  | cons a S ih =>
    rw [List.map_cons, List.find?_cons, List.find?_cons, ih]
    by_cases e : a.id = t.id
    · rw [if_pos e]
      have h1 : (t.id == sid) = false := by simpa using h
      have h2 : (a.id == sid) = false := by rw [e]; exact h1
      rw [h1, h2]
    · rw [if_neg e]

theorem commit_find (y : Ctx) (sid : Nat) (h : y.s.id ≠ sid) :
    y.commit.streams.find? (fun s => s.id == sid) = y.c.streams.find? (fun s => s.id == sid) := by
  unfold Ctx.commit; split
  · rfl
  · exact find_replace _ _ _ h

theorem process_other (f : Frame) (x : Ctx) (c' : Conn) (o : List Out) (sid : Nat) (hne : x.s.id ≠ sid) (h : process f x = some (c', o)) :
    c'.streams.find? (fun s => s.id == sid) = x.c.streams.find? (fun s => s.id == sid) := by
  unfold process at h
  split at h
  · simp only [Option.some.injEq, Prod.mk.injEq] at h
    obtain ⟨rfl, rfl⟩ := h
    exact commit_find _ _ hne
  · rw [Option.map_eq_some_iff] at h
    obtain ⟨y, hy, h⟩ := h
    simp only [Prod.mk.injEq] at h
    obtain ⟨rfl, rfl⟩ := h
    have kp := kp_handle hy
    rw [commit_find _ _ (by rw [kp.1]; exact hne), kp.2.1]

theorem process_root (f : Frame) (x : Ctx) (c' : Conn) (o : List Out) (hr : x.c.root.id = 0) (h : process f x = some (c', o)) :
    c'.root.id = 0 := by
  have cr : ∀ y : Ctx, y.c.root.id = 0 → y.commit.root.id = 0 := by
    intro y e; unfold Ctx.commit; split
    · assumption
    · exact e
  unfold process at h
  split at h
  · simp only [Option.some.injEq, Prod.mk.injEq] at h
    obtain ⟨rfl, rfl⟩ := h
    exact cr _ hr
  · rw [Option.map_eq_some_iff] at h
    obtain ⟨y, hy, h⟩ := h
    simp only [Prod.mk.injEq] at h
    obtain ⟨rfl, rfl⟩ := h
    have kp := kp_handle hy
    exact cr _ (by rw [kp.2.2.1]; exact hr)

theorem process_maxFrame (f : Frame) (x : Ctx) (c' : Conn) (o : List Out) (h : process f x = some (c', o)) : c'.maxFrame = x.c.maxFrame := by
  have cr : ∀ y : Ctx, y.commit.maxFrame = y.c.maxFrame := by
    intro y; unfold Ctx.commit; split <;> rfl
  unfold process at h
  split at h
  · simp only [Option.some.injEq, Prod.mk.injEq] at h
    obtain ⟨rfl, rfl⟩ := h
    exact cr _
  · rw [Option.map_eq_some_iff] at h
    obtain ⟨y, hy, h⟩ := h
    simp only [Prod.mk.injEq] at h
    obtain ⟨rfl, rfl⟩ := h
    rw [cr, (kp_handle hy).2.2.2]

theorem stepFrame_maxFrame (c c' : Conn) (f : Frame) (o : List Out) (h : stepFrame c f = some (c', o)) : c'.maxFrame = c.maxFrame := by
  have key : ∀ (d : Conn) (o0 : List Out), d.maxFrame = c.maxFrame → stepRest d f o0 = some (c', o) → c'.maxFrame = c.maxFrame := by
    intro d o0 hd h
    unfold stepRest at h
    split at h
    · rw [process_maxFrame _ _ _ _ h]; exact hd
    · split at h
      · simp only [Option.some.injEq, Prod.mk.injEq] at h
        obtain ⟨rfl, rfl⟩ := h
        exact hd
      · rw [process_maxFrame _ _ _ _ h]; exact hd
  by_cases hge : (c.goaway || c.ended) = true
  · unfold stepFrame at h
    rw [if_pos hge] at h
    simp only [Option.some.injEq, Prod.mk.injEq] at h
    rw [← h.1]
  · simp only [Bool.or_eq_true, not_or, Bool.not_eq_true] at hge
    rw [stepFrame_eq c f hge.1 hge.2] at h
    split at h
    · exact key { c with goaway := true } [.goaway protocolError] rfl h
    · exact key c [] rfl h

/-- A frame does not touch other streams than its own. -/
theorem other_stream (c c' : Conn) (f : Frame) (o : List Out) (sid : Nat) (h : stepFrame c f = some (c', o)) (hne : f.sid ≠ sid)
    (hr : c.root.id = 0) :
    c'.streams.find? (fun s => s.id == sid) = c.streams.find? (fun s => s.id == sid) ∧ c'.root.id = 0 := by
  have key : ∀ (d : Conn) (o0 : List Out), d.streams = c.streams → d.root = c.root → stepRest d f o0 = some (c', o) →
      c'.streams.find? (fun s => s.id == sid) = c.streams.find? (fun s => s.id == sid) ∧ c'.root.id = 0 := by
    intro d o0 hd hd2 h
    unfold stepRest at h
    split at h
    · next s hs =>
      have hid : s.id = f.sid := by
        unfold search at hs
        split at hs
        · simp only [Option.some.injEq] at hs; subst hs; rw [hd2, hr]; symm; assumption
        · have := List.find?_some hs; simpa using this
      have := process_other f _ c' o sid (by rw [hid]; exact hne) h
      exact ⟨by rw [this]; simp only [hd], process_root f _ c' o (by simp only [hd2]; exact hr) h⟩
    · next hs =>
      split at h
      · simp only [Option.some.injEq, Prod.mk.injEq] at h
        obtain ⟨rfl, rfl⟩ := h
        exact ⟨by simp only [hd], by simp only [hd2]; exact hr⟩
      · have := process_other f _ c' o sid hne h
        refine ⟨?_, process_root f _ c' o (by simp only [create, hd2]; exact hr) h⟩
        rw [this]
        simp only [create, hd, List.find?_append]
        have : (f.sid == sid) = false := by simpa using hne
        simp [List.find?_cons, this]
  by_cases hge : (c.goaway || c.ended) = true
  · unfold stepFrame at h
    rw [if_pos hge] at h
    simp only [Option.some.injEq, Prod.mk.injEq] at h
    obtain ⟨rfl, rfl⟩ := h
    exact ⟨rfl, hr⟩
  · simp only [Bool.or_eq_true, not_or, Bool.not_eq_true] at hge
    rw [stepFrame_eq c f hge.1 hge.2] at h
    split at h
    · exact key { c with goaway := true } [.goaway protocolError] rfl rfl h
    · exact key c [] rfl rfl h

end Fly.H2S
