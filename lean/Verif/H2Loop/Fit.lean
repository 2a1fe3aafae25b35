import Verif.H2Loop.Stall
set_option linter.all false

/-! Frames within the limit are handled when they have arrived completely. -/

namespace Fly.H2L
open Fly.H2S (Frame Out SState Stream Conn)

/-- Any predicate on the limit and the input that is kept when a frame is taken. -/
def Fits (P : Nat → List Frame → Prop) (l : Link) : Prop := P l.c.maxFrame l.input

theorem Fits.congr {P : Nat → List Frame → Prop} {l l' : Link} (h : Fits P l) (hc : l'.c.maxFrame = l.c.maxFrame) (hi : l'.input = l.input) : Fits P l' := by
  unfold Fits; rw [hc, hi]; exact h

section
variable (P : Nat → List Frame → Prop) (Big : Prop) (tail : ∀ m f fs, P m (f :: fs) → P m fs) (big : ∀ m f fs, P m (f :: fs) → m < f.length → Big)
include tail big
local notation "Fit" => Fits P

theorem fit_frames (app : Nat → Option Nat) (av : Row) (l : Link) (h : Fit l) (hg : l.c.goaway = false) :
    Sat (fun r => Fit r.1) (fun b => b = .short → Big) (frames app av l l.input) := by
  have tm : Mon (fun _ : List Ev => True) := ⟨trivial, fun _ _ _ _ => trivial⟩
  refine (frames_sat app Fit (fun _ => True) (fun b => b = .short → Big) tm ?_ (fun _ _ _ _ _ _ _ => by simp) ?_ av l.input l rfl h hg).mono
    (fun r hr => hr.2.1) (fun b hb => hb)
  · intro l f fs hp hi hlt _
    unfold Fits at hp
    rw [hi] at hp
    exact big _ _ _ hp hlt
  · intro l f fs c' os hp hi hg hsz e
    have sm := applyAll_same app os { l with c := c', lsid := if f.type = 7 then f.lastSid else l.lsid }
    have ea : applyAll app { l with c := c', lsid := if f.type = 7 then f.lastSid else l.lsid } os = after app l f c' os := rfl
    rw [ea] at sm
    have m := H2S.stepFrame_maxFrame _ _ _ _ e
    have hP : (after app l f c' os).c.maxFrame = l.c.maxFrame := by rw [sm.1]; exact m
    have hI : (after app l f c' os).input = l.input := sm.2.1
    refine ⟨trivial, ?_, fun _ => hp.congr hP hI⟩
    unfold Fits at hp
    rw [hi] at hp
    show P (after app l f c' os).c.maxFrame fs
    rw [hP]
    exact tail _ _ _ hp

omit tail big in
theorem fit_goaway (l : Link) (h : Fit l) : Sat (fun r => Fit r.1) (fun b => b = .short → Big) (goawayHandle l) := by
  have tm : Mon (fun _ : List Ev => True) := ⟨trivial, fun _ _ _ _ => trivial⟩
  exact (goawayHandle_sat Fit (fun _ => True) (fun b => b = .short → Big) tm (by simp) (fun _ => trivial) (fun l h => h.congr rfl rfl)
    (fun l g h => h.congr rfl rfl) l h).mono (fun r hr => hr.1) (fun b hb => hb)

omit tail big in
theorem fit_bodyDone (l : Link) (r : Resp) (rs : List Resp) (s : Stream) (h : Fit l) : Fit (bodyDone l r rs s) := by
  unfold bodyDone; simp only; split <;> exact h.congr rfl rfl

omit tail big in
theorem fit_respond (l : Link) (r : Resp) (rs : List Resp) (h : Fit l) : Sat (fun x => Fit x.1) (fun b => b = .short → Big) (respond l r rs) := by
  unfold respond
  split
  · simp [Sat]
  · split
    · exact h.congr rfl rfl
    · split
      · unfold body
        split
        · split
          · exact h.congr rfl rfl
          · split
            · exact fit_bodyDone P _ _ _ _ h
            · exact h.congr rfl rfl
        · split
          · simp [Sat]
          · split
            · exact fit_bodyDone P _ _ _ _ h
            · exact fit_bodyDone P _ _ _ _ (h.congr rfl rfl)
      · simp [Sat]

theorem fit_serve (app : Nat → Option Nat) (av : Row) (l : Link) (h : Fit l) :
    Sat (ServeOK Fit (fun _ l => Fit l) (fun _ => True)) (fun b => b = .short → Big) (serve app av l) := by
  have blk : ∀ (av' : Row) (l' : Link) (ev : List Ev), Fit l' → ServeOK Fit (fun _ l => Fit l) (fun _ => True) (l', ev, some av') :=
    fun av' l' ev hp => ⟨trivial, hp.congr rfl rfl, hp.congr rfl rfl, fun _ k => hp.congr rfl rfl⟩
  have rf : l.c.goaway = false → Sat (ServeOK Fit (fun _ l => Fit l) (fun _ => True)) (fun b => b = .short → Big) (match frames app av l l.input with
      | .error b => .error b
      | .ok (l', ev, .block av') => .ok (l', ev, some av')
      | .ok (l', ev, .goaway) => (goawayHandle l').map fun r => (r.1, ev ++ r.2, none)
      | .ok (l', ev, .emergency) => .ok (l'.close, ev ++ [.sent (.goaway 2), .workerEnds], none)) := by
    intro hg
    have hf := fit_frames P Big tail big app av l h hg
    cases e : frames app av l l.input with
    | error b => rw [e] at hf; exact hf
    | ok r =>
      obtain ⟨l1, ev, st⟩ := r
      rw [e] at hf
      have hf : Fit l1 := hf
      cases st with
      | block av' => exact blk av' l1 ev hf
      | goaway =>
        refine (fit_goaway P Big l1 hf).map ?_
        intro r hr
        exact ⟨trivial, hr⟩
      | emergency => exact ⟨trivial, hf.congr rfl rfl⟩
  unfold serve
  simp only
  cases hg : l.c.goaway with
  | true =>
    rw [if_pos rfl]
    refine (fit_goaway P Big l h).map ?_
    intro r hr
    exact ⟨trivial, hr⟩
  | false =>
    rw [if_neg (by simp)]
    split
    · exact ⟨trivial, h.congr rfl rfl⟩
    · split
      · split
        · exact blk av l [] h
        · exact rf hg
      · split
        · split
          · exact ⟨trivial, h.congr rfl rfl⟩
          · split
            · refine (fit_respond P Big l _ _ h).map ?_
              intro r hr
              exact ⟨trivial, hr⟩
            · split
              · simp [Sat]
              · exact rf hg
        · exact blk av l [] h

theorem run_fit (app : Nat → Option Nat) (ss : List Step) (l : Link) (h : Fit l) : Sat (fun r => Fit r.1) (fun b => b = .short → Big) (run app l ss) := by
  have tm : Mon (fun _ : List Ev => True) := ⟨trivial, fun _ _ _ _ => trivial⟩
  refine (run_sat app Fit (fun _ => True) (fun b => b = .short → Big) tm ?_ ss l h).mono (fun r hr => hr.1) (fun b hb => hb)
  intro l s h
  cases s with
  | arrive n => exact ⟨h.congr rfl rfl, trivial⟩
  | fin => exact ⟨h.congr rfl rfl, trivial⟩
  | turn k more w =>
    refine turn_sat app Fit (fun _ l => Fit l) _ _ tm (fit_serve P Big tail big app) k more w l h ?_ ?_ ?_ ?_
    · intro _ _; exact h
    · intro _ _ _; exact h.congr rfl rfl
    · intro _ _ _ _; exact h.congr rfl rfl
    · intro _ _; exact h.congr rfl rfl

end

theorem run_fit' (app : Nat → Option Nat) (mb : Nat) (input : List Frame) (hl : ∀ f ∈ input, f.length ≤ 16384) (ss : List Step) :
    run app (Link.start mb input) ss ≠ .error .short := by
  intro e
  have := run_fit (fun m fs => m = 16384 ∧ ∀ f ∈ fs, f.length ≤ 16384) False (fun m f fs h => ⟨h.1, fun g hg => h.2 g (List.mem_cons_of_mem _ hg)⟩)
    (fun m f fs h hlt => by have := h.2 f List.mem_cons_self; omega) app ss (Link.start mb input) ⟨rfl, hl⟩
  rw [e] at this
  exact this rfl

theorem run_input (app : Nat → Option Nat) (ss : List Step) (l l' : Link) (ev : List Ev) (h : run app l ss = .ok (l', ev)) :
    ∃ pre, l.input = pre ++ l'.input := by
  have := run_fit (fun m fs => ∃ pre, l.input = pre ++ fs) True (fun m f fs h => by obtain ⟨p, h⟩ := h; exact ⟨p ++ [f], by rw [h]; simp⟩)
    (fun _ _ _ _ _ => trivial) app ss l ⟨[], rfl⟩
  rw [h] at this
  exact this

end Fly.H2L
