import Verif.H2Loop.Lemmas
import Verif.H2Loop.Spec
set_option linter.all false

/-! A client that only sends SETTINGS and PING. -/

namespace Fly.H2L
open Fly.H2S (Frame Out SState Stream Conn)

theorem step_settings (c : Conn) (f : Frame) (h : IsSettings f) (hg : c.goaway = false) (he : c.ended = false) (hm : c.maxFrame = 16384)
    (hr : c.root.id = 0) : H2S.stepFrame c f = some ({ c with comm := true }, [.settingsAck]) := by
  obtain ⟨ht, hs, hl, hl2, hf, ho⟩ := h
  rw [H2S.stepFrame_eq c f hg he, if_neg (by omega)]
  unfold H2S.stepRest H2S.search
  rw [if_pos hs]
  simp only
  unfold H2S.process H2S.handle
  simp only [ht]
  unfold H2S.onSettings
  simp [hf, ho, hs, hl, H2S.Ctx.when, H2S.Ctx.commit, hr]

theorem step_ping (c : Conn) (f : Frame) (h : IsPing f) (hg : c.goaway = false) (he : c.ended = false) (hm : c.maxFrame = 16384)
    (hr : c.root.id = 0) (hc : c.comm = true) : H2S.stepFrame c f = some (c, [.pong]) := by
  obtain ⟨ht, hs, hl⟩ := h
  rw [H2S.stepFrame_eq c f hg he, if_neg (by omega)]
  unfold H2S.stepRest H2S.search
  rw [if_pos hs]
  simp only
  unfold H2S.process H2S.handle
  simp only [ht, hc]
  unfold H2S.onPing
  simp [hs, hl, H2S.Ctx.when, H2S.Ctx.commit, hr]

structure Quiet (l : Link) : Prop where
  write : l.row.write = false
  go : l.c.goaway = false
  en : l.c.ended = false
  mf : l.c.maxFrame = 16384
  root : l.c.root.id = 0
  ctl : ∀ f ∈ l.input, IsSettings f ∨ IsPing f
  comm : l.c.comm = true ∨ ∀ f fs, l.input = f :: fs → IsSettings f

theorem Quiet.congr {l l' : Link} (h : Quiet l) (hw : l'.row.write = l.row.write) (hc : l'.c = l.c) (hi : l'.input = l.input) : Quiet l' :=
  ⟨by rw [hw]; exact h.write, by rw [hc]; exact h.go, by rw [hc]; exact h.en, by rw [hc]; exact h.mf, by rw [hc]; exact h.root,
    by rw [hi]; exact h.ctl, by rw [hc, hi]; exact h.comm⟩

def QP (l : Link) : Prop := l.closed = true ∨ Quiet l
def QA (av : Row) (l : Link) : Prop := av.write = false ∧ Quiet l
def NoSent (ev : List Ev) : Prop := sentOf ev = []

theorem sentOf_append (a b : List Ev) : sentOf (a ++ b) = sentOf a ++ sentOf b := by
  unfold sentOf; rw [List.filterMap_append]
theorem didOf_append (a b : List Ev) : didOf (a ++ b) = didOf a ++ didOf b := by
  unfold didOf; rw [List.filterMap_append]
theorem sentOf_did (os : List Out) : sentOf (os.map .did) = [] := by
  induction os with
  | nil => rfl
  | cons o os ih => simpa [sentOf] using ih
theorem sentOf_sent (q : List Item) : sentOf (q.map .sent) = q := by
  induction q with
  | nil => rfl
  | cons o os ih => simpa [sentOf] using ih
theorem didOf_did (os : List Out) : didOf (os.map .did) = os := by
  induction os with
  | nil => rfl
  | cons o os ih => simpa [didOf] using ih
theorem didOf_sent (q : List Item) : didOf (q.map .sent) = [] := by
  induction q with
  | nil => rfl
  | cons o os ih => simpa [didOf] using ih

theorem NoSent.mon : Mon NoSent :=
  ⟨rfl, fun a b ha hb => by unfold NoSent at *; rw [sentOf_append, ha, hb]; rfl⟩

theorem Quiet.one {l : Link} (app : Nat → Option Nat) (h : Quiet l) (f : Frame) (fs : List Frame) (hi : l.input = f :: fs) :
    ∃ c' o, H2S.stepFrame l.c f = some (c', [o]) ∧ Quiet (consume f fs (after app l f c' [o])) ∧ c'.goaway = false ∧ c'.ended = false := by
  have hctl : ∀ g ∈ fs, IsSettings g ∨ IsPing g := fun g m => h.ctl g (by rw [hi]; exact List.mem_cons_of_mem _ m)
  by_cases hs : IsSettings f
  · refine ⟨_, _, step_settings l.c f hs h.go h.en h.mf h.root, ?_, h.go, h.en⟩
    exact ⟨h.write, h.go, h.en, h.mf, h.root, hctl, .inl rfl⟩
  · have hp : IsPing f := by
      rcases h.ctl f (by rw [hi]; exact List.mem_cons_self) with a | a
      · exact absurd a hs
      · exact a
    have hc : l.c.comm = true := by
      rcases h.comm with a | a
      · exact a
      · exact absurd (a f fs hi) hs
    refine ⟨_, _, step_ping l.c f hp h.go h.en h.mf h.root hc, ?_, h.go, h.en⟩
    exact ⟨h.write, h.go, h.en, h.mf, h.root, hctl, .inl hc⟩

theorem frames_quiet (app : Nat → Option Nat) (av : Row) (l : Link) (h : Quiet l) :
    Sat (fun r => NoSent r.2.1 ∧ Quiet r.1 ∧ (match r.2.2 with
        | .block av' => av' = av ∨ av' = ⟨false, false⟩
        | .goaway => r.1.c.goaway = true
        | .emergency => r.1.c.ended = true)) (fun _ => False) (frames app av l l.input) := by
  refine frames_sat app Quiet NoSent (fun _ => False) NoSent.mon ?_ ?_ ?_ av l.input l rfl h h.go
  · intro l f fs h hi hl
    rw [h.mf] at hl
    rcases h.ctl f (by rw [hi]; exact List.mem_cons_self) with a | a
    · have := a.2.2.2.1; omega
    · have := a.2.2; omega
  · intro l f fs h hi hg e
    obtain ⟨c', o, e', _⟩ := h.one app f fs hi
    rw [e'] at e; simp at e
  · intro l f fs c' os h hi hg hsz e
    obtain ⟨c'', o, e', q, g1, g2⟩ := h.one app f fs hi
    rw [e'] at e
    simp only [Option.some.injEq, Prod.mk.injEq] at e
    obtain ⟨rfl, rfl⟩ := e
    refine ⟨sentOf_did [o], q, ?_⟩
    rintro (a | a)
    · rw [g1] at a; simp at a
    · rw [g2] at a; simp at a

theorem serve_quiet (app : Nat → Option Nat) (av : Row) (l : Link) (h : QA av l) : Sat (ServeOK QP QA NoSent) (fun _ => False) (serve app av l) := by
  obtain ⟨hw, h⟩ := h
  have blk : ∀ (av' : Row) (l' : Link) (ev : List Ev), NoSent ev → QA av' l' → ServeOK QP QA NoSent (l', ev, some av') := by
    intro av' l' ev hev hp
    exact ⟨hev, .inr (hp.2.congr rfl rfl rfl), .inr (hp.2.congr rfl rfl rfl), fun _ k => ⟨hp.1, hp.2.congr rfl rfl rfl⟩⟩
  unfold serve
  simp only
  rw [if_neg (by simp [h.go])]
  split
  · exact ⟨rfl, .inl rfl⟩
  · split
    · split
      · exact blk av l [] rfl ⟨hw, h⟩
      · have hf := frames_quiet app av l h
        cases e : frames app av l l.input with
        | error b => rw [e] at hf; exact hf
        | ok r =>
          obtain ⟨l1, ev, st⟩ := r
          rw [e] at hf
          obtain ⟨h1, h2, h3⟩ := hf
          cases st with
          | block av' =>
            refine blk av' l1 ev h1 ⟨?_, h2⟩
            rcases h3 with e | e
            · rw [e]; exact hw
            · rw [e]
          | goaway => have := h2.go; rw [h3] at this; simp at this
          | emergency => have := h2.en; rw [h3] at this; simp at this
    · rw [if_neg (by simp [hw])]
      exact blk av l [] rfl ⟨hw, h⟩

theorem step_quiet (app : Nat → Option Nat) (l : Link) (s : Step) (h : QP l) : Sat (fun r => QP r.1 ∧ NoSent r.2) (fun _ => False) (step app l s) := by
  have cg : ∀ l' : Link, l'.closed = l.closed → l'.row.write = l.row.write → l'.c = l.c → l'.input = l.input → QP l' := by
    intro l' hc hw hcc hi
    rcases h with h | h
    · exact .inl (by rw [hc]; exact h)
    · exact .inr (h.congr hw hcc hi)
  have q : l.closed = false → Quiet l := by
    intro hc; rcases h with h | h
    · rw [hc] at h; simp at h
    · exact h
  cases s with
  | arrive n => exact ⟨cg _ rfl rfl rfl rfl, rfl⟩
  | fin => exact ⟨cg _ rfl rfl rfl rfl, rfl⟩
  | turn k more w =>
    refine turn_sat app QP QA NoSent _ NoSent.mon (serve_quiet app) k more w l h ?_ ?_ ?_ ?_
    · intro hc _; exact ⟨by simp [ready, (q hc).write], q hc⟩
    · intro hc _ _; exact ⟨by simp [ready, (q hc).write], (q hc).congr rfl rfl rfl⟩
    · intro hc _ _ _; exact ⟨by simp [ready, (q hc).write], (q hc).congr rfl rfl rfl⟩
    · intro hc _; exact cg _ rfl rfl rfl rfl

theorem run_quiet (app : Nat → Option Nat) (ss : List Step) (l : Link) (h : QP l) :
    Sat (fun r => QP r.1 ∧ NoSent r.2) (fun _ => False) (run app l ss) :=
  run_sat app QP NoSent _ NoSent.mon (step_quiet app) ss l h

end Fly.H2L
