import Verif.H2Loop.Sound
import Verif.H2Loop.Idle
set_option linter.all false

/-! Frames left in the buffer while nothing arrives. -/

namespace Fly.H2L
open Fly.H2S (Frame Out SState Stream Conn)

structure Stall (inp : List Frame) (l : Link) : Prop where
  input : l.input = inp
  sock : l.sock = 0
  fin : l.fin = false
  eof : l.eof = false
  closed : l.closed = false
  go : l.c.goaway = false
  sound : Sound l

def StallA (inp : List Frame) (av : Row) (l : Link) : Prop := Stall inp l ∧ av.read = false ∧ (av.write = true → l.row.write = true)
def NoDid (ev : List Ev) : Prop := didOf ev = []

theorem NoDid.mon : Mon NoDid :=
  ⟨rfl, fun a b ha hb => by unfold NoDid at *; rw [didOf_append, ha, hb]; rfl⟩

/-- What a step of a response does not touch. -/
structure Same (l l' : Link) : Prop where
  input : l'.input = l.input
  sock : l'.sock = l.sock
  fin : l'.fin = l.fin
  eof : l'.eof = l.eof
  closed : l'.closed = l.closed
  go : l'.c.goaway = l.c.goaway
  buf : l'.buf = l.buf

theorem bodyDone_same (l l0 : Link) (r : Resp) (rs : List Resp) (s : Stream) (h : Same l0 l) : Same l0 (bodyDone l r rs s) := by
  unfold bodyDone; simp only; split
  · exact ⟨h.1, h.2, h.3, h.4, h.5, h.6, h.7⟩
  · exact ⟨h.1, h.2, h.3, h.4, h.5, h.6, h.7⟩

theorem respond_same (l : Link) (r : Resp) (rs : List Resp) : Sat (fun x => Same l x.1 ∧ NoDid x.2) (fun _ => True) (respond l r rs) := by
  have rf : Same l l := ⟨rfl, rfl, rfl, rfl, rfl, rfl, rfl⟩
  unfold respond
  split
  · trivial
  · split
    · exact ⟨⟨rfl, rfl, rfl, rfl, rfl, rfl, rfl⟩, rfl⟩
    · split
      · unfold body
        split
        · split
          · exact ⟨⟨rfl, rfl, rfl, rfl, rfl, rfl, rfl⟩, rfl⟩
          · split
            · exact ⟨bodyDone_same l l r rs _ rf, rfl⟩
            · exact ⟨⟨rfl, rfl, rfl, rfl, rfl, rfl, rfl⟩, rfl⟩
        · split
          · trivial
          · split
            · exact ⟨bodyDone_same l l r rs _ rf, rfl⟩
            · exact ⟨bodyDone_same _ l _ rs _ ⟨rfl, rfl, rfl, rfl, rfl, rfl, rfl⟩, rfl⟩
      · trivial

theorem serve_stall (app : Nat → Option Nat) (inp : List Frame) (av : Row) (l : Link) (h : StallA inp av l) :
    Sat (ServeOK (Stall inp) (StallA inp) NoDid) (fun _ => True) (serve app av l) := by
  obtain ⟨h, hr, hw⟩ := h
  have blk : ServeOK (Stall inp) (StallA inp) NoDid (l, [], some av) := by
    have s : ∀ hd, Stall inp { l with handler := hd, row := { l.row with read := true } } := fun hd =>
      ⟨h.input, h.sock, h.fin, h.eof, h.closed, h.go, h.sound.congr rfl rfl rfl h.sound.root⟩
    exact ⟨rfl, s _, s _, fun hs => absurd h.sock hs⟩
  unfold serve
  simp only
  rw [if_neg (by simp [h.go]), if_neg (by simp [h.eof]), if_neg (by simp [hr])]
  split
  · next hwr =>
    split
    · refine ⟨didOf_sent _, ?_⟩
      exact ⟨h.input, h.sock, h.fin, h.eof, h.closed, h.go, sendAll_sound l h.sound⟩
    · next hq =>
      have hq : l.queue = [] := by simpa using hq
      split
      · next r rs hrs =>
        have h1 := respond_same l r rs
        have h2 := respond_ok l r rs h.sound hq hrs
        cases e : respond l r rs with
        | error b => trivial
        | ok x =>
          rw [e] at h1 h2
          obtain ⟨s, n⟩ := h1
          exact ⟨n, by rw [s.input]; exact h.input, by rw [s.sock]; exact h.sock, by rw [s.fin]; exact h.fin, by rw [s.eof]; exact h.eof,
            by rw [s.closed]; exact h.closed, by rw [s.go]; exact h.go, h2.1⟩
      · next hrs =>
        rcases h.sound.write (hw hwr) with a | a
        · exact absurd hq a
        · exact absurd hrs a
  · exact blk

theorem step_stall (app : Nat → Option Nat) (inp : List Frame) (l : Link) (s : Step) (hs : s.isTurn = true) (h : Stall inp l) :
    Sat (fun r => Stall inp r.1 ∧ NoDid r.2) (fun _ => True) (step app l s) := by
  cases s with
  | arrive n => simp [Step.isTurn] at hs
  | fin => simp [Step.isTurn] at hs
  | turn k more w =>
    refine turn_sat app (Stall inp) (StallA inp) NoDid _ NoDid.mon (serve_stall app inp) k more w l h ?_ ?_ ?_ ?_
    · intro hc _; exact ⟨h, by simp [ready, h.sock, h.fin], ready_write⟩
    · intro hc _ hp; rw [h.sock] at hp; omega
    · intro hc _ _ hf; rw [h.fin] at hf; simp at hf
    · intro hc _; exact ⟨h.input, h.sock, h.fin, h.eof, h.closed, h.go, h.sound.congr rfl rfl rfl h.sound.root⟩

theorem run_stall (app : Nat → Option Nat) (inp : List Frame) (ss : List Step) (l : Link) (hs : ∀ s ∈ ss, s.isTurn = true) (h : Stall inp l) :
    Sat (fun r => Stall inp r.1 ∧ NoDid r.2) (fun _ => True) (run app l ss) :=
  run_sat' app (Stall inp) NoDid _ (fun s => s.isTurn = true) NoDid.mon (fun l s hs h => step_stall app inp l s hs h) ss l hs h

end Fly.H2L
