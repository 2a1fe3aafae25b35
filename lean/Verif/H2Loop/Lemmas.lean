import Verif.H2Loop.Model
import Verif.H2Loop.Streams
set_option linter.all false

namespace Fly.H2L
open Fly.H2S (Frame Out SState Stream Conn)

/-- `P` of a result, `B` of an error. -/
def Sat {α : Type} (P : α → Prop) (B : Bug → Prop) : Except Bug α → Prop
  | .ok a => P a
  | .error b => B b

theorem Sat.ok {α : Type} {P : α → Prop} {B : Bug → Prop} {r : Except Bug α} {a : α} (h : Sat P B r) (e : r = .ok a) : P a := by
  rw [e] at h; exact h
theorem Sat.error {α : Type} {P : α → Prop} {B : Bug → Prop} {r : Except Bug α} {b : Bug} (h : Sat P B r) (e : r = .error b) : B b := by
  rw [e] at h; exact h
theorem Sat.mono {α : Type} {P P' : α → Prop} {B B' : Bug → Prop} {r : Except Bug α} (h : Sat P B r) (hp : ∀ a, P a → P' a) (hb : ∀ b, B b → B' b) :
    Sat P' B' r := by
  cases r with
  | ok a => exact hp a h
  | error b => exact hb b h
theorem Sat.map {α β : Type} {P : α → Prop} {Q : β → Prop} {B : Bug → Prop} {r : Except Bug α} {g : α → β} (h : Sat P B r)
    (hp : ∀ a, P a → Q (g a)) : Sat Q B (r.map g) := by
  cases r with
  | ok a => exact hp a h
  | error b => exact h

/-- Events that hold of nothing and of both parts of a sequence. -/
structure Mon (E : List Ev → Prop) : Prop where
  nil : E []
  app : ∀ a b, E a → E b → E (a ++ b)

theorem run_sat (app : Nat → Option Nat) (P : Link → Prop) (E : List Ev → Prop) (B : Bug → Prop) (hE : Mon E)
    (hstep : ∀ l s, P l → Sat (fun r => P r.1 ∧ E r.2) B (step app l s)) :
    ∀ (ss : List Step) (l : Link), P l → Sat (fun r => P r.1 ∧ E r.2) B (run app l ss)
  | [], l, h => ⟨h, hE.nil⟩
  | s :: ss, l, h => by
    have h1 := hstep l s h
    rw [run.eq_def]
    simp only
    cases e1 : step app l s with
    | error b => rw [e1] at h1; exact h1
    | ok r =>
      obtain ⟨l1, v1⟩ := r
      rw [e1] at h1
      have h2 := run_sat app P E B hE hstep ss l1 h1.1
      simp only
      cases e2 : run app l1 ss with
      | error b => rw [e2] at h2; exact h2
      | ok r =>
        obtain ⟨l2, v2⟩ := r
        rw [e2] at h2
        exact ⟨h2.1, hE.app _ _ h1.2 h2.2⟩

/-- As `run_sat`, for steps of one kind. -/
theorem run_sat' (app : Nat → Option Nat) (P : Link → Prop) (E : List Ev → Prop) (B : Bug → Prop) (S : Step → Prop) (hE : Mon E)
    (hstep : ∀ l s, S s → P l → Sat (fun r => P r.1 ∧ E r.2) B (step app l s)) :
    ∀ (ss : List Step) (l : Link), (∀ s ∈ ss, S s) → P l → Sat (fun r => P r.1 ∧ E r.2) B (run app l ss)
  | [], l, hs, h => ⟨h, hE.nil⟩
  | s :: ss, l, hs, h => by
    have h1 := hstep l s (hs s List.mem_cons_self) h
    rw [run.eq_def]
    simp only
    cases e1 : step app l s with
    | error b => rw [e1] at h1; exact h1
    | ok r =>
      obtain ⟨l1, v1⟩ := r
      rw [e1] at h1
      have h2 := run_sat' app P E B S hE hstep ss l1 (fun s m => hs s (List.mem_cons_of_mem _ m)) h1.1
      simp only
      cases e2 : run app l1 ss with
      | error b => rw [e2] at h2; exact h2
      | ok r =>
        obtain ⟨l2, v2⟩ := r
        rw [e2] at h2
        exact ⟨h2.1, hE.app _ _ h1.2 h2.2⟩

/-- What a pass through the handler leaves: `P`, and `PA` where it goes on with bytes held by TLS. -/
def ServeOK (P : Link → Prop) (PA : Row → Link → Prop) (E : List Ev → Prop) (r : Link × List Ev × Option Row) : Prop :=
  E r.2.1 ∧ match r.2.2 with
    | none => P r.1
    | some av => P { r.1 with handler := .wait, row := { r.1.row with read := true } } ∧
        P { r.1 with handler := .serve, row := { r.1.row with read := true } } ∧
        (r.1.sock ≠ 0 → ∀ k, PA av (recv k r.1))

theorem turnLoop_sat (app : Nat → Option Nat) (P : Link → Prop) (PA : Row → Link → Prop) (E : List Ev → Prop) (B : Bug → Prop) (hE : Mon E)
    (hs : ∀ av l, PA av l → Sat (ServeOK P PA E) B (serve app av l)) :
    ∀ (more : List Nat) (av : Row) (l : Link), PA av l → Sat (fun r => P r.1 ∧ E r.2) B (turnLoop app av l more)
  | [], av, l, h => by
    have h1 := hs av l h
    rw [turnLoop.eq_def]
    simp only
    cases e1 : serve app av l with
    | error b => rw [e1] at h1; exact h1
    | ok r =>
      obtain ⟨l1, v1, o⟩ := r
      rw [e1] at h1
      cases o with
      | none => exact ⟨h1.2, h1.1⟩
      | some av' => exact ⟨h1.2.1, h1.1⟩
  | k :: ks, av, l, h => by
    have h1 := hs av l h
    rw [turnLoop.eq_def]
    simp only
    cases e1 : serve app av l with
    | error b => rw [e1] at h1; exact h1
    | ok r =>
      obtain ⟨l1, v1, o⟩ := r
      rw [e1] at h1
      cases o with
      | none => exact ⟨h1.2, h1.1⟩
      | some av' =>
        simp only
        by_cases hk : l1.sock = 0
        · rw [if_pos hk]; exact ⟨h1.2.2.1, h1.1⟩
        · rw [if_neg hk]
          have h2 := turnLoop_sat app P PA E B hE hs ks av' (recv k l1) (h1.2.2.2 hk k)
          cases e2 : turnLoop app av' (recv k l1) ks with
          | error b => rw [e2] at h2; exact h2
          | ok r =>
            obtain ⟨l2, v2⟩ := r
            rw [e2] at h2
            exact ⟨h2.1, hE.app _ _ h1.1 h2.2⟩

theorem turn_sat (app : Nat → Option Nat) (P : Link → Prop) (PA : Row → Link → Prop) (E : List Ev → Prop) (B : Bug → Prop) (hE : Mon E)
    (hs : ∀ av l, PA av l → Sat (ServeOK P PA E) B (serve app av l))
    (k : Nat) (more : List Nat) (w : Bool) (l : Link) (h : P l)
    (h1 : l.closed = false → l.handler = .serve → PA (ready w l) l)
    (h2 : l.closed = false → l.handler = .wait → 0 < l.sock → PA (ready w l) (recv k l))
    (h3 : l.closed = false → l.handler = .wait → l.sock = 0 → l.fin = true → PA (ready w l) { l with eof := true })
    (h4 : l.closed = false → l.handler = .wait → P { l with handler := .serve, row := { l.row with read := true } }) :
    Sat (fun r => P r.1 ∧ E r.2) B (turn app k more w l) := by
  unfold turn
  cases hc : l.closed with
  | true => exact ⟨h, hE.nil⟩
  | false =>
    rw [if_neg (by simp)]
    simp only
    split
    · exact ⟨h, hE.nil⟩
    · cases hh : l.handler with
      | serve => exact turnLoop_sat app P PA E B hE hs more _ l (h1 hc hh)
      | wait =>
        simp only
        split
        · next hp => exact turnLoop_sat app P PA E B hE hs more _ _ (h2 hc hh hp)
        · next hp =>
          split
          · next hf =>
            have h3 := h3 hc hh (by omega) hf
            simp only [hc, hh] at h3
            exact turnLoop_sat app P PA E B hE hs more _ _ h3
          · have h4 := h4 hc hh
            simp only [hc] at h4
            exact ⟨h4, hE.nil⟩

theorem apply_same (app : Nat → Option Nat) (l : Link) (o : Out) :
    (apply app l o).c = l.c ∧ (apply app l o).input = l.input ∧ (apply app l o).buf = l.buf ∧ (apply app l o).sock = l.sock ∧
    (apply app l o).fin = l.fin ∧ (apply app l o).eof = l.eof ∧ (apply app l o).closed = l.closed ∧ (apply app l o).handler = l.handler ∧
    (apply app l o).lsid = l.lsid := by
  cases o <;> simp [apply]

theorem applyAll_same (app : Nat → Option Nat) : ∀ (os : List Out) (l : Link),
    (applyAll app l os).c = l.c ∧ (applyAll app l os).input = l.input ∧ (applyAll app l os).buf = l.buf ∧ (applyAll app l os).sock = l.sock ∧
    (applyAll app l os).fin = l.fin ∧ (applyAll app l os).eof = l.eof ∧ (applyAll app l os).closed = l.closed ∧
    (applyAll app l os).handler = l.handler ∧ (applyAll app l os).lsid = l.lsid
  | [], l => by simp [applyAll]
  | o :: os, l => by
    have h1 := apply_same app l o
    have h2 := applyAll_same app os (apply app l o)
    have e : applyAll app l (o :: os) = applyAll app (apply app l o) os := rfl
    rw [e]
    refine ⟨by rw [h2.1, h1.1], by rw [h2.2.1, h1.2.1], by rw [h2.2.2.1, h1.2.2.1], by rw [h2.2.2.2.1, h1.2.2.2.1],
      by rw [h2.2.2.2.2.1, h1.2.2.2.2.1], by rw [h2.2.2.2.2.2.1, h1.2.2.2.2.2.1], by rw [h2.2.2.2.2.2.2.1, h1.2.2.2.2.2.2.1],
      by rw [h2.2.2.2.2.2.2.2.1, h1.2.2.2.2.2.2.2.1], by rw [h2.2.2.2.2.2.2.2.2, h1.2.2.2.2.2.2.2.2]⟩

/-- Part of a DATA frame. -/
def Item.isData : Item → Bool
  | .dataHeader _ _ | .data _ _ => true
  | _ => false

theorem apply_data (app : Nat → Option Nat) (l : Link) (o : Out) (h : ∀ i ∈ l.queue, i.isData = false) :
    ∀ i ∈ (apply app l o).queue, i.isData = false := by
  intro i hm
  cases o
  case opened => exact h i hm
  case emergency => exact h i hm
  case closed => exact h i hm
  all_goals
    simp only [apply, List.mem_append] at hm
    rcases hm with a | a
    · exact h i a
    · simp only [List.mem_cons, List.not_mem_nil, or_false] at a
      first
        | (subst a; rfl)
        | (rcases a with a | a <;> (subst a; rfl))

theorem applyAll_data (app : Nat → Option Nat) : ∀ (os : List Out) (l : Link), (∀ i ∈ l.queue, i.isData = false) →
    ∀ i ∈ (applyAll app l os).queue, i.isData = false
  | [], l, h => h
  | o :: os, l, h => applyAll_data app os (apply app l o) (apply_data app l o h)

/-- The link after the effects of frame `f`. -/
def after (app : Nat → Option Nat) (l : Link) (f : Frame) (c' : Conn) (os : List Out) : Link :=
  applyAll app { l with c := c', lsid := if f.type = 7 then f.lastSid else l.lsid } os

/-- Induction over the frames handled in one pass.  `hone`: one frame keeps `P`, whether it stays in the
buffer or not. -/
theorem frames_sat (app : Nat → Option Nat) (P : Link → Prop) (E : List Ev → Prop) (B : Bug → Prop) (hE : Mon E)
    (hB1 : ∀ l f fs, P l → l.input = f :: fs → l.c.maxFrame < f.length → B .short)
    (hB2 : ∀ l f fs, P l → l.input = f :: fs → l.c.goaway = false → H2S.stepFrame l.c f = none → B .protocol)
    (hone : ∀ l f fs c' os, P l → l.input = f :: fs → l.c.goaway = false → size f ≤ l.buf → H2S.stepFrame l.c f = some (c', os) →
      E (os.map .did) ∧ P (consume f fs (after app l f c' os)) ∧
      (c'.goaway = true ∨ c'.ended = true → P (after app l f c' os))) (av : Row) :
    ∀ (fs : List Frame) (l : Link), l.input = fs → P l → l.c.goaway = false →
      Sat (fun r => E r.2.1 ∧ P r.1 ∧ (match r.2.2 with
        | .block av' => av' = av ∨ av' = ⟨false, false⟩
        | .goaway => r.1.c.goaway = true
        | .emergency => r.1.c.ended = true)) B (frames app av l fs)
  | [], l, hi, h, hg => by
    rw [frames.eq_def]
    refine ⟨hE.nil, ?_, .inl rfl⟩
    have : { l with input := [] } = l := by rw [← hi]
    simp only [this]; exact h
  | f :: fs, l, hi, h, hg => by
    have same : ∀ l' : Link, l'.input = f :: fs → { l' with input := f :: fs } = l' := by
      intro l' e; rw [← e]
    rw [frames.eq_def]
    simp only
    split
    · refine ⟨hE.nil, ?_, .inl rfl⟩
      simp only [same l hi]; exact h
    · split
      · next hn1 hn2 =>
        refine hB1 l f fs h hi ?_
        simp only [Bool.or_eq_true, decide_eq_true_eq, Bool.and_eq_true, not_or, not_and] at hn1
        have := hn1.2
        omega
      · next hn1 hn2 =>
        cases e : H2S.stepFrame l.c f with
        | none => exact hB2 l f fs h hi hg e
        | some r =>
          obtain ⟨c', os⟩ := r
          obtain ⟨o1, o2, o3⟩ := hone l f fs c' os h hi hg (by omega) e
          have ea : applyAll app { l with c := c', lsid := if f.type = 7 then f.lastSid else l.lsid } os = after app l f c' os := rfl
          have sm := applyAll_same app os { l with c := c', lsid := if f.type = 7 then f.lastSid else l.lsid }
          simp only [ea] at sm ⊢
          have hin : (after app l f c' os).input = f :: fs := by rw [sm.2.1]; exact hi
          split
          · next he =>
            refine ⟨o1, ?_, ?_⟩
            · simp only [same _ hin]; exact o3 (.inr he)
            · show (after app l f c' os).c.ended = true
              rw [sm.1]; exact he
          · split
            · next hgo =>
              split
              · refine ⟨o1, ?_, ?_⟩
                · simp only [same _ hin]; exact o3 (.inl hgo)
                · show (after app l f c' os).c.goaway = true
                  rw [sm.1]; exact hgo
              · split
                · refine ⟨o1, o2, ?_⟩
                  show (after app l f c' os).c.goaway = true
                  rw [sm.1]; exact hgo
                · exact ⟨o1, o2, .inl rfl⟩
            · next hng =>
              split
              · exact ⟨o1, o2, .inr rfl⟩
              · have hg' : (consume f fs (after app l f c' os)).c.goaway = false := by
                  show (after app l f c' os).c.goaway = false
                  rw [sm.1]; simpa using hng
                have ih := frames_sat app P E B hE hB1 hB2 hone av fs (consume f fs (after app l f c' os)) rfl o2 hg'
                cases e2 : frames app av (consume f fs (after app l f c' os)) fs with
                | error b => rw [e2] at ih; exact ih
                | ok r =>
                  obtain ⟨l2, v2, st⟩ := r
                  rw [e2] at ih
                  exact ⟨hE.app _ _ o1 ih.1, ih.2⟩

theorem goawayLoop_sat (P : Link → Prop) (E : List Ev → Prop) (B : Bug → Prop) (hE : Mon E) (hB : B .freed)
    (ha : ∀ sid, E [.again sid]) (hcl : ∀ l : Link, P l → P l.close)
    (hq : ∀ (l : Link) (g : Item → Bool), P l → P { l with queue := l.queue.filter g }) :
    ∀ (ss : List Stream) (l : Link), P l → Sat (fun r => P r.1 ∧ E r.2) B (goawayLoop l ss)
  | [], l, h => ⟨hcl l h, hE.nil⟩
  | s :: ss, l, h => by
    rw [goawayLoop.eq_def]
    simp only
    split
    · exact goawayLoop_sat P E B hE hB ha hcl hq ss _ (hq l _ h)
    · split
      · exact hB
      · exact ⟨h, ha _⟩

theorem goawayHandle_sat (P : Link → Prop) (E : List Ev → Prop) (B : Bug → Prop) (hE : Mon E) (hB : B .freed)
    (ha : ∀ sid, E [.again sid]) (hcl : ∀ l : Link, P l → P l.close)
    (hq : ∀ (l : Link) (g : Item → Bool), P l → P { l with queue := l.queue.filter g }) (l : Link) (h : P l) :
    Sat (fun r => P r.1 ∧ E r.2) B (goawayHandle l) := by
  unfold goawayHandle
  split
  · exact ⟨hcl l h, hE.nil⟩
  · exact goawayLoop_sat P E B hE hB ha hcl hq _ l h

end Fly.H2L
