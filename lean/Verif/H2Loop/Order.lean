import Verif.H2Loop.Stall
set_option linter.all false

/-! The queue: what is owed is sent once and in order.  Frames in the buffer: none is handled before it is
complete. -/

namespace Fly.H2L
open Fly.H2S (Frame Out SState Stream Conn)

theorem control_eq (is : List Item) : control is = is.filter fun i => !i.isData := by
  unfold control; congr 1; funext i; cases i <;> rfl

def Dead (l : Link) : Prop := l.closed = true ∨ l.c.goaway = true

/-- Sent and still queued are what was queued before and what became due. -/
structure Due (l : Link) (ev : List Ev) (l' : Link) : Prop where
  dead : Dead l → Dead l'
  due : Dead l' ∨ control (sentOf ev) ++ l'.queue = l.queue ++ (didOf ev).flatMap owed

theorem Due.trans {a b c : Link} {e f : List Ev} (h : Due a e b) (g : Due b f c) : Due a (e ++ f) c := by
  refine ⟨fun x => g.dead (h.dead x), ?_⟩
  rcases g.due with x | x
  · exact .inl x
  · rcases h.due with y | y
    · exact .inl (g.dead y)
    · right
      rw [sentOf_append, didOf_append, List.flatMap_append, ← List.append_assoc, ← y, List.append_assoc, ← x]
      simp [control, List.filter_append]

theorem Due.same {l l' : Link} (hq : l'.queue = l.queue) (hd : Dead l → Dead l') : Due l [] l' :=
  ⟨hd, .inr (by rw [hq]; simp [control, sentOf, didOf])⟩

theorem apply_owed (app : Nat → Option Nat) (l : Link) (o : Out) : (apply app l o).queue = l.queue ++ owed o := by
  cases o <;> simp [apply, owed]
theorem applyAll_owed (app : Nat → Option Nat) : ∀ (os : List Out) (l : Link), (applyAll app l os).queue = l.queue ++ os.flatMap owed
  | [], l => by simp [applyAll]
  | o :: os, l => by
    have := applyAll_owed app os (apply app l o)
    rw [List.flatMap_cons, ← List.append_assoc, ← apply_owed app l o]; exact this

theorem frames_due (app : Nat → Option Nat) (av : Row) : ∀ (fs : List Frame) (l l' : Link) (ev : List Ev) (st : Stop), l.c.goaway = false →
    l.closed = false → (frames app av l fs = .ok (l', ev, st)) → Due l ev l' ∧ (st = .goaway → l'.c.goaway = true)
  | [], l, l', ev, st, hg, hc, h => by
    rw [frames.eq_def] at h
    simp only [Except.ok.injEq, Prod.mk.injEq] at h
    obtain ⟨rfl, rfl, rfl⟩ := h
    exact ⟨Due.same rfl (fun d => d), by simp⟩
  | f :: fs, l, l', ev, st, hg, hc, h => by
    rw [frames.eq_def] at h
    simp only at h
    split at h
    · simp only [Except.ok.injEq, Prod.mk.injEq] at h
      obtain ⟨rfl, rfl, rfl⟩ := h
      exact ⟨Due.same rfl (fun d => d), by simp⟩
    · split at h
      · simp at h
      · cases e : H2S.stepFrame l.c f with
        | none => rw [e] at h; simp at h
        | some r =>
          obtain ⟨c', os⟩ := r
          rw [e] at h
          have ea : applyAll app { l with c := c', lsid := if f.type = 7 then f.lastSid else l.lsid } os = after app l f c' os := rfl
          have sm := applyAll_same app os { l with c := c', lsid := if f.type = 7 then f.lastSid else l.lsid }
          have eq_ := applyAll_owed app os { l with c := c', lsid := if f.type = 7 then f.lastSid else l.lsid }
          simp only [ea] at sm eq_ h
          have nd : ¬ Dead l := by
            rintro (a | a)
            · rw [hc] at a; simp at a
            · rw [hg] at a; simp at a
          have one : ∀ l1 : Link, l1.queue = (after app l f c' os).queue → Due l (os.map .did) l1 := by
            intro l1 hq
            exact ⟨fun d => absurd d nd, .inr (by rw [hq, eq_, sentOf_did, didOf_did]; rfl)⟩
          split at h
          · simp only [Except.ok.injEq, Prod.mk.injEq] at h
            obtain ⟨rfl, rfl, rfl⟩ := h
            exact ⟨one _ rfl, by simp⟩
          · split at h
            · next hgo =>
              have hg' : (after app l f c' os).c.goaway = true := by rw [sm.1]; exact hgo
              split at h
              · simp only [Except.ok.injEq, Prod.mk.injEq] at h
                obtain ⟨rfl, rfl, rfl⟩ := h
                exact ⟨one _ rfl, fun _ => hg'⟩
              · split at h
                · simp only [Except.ok.injEq, Prod.mk.injEq] at h
                  obtain ⟨rfl, rfl, rfl⟩ := h
                  exact ⟨one _ rfl, fun _ => hg'⟩
                · simp only [Except.ok.injEq, Prod.mk.injEq] at h
                  obtain ⟨rfl, rfl, rfl⟩ := h
                  exact ⟨one _ rfl, fun _ => hg'⟩
            · next hng =>
              split at h
              · simp only [Except.ok.injEq, Prod.mk.injEq] at h
                obtain ⟨rfl, rfl, rfl⟩ := h
                exact ⟨one _ rfl, by simp⟩
              · have hg' : (consume f fs (after app l f c' os)).c.goaway = false := by
                  show (after app l f c' os).c.goaway = false
                  rw [sm.1]; simpa using hng
                have hc' : (consume f fs (after app l f c' os)).closed = false := by
                  show (after app l f c' os).closed = false
                  rw [sm.2.2.2.2.2.2.1]; exact hc
                cases e2 : frames app av (consume f fs (after app l f c' os)) fs with
                | error b => rw [e2] at h; simp at h
                | ok r =>
                  obtain ⟨l2, ev2, st2⟩ := r
                  rw [e2] at h
                  simp only [Except.ok.injEq, Prod.mk.injEq] at h
                  obtain ⟨rfl, rfl, rfl⟩ := h
                  have ih := frames_due app av fs _ _ _ _ hg' hc' e2
                  exact ⟨(one (consume f fs (after app l f c' os)) rfl).trans ih.1, ih.2⟩

theorem goaway_dead (l l' : Link) (ev : List Ev) (hg : l.c.goaway = true) (h : goawayHandle l = .ok (l', ev)) : Dead l' := by
  have := goawayHandle_sat Dead (fun _ => True) (fun _ => True) ⟨trivial, fun _ _ _ _ => trivial⟩ trivial
    (fun _ => trivial) (fun l _ => .inl rfl) (fun l g h => h) l (.inr hg)
  exact (this.ok h).1

theorem respond_due (l l' : Link) (r : Resp) (rs : List Resp) (ev : List Ev) (h : respond l r rs = .ok (l', ev)) : Due l ev l' := by
  have sm := (respond_same l r rs).ok h
  have dd : Dead l → Dead l' := by
    rintro (a | a)
    · exact .inl (by rw [sm.1.closed]; exact a)
    · exact .inr (by rw [sm.1.go]; exact a)
  have key : l'.queue = l.queue ∧ control (sentOf ev) = [] := by
    have bd : ∀ (l0 : Link) (r : Resp) (s : Stream), (bodyDone l0 r rs s).queue = l0.queue := by
      intro l0 r s; unfold bodyDone; simp only; split <;> rfl
    unfold respond at h
    split at h
    · simp at h
    · split at h
      · simp only [Except.ok.injEq] at h
        unfold finish at h
        simp only [Prod.mk.injEq] at h
        obtain ⟨rfl, rfl⟩ := h
        exact ⟨rfl, rfl⟩
      · split at h
        · unfold body at h
          split at h
          · split at h
            · simp only [Except.ok.injEq, Prod.mk.injEq] at h
              obtain ⟨rfl, rfl⟩ := h
              exact ⟨rfl, rfl⟩
            · split at h
              · simp only [Except.ok.injEq, Prod.mk.injEq] at h
                obtain ⟨rfl, rfl⟩ := h
                exact ⟨bd _ _ _, rfl⟩
              · simp only [Except.ok.injEq, Prod.mk.injEq] at h
                obtain ⟨rfl, rfl⟩ := h
                exact ⟨rfl, rfl⟩
          · split at h
            · simp at h
            · split at h
              · simp only [Except.ok.injEq, Prod.mk.injEq] at h
                obtain ⟨rfl, rfl⟩ := h
                exact ⟨bd _ _ _, rfl⟩
              · simp only [Except.ok.injEq, Prod.mk.injEq] at h
                obtain ⟨rfl, rfl⟩ := h
                exact ⟨bd _ _ _, rfl⟩
        · simp at h
  refine ⟨dd, .inr ?_⟩
  rw [key.1, key.2, sm.2]
  simp

theorem serve_due (app : Nat → Option Nat) (av : Row) (l l' : Link) (ev : List Ev) (o : Option Row) (hc : l.closed = false) (hs : l.c.goaway = false → Sound l)
    (h : serve app av l = .ok (l', ev, o)) : Due l ev l' := by
  have rf : l.c.goaway = false → (match frames app av l l.input with
      | .error b => .error b
      | .ok (l', ev, .block av') => .ok (l', ev, some av')
      | .ok (l', ev, .goaway) => (goawayHandle l').map fun r => (r.1, ev ++ r.2, none)
      | .ok (l', ev, .emergency) => .ok (l'.close, ev ++ [.sent (.goaway 2), .workerEnds], none)) = Except.ok (l', ev, o) → Due l ev l' := by
    intro hg h
    have nd : ¬ Dead l := by
      rintro (a | a)
      · rw [hc] at a; simp at a
      · rw [hg] at a; simp at a
    cases e : frames app av l l.input with
    | error b => rw [e] at h; simp at h
    | ok r =>
      obtain ⟨l1, ev1, st⟩ := r
      rw [e] at h
      have d := frames_due app av l.input l l1 ev1 st hg hc e
      cases st with
      | block av' =>
        simp only [Except.ok.injEq, Prod.mk.injEq] at h
        obtain ⟨rfl, rfl, _⟩ := h
        exact d.1
      | goaway =>
        simp only at h
        cases e2 : goawayHandle l1 with
        | error b => rw [e2] at h; simp [Except.map] at h
        | ok x =>
          rw [e2] at h
          simp only [Except.map, Except.ok.injEq, Prod.mk.injEq] at h
          obtain ⟨rfl, rfl, _⟩ := h
          have := goaway_dead l1 x.1 x.2 (d.2 rfl) e2
          exact ⟨fun a => absurd a nd, .inl this⟩
      | emergency =>
        simp only [Except.ok.injEq, Prod.mk.injEq] at h
        obtain ⟨rfl, rfl, _⟩ := h
        exact ⟨fun a => .inl rfl, .inl (.inl rfl)⟩
  unfold serve at h
  simp only at h
  cases hg : l.c.goaway with
  | true =>
    rw [if_pos hg] at h
    cases e2 : goawayHandle l with
    | error b => rw [e2] at h; simp [Except.map] at h
    | ok x =>
      rw [e2] at h
      simp only [Except.map, Except.ok.injEq, Prod.mk.injEq] at h
      obtain ⟨rfl, rfl, _⟩ := h
      have := goaway_dead l x.1 x.2 hg e2
      exact ⟨fun a => this, .inl this⟩
  | false =>
    rw [if_neg (by simp [hg])] at h
    split at h
    · simp only [Except.ok.injEq, Prod.mk.injEq] at h
      obtain ⟨rfl, rfl, _⟩ := h
      exact ⟨fun a => .inl rfl, .inl (.inl rfl)⟩
    · split at h
      · split at h
        · simp only [Except.ok.injEq, Prod.mk.injEq] at h
          obtain ⟨rfl, rfl, _⟩ := h
          exact Due.same rfl (fun d => d)
        · exact rf hg h
      · split at h
        · split at h
          · simp only [Except.ok.injEq, Prod.mk.injEq] at h
            obtain ⟨rfl, rfl, _⟩ := h
            refine ⟨fun d => d, .inr ?_⟩
            have e1 : sentOf (sendAll l).2 = l.queue := sentOf_sent _
            have e2 : didOf (sendAll l).2 = [] := didOf_sent _
            rw [e1, e2]
            have : control l.queue = l.queue := by
              rw [control_eq]
              rw [List.filter_eq_self]
              intro i hi
              rw [(hs hg).noData i hi]; rfl
            rw [this]; simp [sendAll]
          · split at h
            · next r rs hr =>
              cases e2 : respond l r rs with
              | error b => rw [e2] at h; simp [Except.map] at h
              | ok x =>
                rw [e2] at h
                simp only [Except.map, Except.ok.injEq, Prod.mk.injEq] at h
                obtain ⟨rfl, rfl, _⟩ := h
                exact respond_due l x.1 r rs x.2 e2
            · split at h
              · simp at h
              · exact rf hg h
        · simp only [Except.ok.injEq, Prod.mk.injEq] at h
          obtain ⟨rfl, rfl, _⟩ := h
          exact Due.same rfl (fun d => d)

theorem PA.sound {av : Row} {l : Link} (h : PA av l) (hg : l.c.goaway = false) : Sound l := by
  rcases h.1 with a | a | a
  · rw [h.2.1] at a; simp at a
  · rw [hg] at a; simp at a
  · exact a

theorem turnLoop_due (app : Nat → Option Nat) : ∀ (more : List Nat) (av : Row) (l l' : Link) (ev : List Ev), PA av l →
    turnLoop app av l more = .ok (l', ev) → Due l ev l'
  | [], av, l, l', ev, hp, h => by
    rw [turnLoop.eq_def] at h
    simp only at h
    cases e : serve app av l with
    | error b => rw [e] at h; simp at h
    | ok r =>
      obtain ⟨l1, ev1, o⟩ := r
      rw [e] at h
      have d := serve_due app av l l1 ev1 o hp.2.1 hp.sound e
      cases o with
      | none =>
        simp only [Except.ok.injEq, Prod.mk.injEq] at h
        obtain ⟨rfl, rfl⟩ := h
        exact d
      | some a =>
        simp only [Except.ok.injEq, Prod.mk.injEq] at h
        obtain ⟨rfl, rfl⟩ := h
        have d2 : Due l1 [] { l1 with handler := .wait, row := { l1.row with read := true } } := Due.same rfl (fun d => d)
        have := d.trans d2
        rw [List.append_nil] at this; exact this
  | k :: ks, av, l, l', ev, hp, h => by
    rw [turnLoop.eq_def] at h
    simp only at h
    cases e : serve app av l with
    | error b => rw [e] at h; simp at h
    | ok r =>
      obtain ⟨l1, ev1, o⟩ := r
      rw [e] at h
      have d := serve_due app av l l1 ev1 o hp.2.1 hp.sound e
      have so := serve_ok app av l hp
      rw [e] at so
      cases o with
      | none =>
        simp only [Except.ok.injEq, Prod.mk.injEq] at h
        obtain ⟨rfl, rfl⟩ := h
        exact d
      | some a =>
        simp only at h
        split at h
        · simp only [Except.ok.injEq, Prod.mk.injEq] at h
          obtain ⟨rfl, rfl⟩ := h
          have d2 : Due l1 [] { l1 with handler := .serve, row := { l1.row with read := true } } := Due.same rfl (fun d => d)
          have := d.trans d2
          rw [List.append_nil] at this; exact this
        · next hk =>
          cases e2 : turnLoop app a (recv k l1) ks with
          | error b => rw [e2] at h; simp at h
          | ok r =>
            obtain ⟨l2, ev2⟩ := r
            rw [e2] at h
            simp only [Except.ok.injEq, Prod.mk.injEq] at h
            obtain ⟨rfl, rfl⟩ := h
            have ih := turnLoop_due app ks a (recv k l1) _ _ (so.2.2.2 hk k) e2
            have d2 : Due l1 [] (recv k l1) := Due.same rfl (fun d => d)
            have := d.trans (d2.trans ih)
            exact this

theorem step_due (app : Nat → Option Nat) (l l' : Link) (s : Step) (ev : List Ev) (ok : OK l) (h : step app l s = .ok (l', ev)) : Due l ev l' := by
  cases s with
  | arrive n =>
    simp only [step, Except.ok.injEq, Prod.mk.injEq] at h
    obtain ⟨rfl, rfl⟩ := h
    exact Due.same rfl (fun d => d)
  | fin =>
    simp only [step, Except.ok.injEq, Prod.mk.injEq] at h
    obtain ⟨rfl, rfl⟩ := h
    exact Due.same rfl (fun d => d)
  | turn k more w =>
    simp only [step, turn] at h
    split at h
    · simp only [Except.ok.injEq, Prod.mk.injEq] at h
      obtain ⟨rfl, rfl⟩ := h
      exact Due.same rfl (fun d => d)
    · next hc =>
      have hc : l.closed = false := by simpa using hc
      split at h
      · simp only [Except.ok.injEq, Prod.mk.injEq] at h
        obtain ⟨rfl, rfl⟩ := h
        exact Due.same rfl (fun d => d)
      · split at h
        · exact turnLoop_due app more _ l _ _ ⟨ok, hc, ready_write⟩ h
        · split at h
          · have d2 : Due l [] (recv k l) := Due.same rfl (fun d => d)
            exact d2.trans (turnLoop_due app more (ready w l) _ _ _ ⟨ok.congr rfl rfl rfl rfl rfl, hc, fun hw => ready_write (l := l) hw⟩ h)
          · split at h
            · have d2 : Due l [] { l with eof := true } := Due.same rfl (fun d => d)
              exact d2.trans (turnLoop_due app more (ready w l) _ _ _ ⟨ok.congr rfl rfl rfl rfl rfl, hc, fun hw => ready_write (l := l) hw⟩ h)
            · simp only [Except.ok.injEq, Prod.mk.injEq] at h
              obtain ⟨rfl, rfl⟩ := h
              exact Due.same rfl (fun d => d)

theorem run_due (app : Nat → Option Nat) : ∀ (ss : List Step) (l l' : Link) (ev : List Ev), OK l → run app l ss = .ok (l', ev) → Due l ev l'
  | [], l, l', ev, ok, h => by
    simp only [run, Except.ok.injEq, Prod.mk.injEq] at h
    obtain ⟨rfl, rfl⟩ := h
    exact Due.same rfl (fun d => d)
  | s :: ss, l, l', ev, ok, h => by
    rw [run.eq_def] at h
    simp only at h
    cases e : step app l s with
    | error b => rw [e] at h; simp at h
    | ok r =>
      obtain ⟨l1, ev1⟩ := r
      rw [e] at h
      simp only at h
      have so := step_ok app l s ok
      rw [e] at so
      cases e2 : run app l1 ss with
      | error b => rw [e2] at h; simp at h
      | ok r =>
        obtain ⟨l2, ev2⟩ := r
        rw [e2] at h
        simp only [Except.ok.injEq, Prod.mk.injEq] at h
        obtain ⟨rfl, rfl⟩ := h
        exact (step_due app l l1 s ev1 ok e).trans (run_due app ss l1 _ _ so.1 e2)

end Fly.H2L
