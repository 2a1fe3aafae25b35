import Verif.H2Loop.Idle
import Verif.H2Loop.Sound
set_option linter.all false

/-! A response that cannot go on, at the head of the list. -/

namespace Fly.H2L
open Fly.H2S (Frame Out SState Stream Conn)

/-- The first response, on stream `sid`, cannot be finished: the client has reset the stream, or its window
is closed. -/
structure Stuck (sid : Nat) (l : Link) : Prop where
  head : ∃ r rs s, l.resps = r :: rs ∧ r.sid = sid ∧ r.done = false ∧ l.c.streams.find? (fun s => s.id == sid) = some s ∧
    (s.st = .closed ∨ (r.phase = .header ∧ s.window ≤ 0))
  queue : ∀ i ∈ l.queue, i.isData = false
  input : ∀ f ∈ l.input, f.sid ≠ sid
  root : l.c.root.id = 0

theorem Stuck.congr {sid : Nat} {l l' : Link} (h : Stuck sid l) (hc : l'.c = l.c) (hr : l'.resps = l.resps) (hi : l'.input = l.input) (hq : l'.queue = l.queue) : Stuck sid l' :=
  ⟨by rw [hc, hr]; exact h.head, by rw [hq]; exact h.queue, by rw [hi]; exact h.input, by rw [hc]; exact h.root⟩

def SP (sid : Nat) (l : Link) : Prop := l.closed = true ∨ l.c.goaway = true ∨ Stuck sid l
def SA (sid : Nat) (av : Row) (l : Link) : Prop := l.closed = false ∧ SP sid l
def NoProg (sid : Nat) (ev : List Ev) : Prop := ∀ e ∈ ev, e.progress sid = false

theorem NoProg.mon (sid : Nat) : Mon (NoProg sid) :=
  ⟨by intro e h; simp at h, fun a b ha hb e h => by
    rcases List.mem_append.1 h with h | h
    · exact ha e h
    · exact hb e h⟩

theorem SP.congr {sid : Nat} {l l' : Link} (h : SP sid l) (hcl : l'.closed = l.closed) (hc : l'.c = l.c) (hr : l'.resps = l.resps) (hi : l'.input = l.input) (hq : l'.queue = l.queue) : SP sid l' := by
  rcases h with h | h | h
  · exact .inl (by rw [hcl]; exact h)
  · exact .inr (.inl (by rw [hc]; exact h))
  · exact .inr (.inr (h.congr hc hr hi hq))

theorem apply_head (app : Nat → Option Nat) (l : Link) (o : Out) : ∃ a, (apply app l o).resps = l.resps ++ a := by
  cases o
  case dispatch => exact ⟨_, rfl⟩
  all_goals exact ⟨[], by simp [apply]⟩
theorem applyAll_head (app : Nat → Option Nat) : ∀ (os : List Out) (l : Link), ∃ a, (applyAll app l os).resps = l.resps ++ a
  | [], l => ⟨[], by simp [applyAll]⟩
  | o :: os, l => by
    obtain ⟨a, ha⟩ := apply_head app l o
    obtain ⟨b, hb⟩ := applyAll_head app os (apply app l o)
    exact ⟨a ++ b, by rw [← List.append_assoc, ← ha]; exact hb⟩

theorem did_noprog (sid : Nat) (os : List Out) : NoProg sid (os.map .did) := by
  intro e h
  rw [List.mem_map] at h
  obtain ⟨o, _, rfl⟩ := h
  rfl

theorem frames_stuck (app : Nat → Option Nat) (sid : Nat) (av : Row) (l : Link) (h : SA sid av l) (hg : l.c.goaway = false) :
    Sat (fun r => NoProg sid r.2.1 ∧ SA sid av r.1 ∧ (match r.2.2 with
        | .block av' => av' = av ∨ av' = ⟨false, false⟩
        | .goaway => r.1.c.goaway = true
        | .emergency => r.1.c.ended = true)) (fun _ => True) (frames app av l l.input) := by
  refine frames_sat app (SA sid av) (NoProg sid) (fun _ => True) (NoProg.mon sid) (fun _ _ _ _ _ _ => trivial) (fun _ _ _ _ _ _ _ => trivial) ?_ av
    l.input l rfl h hg
  intro l f fs c' os h hi hg hsz e
  obtain ⟨hcl, h⟩ := h
  have st : Stuck sid l := by
    rcases h with a | a | a
    · rw [hcl] at a; simp at a
    · rw [hg] at a; simp at a
    · exact a
  have sm := applyAll_same app os { l with c := c', lsid := if f.type = 7 then f.lastSid else l.lsid }
  have ea : applyAll app { l with c := c', lsid := if f.type = 7 then f.lastSid else l.lsid } os = after app l f c' os := rfl
  rw [ea] at sm
  have hne : f.sid ≠ sid := st.input f (by rw [hi]; exact List.mem_cons_self)
  have ot := H2S.other_stream l.c c' f os sid e hne st.root
  obtain ⟨r, rs, s, e1, e2, e3, e4, e5⟩ := st.head
  obtain ⟨a, ha⟩ := applyAll_head app os { l with c := c', lsid := if f.type = 7 then f.lastSid else l.lsid }
  rw [ea] at ha
  have hd : ∃ r rs s, (after app l f c' os).resps = r :: rs ∧ r.sid = sid ∧ r.done = false ∧
      (after app l f c' os).c.streams.find? (fun s => s.id == sid) = some s ∧ (s.st = .closed ∨ (r.phase = .header ∧ s.window ≤ 0)) := by
    refine ⟨r, rs ++ a, s, ?_, e2, e3, ?_, e5⟩
    · rw [ha]; show l.resps ++ a = _; rw [e1]; rfl
    · rw [sm.1]; show c'.streams.find? _ = _; rw [ot.1]; exact e4
  have hqd : ∀ i ∈ (after app l f c' os).queue, i.isData = false := applyAll_data app os _ st.queue
  refine ⟨did_noprog sid os, ?_, fun _ => ?_⟩
  · refine ⟨by show (after app l f c' os).closed = false; rw [sm.2.2.2.2.2.2.1]; exact hcl, .inr (.inr ⟨hd, hqd, ?_, ?_⟩)⟩
    · intro g m; exact st.input g (by rw [hi]; exact List.mem_cons_of_mem _ m)
    · show (after app l f c' os).c.root.id = 0; rw [sm.1]; exact ot.2
  · refine ⟨by rw [sm.2.2.2.2.2.2.1]; exact hcl, .inr (.inr ⟨hd, hqd, ?_, ?_⟩)⟩
    · rw [sm.2.1]; exact st.input
    · rw [sm.1]; exact ot.2

theorem goaway_stuck (sid : Nat) (l : Link) (hg : l.c.goaway = true) : Sat (fun r => SP sid r.1 ∧ NoProg sid r.2) (fun _ => True) (goawayHandle l) := by
  have := goawayHandle_sat (fun l => l.closed = true ∨ l.c.goaway = true) (NoProg sid) (fun _ => True) (NoProg.mon sid) trivial
    (fun s e h => by simp at h; subst h; rfl) (fun l _ => .inl rfl) (fun l g h => h) l (.inr hg)
  refine this.mono ?_ (fun b h => h)
  rintro ⟨l', ev⟩ ⟨h, h'⟩
  refine ⟨?_, h'⟩
  rcases h with h | h
  · exact .inl h
  · exact .inr (.inl h)

theorem find_setStream (c : Conn) (sid : Nat) (g : Stream → Stream) (s : Stream) (hid : ∀ s, (g s).id = s.id)
    (h : c.streams.find? (fun s => s.id == sid) = some s) :
    (setStream c sid g).streams.find? (fun s => s.id == sid) = some (g s) := by
  have key : ∀ S : List Stream, S.find? (fun s => s.id == sid) = some s →
      (S.map fun u => if u.id = sid then g u else u).find? (fun s => s.id == sid) = some (g s) := by
    intro S
    induction S with
    | nil => intro h; simp at h
    | cons a S ih =>
      intro h
      rw [List.map_cons, List.find?_cons]
      rw [List.find?_cons] at h
      by_cases e : a.id = sid
      · have e1 : (a.id == sid) = true := by simpa using e
        rw [e1] at h
        simp only [Option.some.injEq] at h
        subst h
        rw [if_pos e, hid, e1]
      · have e1 : (a.id == sid) = false := by simpa using e
        rw [e1] at h
        rw [if_neg e, e1]
        exact ih h
  exact key _ h

theorem respond_stuck (sid : Nat) (l : Link) (r : Resp) (rs : List Resp) (h : Stuck sid l) (hr : l.resps = r :: rs) :
    Sat (fun x => Stuck sid x.1 ∧ NoProg sid x.2) (fun _ => True) (respond l r rs) := by
  obtain ⟨r', rs', s, e1, e2, e3, e4, e5⟩ := h.head
  rw [hr] at e1
  simp only [List.cons.injEq] at e1
  obtain ⟨rfl, rfl⟩ := e1
  have done_ : ∀ (l' : Link) (s' : Stream) (n : Nat), s'.st = .closed → l'.c.streams.find? (fun s => s.id == sid) = some s' →
      l'.input = l.input → l'.c.root = l.c.root → l'.queue = l.queue →
      Stuck sid (bodyDone l' { r with left := n } rs s) ∨ s.st ≠ .closed := by
    intro l' s' n hs hf hi hc hq
    by_cases hc1 : s.st = .closed
    · left
      unfold bodyDone
      simp only
      rw [if_neg (by rw [hc1]; simp)]
      refine ⟨⟨_, rs, s', rfl, e2, e3, hf, .inl hs⟩, ?_, ?_, ?_⟩
      · simp only [hq]; exact h.queue
      · simp only [hi]; exact h.input
      · simp only [hc]; exact h.root
    · exact .inr hc1
  unfold respond
  rw [e2, e4]
  simp only [e3, Bool.false_eq_true, if_false]
  split
  · unfold body
    cases hp : r.phase with
    | header =>
      simp only
      split
      · refine ⟨h.congr rfl rfl rfl rfl, (NoProg.mon sid).nil⟩
      · next hw =>
        have hcl : s.st = .closed := by
          rcases e5 with a | a
          · exact a
          · exfalso; apply hw; simp [a.2]
        split
        · refine ⟨?_, (NoProg.mon sid).nil⟩
          have eta : ({ r with left := r.left } : Resp) = r := rfl
          rcases done_ l s r.left hcl e4 rfl rfl rfl with a | a
          · exact a
          · exact absurd hcl a
        · refine ⟨⟨⟨_, rs, s, rfl, e2, e3, e4, .inl hcl⟩, h.queue, h.input, h.root⟩, ?_⟩
          intro e m
          simp only [List.mem_singleton] at m; subst m
          simp [Ev.progress, e2]
    | data =>
      have hcl : s.st = .closed := by
        rcases e5 with a | a
        · exact a
        · rw [hp] at a; exact absurd a.1 (by simp)
      simp only
      split
      · trivial
      · split
        · refine ⟨?_, (NoProg.mon sid).nil⟩
          rcases done_ l s r.left hcl e4 rfl rfl rfl with a | a
          · exact a
          · exact absurd hcl a
        · refine ⟨?_, ?_⟩
          · have hf := find_setStream l.c sid (fun s => { s with window := s.window - r.left }) s (fun _ => rfl) e4
            rcases done_ { l with c := spend l.c r.sid r.left } { s with window := s.window - r.left } 0 hcl
              (by rw [e2]; exact hf) rfl rfl rfl with a | a
            · rw [hp] at a; exact a
            · exact absurd hcl a
          · intro e m
            simp only [List.mem_singleton] at m; subst m
            simp [Ev.progress, e2]
  · trivial

theorem serve_stuck (app : Nat → Option Nat) (sid : Nat) (av : Row) (l : Link) (h : SA sid av l) :
    Sat (ServeOK (SP sid) (SA sid) (NoProg sid)) (fun _ => True) (serve app av l) := by
  have so : l.c.goaway = false → Stuck sid l := by
    intro hg
    rcases h.2 with a | a | a
    · rw [h.1] at a; simp at a
    · rw [hg] at a; simp at a
    · exact a
  have nil := (NoProg.mon sid).nil
  have blk : ∀ (av' : Row) (l' : Link) (ev : List Ev), NoProg sid ev → SA sid av' l' → ServeOK (SP sid) (SA sid) (NoProg sid) (l', ev, some av') := by
    intro av' l' ev hev hp
    exact ⟨hev, hp.2.congr rfl rfl rfl rfl rfl, hp.2.congr rfl rfl rfl rfl rfl, fun _ k => ⟨hp.1, hp.2.congr rfl rfl rfl rfl rfl⟩⟩
  have rf : l.c.goaway = false → Sat (ServeOK (SP sid) (SA sid) (NoProg sid)) (fun _ => True) (match frames app av l l.input with
      | .error b => .error b
      | .ok (l', ev, .block av') => .ok (l', ev, some av')
      | .ok (l', ev, .goaway) => (goawayHandle l').map fun r => (r.1, ev ++ r.2, none)
      | .ok (l', ev, .emergency) => .ok (l'.close, ev ++ [.sent (.goaway 2), .workerEnds], none)) := by
    intro hg
    have hf := frames_stuck app sid av l h hg
    cases e : frames app av l l.input with
    | error b => trivial
    | ok r =>
      obtain ⟨l1, ev, st⟩ := r
      rw [e] at hf
      obtain ⟨h1, h2, h3⟩ := hf
      cases st with
      | block av' => exact blk av' l1 ev h1 h2
      | goaway =>
        refine (goaway_stuck sid l1 h3).map ?_
        rintro ⟨l2, ev2⟩ ⟨a, b⟩
        exact ⟨(NoProg.mon sid).app _ _ h1 b, a⟩
      | emergency =>
        refine ⟨(NoProg.mon sid).app _ _ h1 ?_, .inl rfl⟩
        intro e m
        simp only [List.mem_cons, List.not_mem_nil, or_false] at m
        rcases m with rfl | rfl <;> rfl
  unfold serve
  simp only
  cases hg : l.c.goaway with
  | true =>
    rw [if_pos rfl]
    refine (goaway_stuck sid l hg).map ?_
    rintro ⟨l2, ev2⟩ ⟨a, b⟩
    exact ⟨b, a⟩
  | false =>
    rw [if_neg (by simp)]
    split
    · exact ⟨nil, .inl rfl⟩
    · split
      · split
        · exact blk av l [] nil h
        · exact rf hg
      · split
        · split
          · refine ⟨?_, ?_⟩
            · intro e m
              simp only [sendAll, List.mem_map] at m
              obtain ⟨i, m, rfl⟩ := m
              have := (so hg).queue i m
              cases i <;> simp_all [Ev.progress, Item.isData]
            · obtain ⟨r, rs, s, e1, e2, e3, e4, e5⟩ := (so hg).head
              refine .inr (.inr ⟨⟨markSent l.queue r, rs.map (markSent l.queue), s, ?_, ?_, ?_, e4, ?_⟩, by simp [sendAll], (so hg).input, (so hg).root⟩)
              · simp only [sendAll, e1, List.map_cons]
              · unfold markSent; split <;> exact e2
              · unfold markSent; split <;> exact e3
              · unfold markSent; split <;> exact e5
          · split
            · next r rs hr =>
              refine (respond_stuck sid l r rs (so hg) hr).map ?_
              rintro ⟨l2, ev2⟩ ⟨a, b⟩
              exact ⟨b, .inr (.inr a)⟩
            · split
              · trivial
              · exact rf hg
        · exact blk av l [] nil h

theorem step_stuck (app : Nat → Option Nat) (sid : Nat) (l : Link) (s : Step) (h : SP sid l) :
    Sat (fun r => SP sid r.1 ∧ NoProg sid r.2) (fun _ => True) (step app l s) := by
  have nil := (NoProg.mon sid).nil
  cases s with
  | arrive n => exact ⟨h.congr rfl rfl rfl rfl rfl, nil⟩
  | fin => exact ⟨h.congr rfl rfl rfl rfl rfl, nil⟩
  | turn k more w =>
    refine turn_sat app (SP sid) (SA sid) (NoProg sid) _ (NoProg.mon sid) (serve_stuck app sid) k more w l h ?_ ?_ ?_ ?_
    · intro hc _; exact ⟨hc, h⟩
    · intro hc _ _; exact ⟨hc, h.congr rfl rfl rfl rfl rfl⟩
    · intro hc _ _ _; exact ⟨hc, h.congr rfl rfl rfl rfl rfl⟩
    · intro hc _; exact h.congr rfl rfl rfl rfl rfl

theorem run_stuck (app : Nat → Option Nat) (sid : Nat) (ss : List Step) (l : Link) (h : SP sid l) :
    Sat (fun r => SP sid r.1 ∧ NoProg sid r.2) (fun _ => True) (run app l ss) :=
  run_sat app (SP sid) (NoProg sid) _ (NoProg.mon sid) (step_stuck app sid) ss l h

end Fly.H2L
