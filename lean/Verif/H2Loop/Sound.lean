import Verif.H2Loop.Lemmas
set_option linter.all false

/-! Invariant of an open connection: the socket is waited for to be writable only while there is something
to send, the headers of every response are sent or queued, no GOAWAY is queued. -/

namespace Fly.H2L
open Fly.H2S (Frame Out SState Stream Conn)

structure Sound (l : Link) : Prop where
  write : l.row.write = true → l.queue ≠ [] ∨ l.resps ≠ []
  hdr : ∀ r ∈ l.resps, r.headersSent = true ∨ Item.headers r.sid ∈ l.queue
  noGo : ∀ code, Item.goaway code ∉ l.queue
  noData : ∀ i ∈ l.queue, i.isData = false
  root : l.c.root.id = 0

def OK (l : Link) : Prop := l.closed = true ∨ l.c.goaway = true ∨ Sound l

theorem Sound.congr {l l' : Link} (h : Sound l) (hw : l'.row.write = l.row.write) (hq : l'.queue = l.queue) (hr : l'.resps = l.resps) (hc : l'.c.root.id = 0) : Sound l' :=
  ⟨by rw [hw, hq, hr]; exact h.write, by rw [hq, hr]; exact h.hdr, by rw [hq]; exact h.noGo, by rw [hq]; exact h.noData, hc⟩

theorem OK.congr {l l' : Link} (h : OK l) (hc : l'.closed = l.closed) (hg : l'.c = l.c)
    (hw : l'.row.write = l.row.write) (hq : l'.queue = l.queue) (hr : l'.resps = l.resps) : OK l' := by
  rcases h with h | h | h
  · exact .inl (by rw [hc]; exact h)
  · exact .inr (.inl (by rw [hg]; exact h))
  · exact .inr (.inr (h.congr hw hq hr (by rw [hg]; exact h.root)))

theorem Sound.apply {app : Nat → Option Nat} {l : Link} (h : Sound l) (o : Out) (ho : ∀ code, o ≠ .goaway code) : Sound (apply app l o) := by
  have hd := apply_data app l o h.noData
  have key : ∀ (l' : Link) (q : List Item), (∀ code, Item.goaway code ∉ q) → q ≠ [] → l'.queue = l.queue ++ q → l'.resps = l.resps → l'.c = l.c →
      (∀ i ∈ l'.queue, i.isData = false) → Sound l' := by
    intro l' q hq hne e1 e2 e3 e4
    refine ⟨fun _ => .inl (by rw [e1]; simp [hne]), ?_, ?_, e4, by rw [e3]; exact h.root⟩
    · intro r hr; rw [e2] at hr; rcases h.hdr r hr with a | a
      · exact .inl a
      · exact .inr (by rw [e1]; exact List.mem_append_left _ a)
    · intro code hm; rw [e1] at hm; rcases List.mem_append.1 hm with a | a
      · exact h.noGo code a
      · exact hq code a
  cases o with
  | goaway code => exact absurd rfl (ho code)
  | rst sid code => exact key _ [.rst sid code] (by simp) (by simp) rfl rfl rfl hd
  | windowUpdate sid n => exact key _ [.windowUpdate sid n] (by simp) (by simp) rfl rfl rfl hd
  | pong => exact key _ [.pong] (by simp) (by simp) rfl rfl rfl hd
  | settingsAck => exact key _ [.settings, .settingsAck] (by simp) (by simp) rfl rfl rfl hd
  | dispatch sid a b c =>
    refine ⟨fun _ => .inl (by simp [H2L.apply]), ?_, ?_, hd, h.root⟩
    · intro r hr
      rcases List.mem_append.1 hr with a | a
      · rcases h.hdr r a with a | a
        · exact .inl a
        · exact .inr (List.mem_append_left _ a)
      · simp only [List.mem_singleton] at a; subst a
        exact .inr (List.mem_append_right _ (by simp))
    · intro code hm; rcases List.mem_append.1 hm with a | a
      · exact h.noGo code a
      · simp at a
  | opened sid => exact h
  | emergency => exact h
  | closed sid => exact h

theorem Sound.applyAll {app : Nat → Option Nat} : ∀ (os : List Out) {l : Link}, Sound l → (∀ o ∈ os, ∀ code, o ≠ .goaway code) → Sound (applyAll app l os)
  | [], l, h, _ => h
  | o :: os, l, h, ho => by
    have e : H2L.applyAll app l (o :: os) = H2L.applyAll app (H2L.apply app l o) os := rfl
    rw [e]
    exact Sound.applyAll os (h.apply o (ho o List.mem_cons_self)) (fun o' m => ho o' (List.mem_cons_of_mem _ m))

theorem apply_write (app : Nat → Option Nat) (l : Link) (o : Out) (h : l.row.write = true) : (apply app l o).row.write = true := by
  cases o <;> simp [apply, h]
theorem applyAll_write (app : Nat → Option Nat) : ∀ (os : List Out) (l : Link), l.row.write = true → (applyAll app l os).row.write = true
  | [], l, h => h
  | o :: os, l, h => applyAll_write app os (apply app l o) (apply_write app l o h)

/-- No GOAWAY is sent, or the worker ends. -/
def NoGo (ev : List Ev) : Prop := (∀ code, Ev.sent (.goaway code) ∉ ev) ∨ Ev.workerEnds ∈ ev

theorem NoGo.mon : Mon NoGo :=
  ⟨.inl (by simp), fun a b ha hb => by
    rcases ha with ha | ha
    · rcases hb with hb | hb
      · exact .inl fun code hm => by
          rcases List.mem_append.1 hm with h | h
          · exact ha code h
          · exact hb code h
      · exact .inr (List.mem_append_right _ hb)
    · exact .inr (List.mem_append_left _ ha)⟩

def PA (av : Row) (l : Link) : Prop := OK l ∧ l.closed = false ∧ (av.write = true → l.row.write = true)

theorem OK.close (l : Link) : OK l.close := .inl rfl

theorem frames_ok (app : Nat → Option Nat) (B : Bug → Prop) (hB1 : B .short) (hB2 : B .protocol) (av : Row) (l : Link) (h : PA av l)
    (hg : l.c.goaway = false) :
      Sat (fun r => NoGo r.2.1 ∧ PA av r.1 ∧ (match r.2.2 with
        | .block av' => av' = av ∨ av' = ⟨false, false⟩
        | .goaway => r.1.c.goaway = true
        | .emergency => r.1.c.ended = true)) B (frames app av l l.input) := by
  refine frames_sat app (PA av) NoGo B NoGo.mon (fun _ _ _ _ _ _ => hB1) (fun _ _ _ _ _ _ _ => hB2) ?_ av l.input l rfl h hg
  intro l f fs c' os hp hi hg hsz e
  have gs := (H2S.gc_step e).1
  have sm := applyAll_same app os { l with c := c', lsid := if f.type = 7 then f.lastSid else l.lsid }
  have ea : applyAll app { l with c := c', lsid := if f.type = 7 then f.lastSid else l.lsid } os = after app l f c' os := rfl
  rw [ea] at sm
  have hP : PA av (after app l f c' os) := by
    obtain ⟨ok, cl, w⟩ := hp
    refine ⟨?_, by rw [sm.2.2.2.2.2.2.1]; exact cl, ?_⟩
    · cases hgc : c'.goaway with
      | true => exact .inr (.inl (by rw [sm.1]; exact hgc))
      | false =>
        refine .inr (.inr ?_)
        have so : Sound l := by
          rcases ok with h | h | h
          · rw [cl] at h; simp at h
          · rw [hg] at h; simp at h
          · exact h
        have so' : Sound { l with c := c', lsid := if f.type = 7 then f.lastSid else l.lsid } := so.congr rfl rfl rfl
          (H2S.other_stream l.c c' f os (f.sid + 1) e (by omega) so.root).2
        refine so'.applyAll os ?_
        intro o ho code e
        have := gs o ho (by rw [e]; rfl)
        rw [hgc] at this; simp at this
    · intro hw
      exact applyAll_write app os _ (w hw)
  refine ⟨.inl (by simp), ?_, fun _ => hP⟩
  obtain ⟨ok, cl, w⟩ := hP
  exact ⟨ok.congr rfl rfl rfl rfl rfl, cl, w⟩

theorem goaway_ok (B : Bug → Prop) (hB : B .freed) (l : Link) (hg : l.c.goaway = true) :
    Sat (fun r => (OK r.1) ∧ NoGo r.2) B (goawayHandle l) := by
  have := goawayHandle_sat (fun l => l.closed = true ∨ l.c.goaway = true) NoGo B NoGo.mon hB (fun sid => .inl (by simp)) (fun l _ => .inl rfl)
    (fun l g h => h) l (.inr hg)
  refine this.mono ?_ (fun b h => h)
  rintro ⟨l', ev⟩ ⟨h, h'⟩
  refine ⟨?_, h'⟩
  rcases h with h | h
  · exact .inl h
  · exact .inr (.inl h)

/-- One of the bugs that do happen. -/
def Other (b : Bug) : Prop := b ≠ .stale ∧ b ≠ .confused

theorem sendAll_sound (l : Link) (h : Sound l) : Sound (sendAll l).1 := by
  refine ⟨?_, ?_, by simp [sendAll], by simp [sendAll], h.root⟩
  · intro hw
    simp only [sendAll, Bool.and_eq_true, Bool.not_eq_true'] at hw
    refine .inr ?_
    simp only [sendAll]
    intro e
    rw [List.map_eq_nil_iff] at e
    rw [e] at hw; simp at hw
  · intro r hr
    simp only [sendAll, List.mem_map] at hr
    obtain ⟨r0, m, rfl⟩ := hr
    left
    rcases h.hdr r0 m with a | a
    · unfold markSent; split
      · rfl
      · exact a
    · unfold markSent; rw [if_pos (by simpa using a)]

theorem bodyDone_sound (l : Link) (r : Resp) (rs : List Resp) (s : Stream) (hr : r.headersSent = true)
    (hq : l.queue = []) (h : ∀ r ∈ rs, r.headersSent = true) (hc : l.c.root.id = 0) : Sound (bodyDone l r rs s) := by
  unfold bodyDone
  simp only
  split
  · refine ⟨fun _ => .inr (by simp), ?_, by simp [hq], by simp [hq], hc⟩
    intro r' hm
    rcases List.mem_cons.1 hm with e | m
    · subst e; exact .inl hr
    · exact .inl (h r' m)
  · refine ⟨fun _ => .inr (by simp), ?_, by simp [hq], by simp [hq], hc⟩
    intro r' hm
    rcases List.mem_cons.1 hm with e | m
    · subst e; exact .inl hr
    · exact .inl (h r' m)

theorem respond_ok (l : Link) (r : Resp) (rs : List Resp) (hs : Sound l) (hq : l.queue = []) (hr : l.resps = r :: rs) :
    Sat (fun x => Sound x.1 ∧ NoGo x.2) Other (respond l r rs) := by
  have hh : ∀ r' ∈ r :: rs, r'.headersSent = true := by
    intro r' m
    rcases hs.hdr r' (by rw [hr]; exact m) with a | a
    · exact a
    · rw [hq] at a; simp at a
  have h0 := hh r List.mem_cons_self
  have h1 : ∀ r' ∈ rs, r'.headersSent = true := fun r' m => hh r' (List.mem_cons_of_mem _ m)
  unfold respond
  split
  · exact ⟨by simp, by simp⟩
  · next s hs' =>
    split
    · refine ⟨⟨?_, ?_, ?_, by simp [finish, hq], hs.root⟩, .inl (by simp [finish])⟩
      · intro hw
        simp only [finish, Bool.and_eq_true, Bool.not_eq_true', Bool.and_eq_false_iff] at hw
        simp only [finish]
        rcases hw.2 with e | e
        · right; intro e'; rw [e'] at e; simp at e
        · left; intro e'; rw [e'] at e; simp at e
      · intro r' m; exact .inl (h1 r' m)
      · simp [finish, hq]
    · unfold body
      split
      · split
        · refine ⟨⟨fun _ => .inr (by simp [hr]), ?_, ?_, hs.noData, hs.root⟩, .inl (by simp)⟩
          · intro r' m; exact .inl (hh r' (by rw [← hr]; exact m))
          · exact hs.noGo
        · split
          · exact ⟨bodyDone_sound l r rs s h0 hq h1 hs.root, .inl (by simp)⟩
          · refine ⟨⟨fun _ => .inr (by simp), ?_, ?_, hs.noData, hs.root⟩, .inl (by simp)⟩
            · intro r' m
              rcases List.mem_cons.1 m with e | m
              · subst e; exact .inl h0
              · exact .inl (h1 r' m)
            · exact hs.noGo
      · split
        · exact ⟨by simp, by simp⟩
        · split
          · exact ⟨bodyDone_sound l r rs s h0 hq h1 hs.root, .inl (by simp)⟩
          · exact ⟨bodyDone_sound _ _ rs s h0 hq h1 hs.root, .inl (by simp)⟩

theorem PA.wait {av : Row} {l : Link} (h : OK l) (hd : Handler) : OK { l with handler := hd, row := { l.row with read := true } } :=
  h.congr rfl rfl rfl rfl rfl

theorem serve_ok (app : Nat → Option Nat) (av : Row) (l : Link) (h : PA av l) : Sat (ServeOK OK PA NoGo) Other (serve app av l) := by
  have so : l.c.goaway = false → Sound l := by
    intro hg
    rcases h.1 with a | a | a
    · rw [h.2.1] at a; simp at a
    · rw [hg] at a; simp at a
    · exact a
  have blk : ∀ (av' : Row) (l' : Link) (ev : List Ev), NoGo ev → PA av' l' → ServeOK OK PA NoGo (l', ev, some av') := by
    intro av' l' ev hev hp
    refine ⟨hev, PA.wait (av := av) hp.1 _, PA.wait (av := av) hp.1 _, fun _ k => ?_⟩
    exact ⟨hp.1.congr rfl rfl rfl rfl rfl, hp.2.1, hp.2.2⟩
  have rf : l.c.goaway = false → Sat (ServeOK OK PA NoGo) Other (match frames app av l l.input with
      | .error b => .error b
      | .ok (l', ev, .block av') => .ok (l', ev, some av')
      | .ok (l', ev, .goaway) => (goawayHandle l').map fun r => (r.1, ev ++ r.2, none)
      | .ok (l', ev, .emergency) => .ok (l'.close, ev ++ [.sent (.goaway 2), .workerEnds], none)) := by
    intro hg
    have hf := frames_ok app Other ⟨by simp, by simp⟩ ⟨by simp, by simp⟩ av l h hg
    cases e : frames app av l l.input with
    | error b => rw [e] at hf; exact hf
    | ok r =>
      obtain ⟨l1, ev, st⟩ := r
      rw [e] at hf
      obtain ⟨h1, h2, h3⟩ := hf
      cases st with
      | block av' =>
        refine blk av' l1 ev h1 ⟨h2.1, h2.2.1, ?_⟩
        rcases h3 with e | e
        · rw [e]; exact h2.2.2
        · rw [e]; simp
      | goaway =>
        refine (goaway_ok Other ⟨by simp, by simp⟩ l1 h3).map ?_
        rintro ⟨l2, ev2⟩ ⟨a, b⟩
        exact ⟨NoGo.mon.app _ _ h1 b, a⟩
      | emergency => exact ⟨.inr (by simp), OK.close _⟩
  unfold serve
  simp only
  cases hg : l.c.goaway with
  | true =>
    rw [if_pos rfl]
    refine (goaway_ok Other ⟨by simp, by simp⟩ l hg).map ?_
    rintro ⟨l2, ev2⟩ ⟨a, b⟩
    exact ⟨b, a⟩
  | false =>
    rw [if_neg (by simp)]
    split
    · exact ⟨NoGo.mon.nil, OK.close _⟩
    · split
      · split
        · exact blk av l [] NoGo.mon.nil h
        · exact rf hg
      · split
        · next hw =>
          split
          · refine ⟨.inl ?_, .inr (.inr (sendAll_sound l (so hg)))⟩
            intro code hm
            simp only [sendAll, List.mem_map] at hm
            obtain ⟨i, m, e⟩ := hm
            simp only [Ev.sent.injEq] at e
            exact (so hg).noGo code (e ▸ m)
          · next hq =>
            have hq : l.queue = [] := by simpa using hq
            split
            · next r rs hr =>
              refine (respond_ok l r rs (so hg) hq hr).map ?_
              rintro ⟨l2, ev2⟩ ⟨a, b⟩
              exact ⟨b, .inr (.inr a)⟩
            · next hr =>
              rcases (so hg).write (h.2.2 hw) with a | a
              · exact absurd hq a
              · exact absurd hr a
        · exact blk av l [] NoGo.mon.nil h

theorem ready_write {w : Bool} {l : Link} (h : (ready w l).write = true) : l.row.write = true := by
  simp only [ready, Bool.and_eq_true] at h; exact h.1

theorem step_ok (app : Nat → Option Nat) (l : Link) (s : Step) (h : OK l) : Sat (fun r => OK r.1 ∧ NoGo r.2) Other (step app l s) := by
  cases s with
  | arrive n => exact ⟨h.congr rfl rfl rfl rfl rfl, NoGo.mon.nil⟩
  | fin => exact ⟨h.congr rfl rfl rfl rfl rfl, NoGo.mon.nil⟩
  | turn k more w =>
    refine turn_sat app OK PA NoGo Other NoGo.mon (serve_ok app) k more w l h ?_ ?_ ?_ ?_
    · intro hc _; exact ⟨h, hc, ready_write⟩
    · intro hc _ _; exact ⟨h.congr rfl rfl rfl rfl rfl, hc, ready_write⟩
    · intro hc _ _ _; exact ⟨h.congr rfl rfl rfl rfl rfl, hc, ready_write⟩
    · intro hc _; exact h.congr rfl rfl rfl rfl rfl

theorem run_ok (app : Nat → Option Nat) (ss : List Step) (l : Link) (h : OK l) : Sat (fun r => OK r.1 ∧ NoGo r.2) Other (run app l ss) :=
  run_sat app OK NoGo Other NoGo.mon (step_ok app) ss l h

theorem start_ok (maxBody : Nat) (input : List Frame) : OK (Link.start maxBody input) :=
  .inr (.inr ⟨by simp [Link.start], by simp [Link.start], by simp [Link.start], by simp [Link.start], rfl⟩)

end Fly.H2L
