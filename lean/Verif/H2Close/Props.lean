import Verif.H2Close.Model
import Verif.H2Close.Spec
import Verif.H2Ack.Props

/-! # Closing a connection with control frames on their way -/

namespace Fly.H2A
open Fly.H2 (Settings)

/-! ## The frames to be acknowledged: those sent, then those waiting -/

structure Order (s : St) (n : Nat) : Prop where
  still : ∀ a, .frame a ∈ s.live → (s.at a).moved = false
  ex : ∃ old, s.yetack = old ++ s.send.filter (fun a => (s.at a).needAck) ∧ old.length = n

theorem flush_send (n : Nat) : ∀ {s s' : St} {o : List Sent}, flush n s = some (s', o) → s'.send = s.send.drop n := by
  induction n with
  | zero => intro s s' o h; simp only [flush, Option.some.injEq, Prod.mk.injEq] at h; rw [← h.1]; rfl
  | succ n ih =>
    intro s s' o h
    unfold flush at h
    cases hs : s.send with
    | nil => simp only [hs, Option.some.injEq, Prod.mk.injEq] at h; rw [← h.1, hs]; rfl
    | cons a rest =>
      simp only [hs] at h
      split at h
      · split at h
        · cases h
        · rename_i r hr
          simp only [Option.some.injEq, Prod.mk.injEq] at h
          have := ih (s' := r.1) (o := r.2) hr
          rw [← h.1, this]; rfl
      · cases h

theorem order_enqueue {s : St} {w : List Bool} {n : Nat} (h : Inv s w) (ho : Order s n) (k : Kind) (pl : Bytes) (na : Bool) : Order (enqueue s k pl na) n := by
  obtain ⟨old, h1, h2⟩ := ho.ex
  have hne : ∀ a ∈ s.send, a ≠ s.next := fun a ha he => Nat.lt_irrefl _ (he ▸ h.lt a ((h.liveF a).2 (.inl ha)))
  refine ⟨?_, ⟨old, ?_, h2⟩⟩
  · intro a ha
    show (if a = s.next then (⟨k, pl, false, na⟩ : SFrame) else s.at a).moved = false
    by_cases hn : a = s.next
    · rw [if_pos hn]
    · rw [if_neg hn]
      apply ho.still
      have ha' : Block.frame a ∈ Block.frame s.next :: ((if pl.isEmpty then [] else [.payload s.next]) ++ s.live) := ha
      rcases List.mem_cons.1 ha' with he | he
      · cases he; exact absurd rfl hn
      · rcases List.mem_append.1 he with he | he
        · split at he
          · cases he
          · cases he with
            | tail _ he => cases he
        · exact he
  have hf : s.send.filter (fun a => ((enqueue s k pl na).at a).needAck) = s.send.filter (fun a => (s.at a).needAck) := by
    apply List.filter_congr
    intro a ha
    show (if a = s.next then (⟨k, pl, false, na⟩ : SFrame) else s.at a).needAck = (s.at a).needAck
    rw [if_neg (hne a ha)]
  have hx : ((enqueue s k pl na).at s.next).needAck = na := by simp [enqueue]
  have hsend : (enqueue s k pl na).send = s.send ++ [s.next] := rfl
  rw [hsend, List.filter_append, hf]
  cases na with
  | true => simp [hx, List.filter_cons]; simp [enqueue, h1]
  | false => simp [hx, List.filter_cons]; simp [enqueue, h1]

theorem order_settings {s : St} {w : List Bool} {n : Nat} (h : Inv s w) (ho : Order s n) (env : List (Nat × Nat)) (mem : Bytes) (l : List (Nat × Nat)) : Order (onSettings env mem l s) n := by
  have h1 := inv_enqueue h .settings (Fly.H2.settingsPayload (mem.take (6 * env.length)) env) true (by simp)
  have o1 := order_enqueue h ho .settings (Fly.H2.settingsPayload (mem.take (6 * env.length)) env) true
  exact order_enqueue (inv_peer h1 (peerSettings s.peer l).1) ⟨o1.still, o1.ex⟩ _ _ _

theorem count_filter (f : Nat → Bool) : ∀ l : List Nat, (l.filter f).length = (l.map f).count true
  | [] => rfl
  | a :: l => by
    have ih := count_filter f l
    rw [List.filter_cons, List.map_cons, List.count_cons]
    cases hf : f a <;> simp [ih]

theorem ackLoop_at (l : List Nat) : ∀ {s s' : St}, ackLoop l s = some s' → s'.send = s.send ∧ ∀ b, b ∉ l → s'.at b = s.at b := by
  induction l with
  | nil => intro s s' h; simp only [ackLoop, Option.some.injEq] at h; subst h; exact ⟨rfl, fun _ _ => rfl⟩
  | cons a rest ih =>
    intro s s' h
    unfold ackLoop at h
    split at h
    · obtain ⟨h1, h2⟩ := ih h
      refine ⟨h1, ?_⟩
      intro b hb
      rw [List.mem_cons, not_or] at hb
      rw [h2 b hb.2]
      show (if b = a then { s.at a with moved := !(s.at a).payload.isEmpty } else s.at b) = s.at b
      rw [if_neg hb.1]
    · cases h

theorem run_order (env : List (Nat × Nat)) (h : List Step) : ∀ {s : St} {w : List Bool} {n : Nat}, Inv s w → Order s n → Calm w h →
    ∃ s' o, run env s h = some (s', o) ∧ Inv s' (waitsAll w h) ∧ Order s' (sentSince w n h) := by
  induction h with
  | nil => intro s w n hi ho _; exact ⟨s, [], rfl, hi, ho⟩
  | cons x h ih =>
    intro s w n hi ho hc
    cases x with
    | settings l mem =>
      obtain ⟨s', o, e, i, m⟩ := ih (inv_settings hi env mem l) (order_settings hi ho env mem l) hc
      exact ⟨s', o, by simp only [run, step, Option.bind_some, e, Option.map_some, List.nil_append], i, m⟩
    | other =>
      obtain ⟨s', o, e, i, m⟩ := ih (inv_enqueue hi .other [] false (by simp)) (order_enqueue hi ho .other [] false) hc
      exact ⟨s', o, by simp only [run, step, Option.bind_some, e, Option.map_some, List.nil_append], i, m⟩
    | ack =>
      obtain ⟨s1, e1, i1, hy⟩ := onAck_inv hi hc.1
      have ho1 : Order s1 0 := by
        refine ⟨?_, ⟨[], ?_, rfl⟩⟩
        · have hat : s1.send = s.send ∧ ∀ b, b ∉ s.yetack → s1.at b = s.at b := by
            unfold onAck at e1
            split at e1
            · cases e1; exact ⟨rfl, fun _ _ => rfl⟩
            · exact ackLoop_at _ e1
          intro a ha
          have hs : a ∈ s.send := by
            rcases (i1.liveF a).1 ha with h | h
            · rwa [hat.1] at h
            · rw [hy] at h; cases h
          have hna : a ∉ s.yetack := fun hm => hc.1 (by rw [← hi.wait]; exact List.mem_map.2 ⟨a, hs, (hi.need a hs).2 hm⟩)
          rw [hat.2 a hna]
          exact ho.still a ((hi.liveF a).2 (.inl hs))
        · rw [hy, List.nil_append, Eq.comm]
          apply List.eq_nil_of_length_eq_zero
          rw [count_filter, i1.wait]
          exact List.count_eq_zero.2 hc.1
      obtain ⟨s', o, e, i, m⟩ := ih i1 ho1 hc.2
      exact ⟨s', o, by simp only [run, step, e1, Option.map_some, Option.bind_some, e, List.nil_append], i, m⟩
    | flush k =>
      obtain ⟨s1, o1, e1, i1, _, _, hy, hat⟩ := flush_inv k hi
      have hs := flush_send k e1
      have ho1 : Order s1 (n + (w.take k).count true) := by
        obtain ⟨old, h1, h2⟩ := ho.ex
        refine ⟨?_, ⟨old ++ (s.send.take k).filter (fun a => (s.at a).needAck), ?_, ?_⟩⟩
        · intro a ha
          rw [hat]
          apply ho.still
          rw [hi.liveF]
          rcases (i1.liveF a).1 ha with h | h
          · rw [hs] at h; exact .inl (List.mem_of_mem_drop h)
          · rw [hy] at h; exact .inr h
        · rw [hy, hs, hat, List.append_assoc, ← List.filter_append, List.take_append_drop, h1]
        · rw [List.length_append, h2, count_filter, List.map_take, hi.wait]
      obtain ⟨s', o, e, i, m⟩ := ih i1 ho1 hc
      exact ⟨s', o1 ++ o, by simp only [run, step, e1, Option.bind_some, e, Option.map_some], i, m⟩

/-! ## The two loops -/

theorem mem_releaseOnly (s : St) (a b : Nat) : .frame b ∈ releaseOnly s a ↔ .frame b ∈ s.live ∧ b ≠ a := by
  unfold releaseOnly
  rw [mem_pbfree]
  split
  · simp
  · rw [mem_pbfree]; simp

theorem payload_releaseOnly (s : St) (a b : Nat) (h : .payload b ∈ releaseOnly s a) : .payload b ∈ s.live := by
  unfold releaseOnly at h
  have := ((mem_pbfree _ _ _).1 h).1
  split at this
  · exact this
  · exact ((mem_pbfree _ _ _).1 this).1

theorem releaseOnly_gone (s : St) (a : Nat) (h : (s.at a).moved = false) : .payload a ∉ releaseOnly s a := by
  unfold releaseOnly
  rw [mem_pbfree, h, if_neg (by decide), mem_pbfree]
  simp

theorem dropUnsent_some (l : List Nat) : ∀ (s : St), (∀ a ∈ l, .frame a ∈ s.live) → l.Nodup →
    ∃ s', dropUnsent l s = some s' ∧ s'.yetack = s.yetack ∧ s'.at = s.at ∧ s'.count = s.count - ((l.map fun a => (s.at a).needAck).count true : Nat) ∧
      (∀ b, .frame b ∈ s'.live ↔ .frame b ∈ s.live ∧ b ∉ l) ∧ ∀ b, .payload b ∈ s'.live → .payload b ∈ s.live ∧ (b ∈ l → (s.at b).moved = true) := by
  induction l with
  | nil => intro s _ _; exact ⟨_, rfl, rfl, rfl, by simp, by simp, fun b hb => ⟨hb, fun h => by cases h⟩⟩
  | cons a rest ih =>
    intro s hl hnd
    obtain ⟨hn, hnd'⟩ := List.nodup_cons.1 hnd
    obtain ⟨s', e, h1, h2, h3, h4, h5⟩ := ih { s with live := releaseOnly s a, count := if (s.at a).needAck then s.count - 1 else s.count }
      (fun b hb => (mem_releaseOnly s a b).2 ⟨hl b (by simp [hb]), fun he => hn (he ▸ hb)⟩) hnd'
    refine ⟨s', ?_, h1, h2, ?_, ?_, fun b hb => ⟨payload_releaseOnly s a b (h5 b hb).1, fun hm => ?_⟩⟩
    · unfold dropUnsent; rw [if_pos (hl a (by simp))]; exact e
    · rw [h3, List.map_cons, List.count_cons]
      simp only
      cases (s.at a).needAck
      · simp
      · simp; omega
    · intro b
      rw [h4]
      show Block.frame b ∈ releaseOnly s a ∧ _ ↔ _
      rw [mem_releaseOnly, List.mem_cons, not_or, and_assoc]
    · rcases List.mem_cons.1 hm with rfl | hm
      · cases hmv : (s.at b).moved with
        | true => rfl
        | false => exact absurd (h5 b hb).1 (releaseOnly_gone s b hmv)
      · exact (h5 b hb).2 hm

theorem dropUnacked_some (l : List Nat) : ∀ (s : St), (∀ a ∈ l, .frame a ∈ s.live) → l.Nodup →
    ∃ s', dropUnacked l s = some s' ∧ (∀ b, .frame b ∈ s'.live ↔ .frame b ∈ s.live ∧ b ∉ l) ∧ ∀ b, .payload b ∈ s'.live → .payload b ∈ s.live ∧ (b ∈ l → (s.at b).moved = true) := by
  induction l with
  | nil => intro s _ _; exact ⟨_, rfl, by simp, fun b hb => ⟨hb, fun h => by cases h⟩⟩
  | cons a rest ih =>
    intro s hl hnd
    obtain ⟨hn, hnd'⟩ := List.nodup_cons.1 hnd
    obtain ⟨s', e, h4, h5⟩ := ih { s with live := releaseOnly s a, count := if (s.at a).needAck then s.count - 1 else s.count }
      (fun b hb => (mem_releaseOnly s a b).2 ⟨hl b (by simp [hb]), fun he => hn (he ▸ hb)⟩) hnd'
    refine ⟨s', ?_, ?_, fun b hb => ⟨payload_releaseOnly s a b (h5 b hb).1, fun hm => ?_⟩⟩
    · unfold dropUnacked; rw [if_pos (hl a (by simp))]; exact e
    · intro b
      rw [h4]
      show Block.frame b ∈ releaseOnly s a ∧ _ ↔ _
      rw [mem_releaseOnly, List.mem_cons, not_or, and_assoc]
    · rcases List.mem_cons.1 hm with rfl | hm
      · cases hmv : (s.at b).moved with
        | true => rfl
        | false => exact absurd (h5 b hb).1 (releaseOnly_gone s b hmv)
      · exact (h5 b hb).2 hm

theorem dropUnacked_none (l : List Nat) : ∀ (s : St) (b : Nat), b ∈ l → .frame b ∉ s.live → dropUnacked l s = none := by
  induction l with
  | nil => intro s b hb _; cases hb
  | cons a rest ih =>
    intro s b hb hl
    unfold dropUnacked
    by_cases ha : .frame a ∈ s.live
    · rw [if_pos ha]
      refine ih _ b ?_ (fun hx => hl ((mem_releaseOnly s a b).1 hx).1)
      rcases List.mem_cons.1 hb with rfl | h
      · exact absurd ha hl
      · exact h
    · rw [if_neg ha]

/-- The state before the second loop. -/
theorem first_loop {s : St} {w : List Bool} {n : Nat} (hi : Inv s w) (ho : Order s n) :
    ∃ s1, dropUnsent s.send s = some s1 ∧ s1.yetack = s.yetack ∧ s1.count = n ∧ (∀ b, .frame b ∈ s1.live ↔ b ∈ s.yetack ∧ b ∉ s.send) ∧ s1.at = s.at ∧ ∀ b, .payload b ∈ s1.live → .payload b ∈ s.live ∧ b ∉ s.send := by
  obtain ⟨s1, e, h1, h2, h3, h4, h5⟩ := dropUnsent_some s.send s (fun a ha => (hi.liveF a).2 (.inl ha)) hi.nd
  refine ⟨s1, e, h1, ?_, ?_, h2, fun b hb => ⟨(h5 b hb).1, fun hm => ?_⟩⟩
  · obtain ⟨old, o1, o2⟩ := ho.ex
    rw [h3, hi.count, o1, List.length_append, count_filter, o2]
    omega
  · intro b
    rw [h4, hi.liveF]
    constructor
    · rintro ⟨h | h, hn⟩
      · exact absurd h hn
      · exact ⟨h, hn⟩
    · rintro ⟨h, hn⟩; exact ⟨.inr h, hn⟩
  · have := (h5 b hb).2 hm
    rw [ho.still b ((hi.liveF b).2 (.inl hm))] at this
    cases this

/-! ## C209 -/

/-- **C209 (partial).** A connection ends after a calm history, with frames waiting and frames not acknowledged.  If no SETTINGS frame of the server is waiting to be sent, or none has been sent since the
last acknowledgement, then every frame is released once and none is left, nor the payload of any of them; without configured settings no memory is left at all.  Missing: the other case (`C209_waiting_and_unacknowledged_refuted`). -/
theorem C209_frames_released_once_partial (env : List (Nat × Nat)) (p : Settings) (h : List Step) (hc : Calm [] h) (hw : true ∉ waitsAll [] h ∨ sentSince [] 0 h = 0) :
    ∃ s o s', run env (St.init p) h = some (s, o) ∧ closeRoot s = some s' ∧ (∀ a, .frame a ∉ s'.live) ∧ (∀ a, .frame a ∈ s.live → .payload a ∉ s'.live) ∧ (env = [] → s'.live = []) := by
  obtain ⟨s, o, e, i, m⟩ := run_order env h (inv_init p) (n := 0) ⟨by simp [St.init], ⟨[], rfl, rfl⟩⟩ hc
  obtain ⟨s1, e1, h1, h2, h3, h5, h4⟩ := first_loop i m
  have key : ∃ s', closeRoot s = some s' ∧ (∀ a, .frame a ∉ s'.live) ∧ ∀ b, .payload b ∈ s'.live → .payload b ∈ s.live ∧ .frame b ∉ s.live := by
    unfold closeRoot
    rw [e1, Option.bind_some]
    by_cases hn : sentSince [] 0 h = 0
    · rw [if_neg (by rw [h2, hn]; decide)]
      have hsub : ∀ a, a ∈ s.yetack → a ∈ s.send := by
        intro a ha1
        obtain ⟨old, o1, o2⟩ := m.ex
        rw [hn] at o2
        rw [o1, List.eq_nil_of_length_eq_zero o2, List.nil_append] at ha1
        exact (List.mem_filter.1 ha1).1
      refine ⟨s1, rfl, ?_, fun b hb => ⟨(h4 b hb).1, fun hf => ?_⟩⟩
      · intro a ha
        obtain ⟨ha1, ha2⟩ := (h3 a).1 ha
        exact ha2 (hsub a ha1)
      · rcases (i.liveF b).1 hf with h | h
        · exact (h4 b hb).2 h
        · exact (h4 b hb).2 (hsub b h)
    · have hw' := hw.resolve_right hn
      rw [if_pos (by rw [h2]; omega), h1]
      have hdis : ∀ a ∈ s.yetack, a ∉ s.send := by
        intro a ha hs
        apply hw'
        rw [← i.wait]
        exact List.mem_map.2 ⟨a, hs, (i.need a hs).2 ha⟩
      obtain ⟨s2, e2, g1, g2⟩ := dropUnacked_some s.yetack s1 (fun a ha => (h3 a).2 ⟨ha, hdis a ha⟩) i.ndA
      refine ⟨s2, e2, ?_, fun b hb => ⟨(h4 b (g2 b hb).1).1, fun hf => ?_⟩⟩
      · intro a ha
        obtain ⟨ha1, ha2⟩ := (g1 a).1 ha
        exact ha2 ((h3 a).1 ha1).1
      · rcases (i.liveF b).1 hf with h | h
        · exact (h4 b (g2 b hb).1).2 h
        · have := (g2 b hb).2 h
          rw [h5, m.still b hf] at this
          cases this
  obtain ⟨s', k1, k2, k3⟩ := key
  refine ⟨s, o, s', e, k1, k2, fun a ha hp => (k3 a hp).2 ha, ?_⟩
  intro he
  subst he
  have hb := no_payload h (s := St.init p) (s' := s) (o := o) (fun _ => by simp [St.init]) e
  apply List.eq_nil_iff_forall_not_mem.2
  intro b hb'
  cases b with
  | frame a => exact k2 a hb'
  | payload a => exact hb a (k3 a hb').1

/-- **C209 refuted.** In the other case released memory is used: a SETTINGS frame of the server waits to be sent, and another one has been sent since the last acknowledgement.  The first is released as one to be
sent and found again among those to be acknowledged. -/
theorem C209_waiting_and_unacknowledged_refuted (env : List (Nat × Nat)) (p : Settings) (h : List Step) (hc : Calm [] h) (hw : true ∈ waitsAll [] h) (hn : 0 < sentSince [] 0 h) :
    ∃ s o, run env (St.init p) h = some (s, o) ∧ closeRoot s = none := by
  obtain ⟨s, o, e, i, m⟩ := run_order env h (inv_init p) (n := 0) ⟨by simp [St.init], ⟨[], rfl, rfl⟩⟩ hc
  obtain ⟨s1, e1, h1, h2, h3, _, _⟩ := first_loop i m
  refine ⟨s, o, e, ?_⟩
  unfold closeRoot
  rw [e1, Option.bind_some, if_pos (by rw [h2]; omega), h1]
  rw [← i.wait] at hw
  obtain ⟨a, ha, hna⟩ := List.mem_map.1 hw
  exact dropUnacked_none _ _ a ((i.need a ha).1 hna) (fun hx => ((h3 a).1 hx).2 ha)

/-- **C209 refuted.** A client that keeps to the protocol can do this: it sends SETTINGS, reads the answers, sends SETTINGS again and goes away. -/
theorem C209_client_leaves_refuted (env : List (Nat × Nat)) (p : Settings) (l l' : List (Nat × Nat)) (mem mem' : Bytes) :
    Compliant [] 0 [.settings l mem, .flush 2, .settings l' mem'] ∧ ∃ s o, run env (St.init p) [.settings l mem, .flush 2, .settings l' mem'] = some (s, o) ∧ closeRoot s = none :=
  ⟨by simp [Compliant], C209_waiting_and_unacknowledged_refuted env p _ (by simp [Calm]) (by simp [waitsAll, waits]) (by simp [sentSince, waits])⟩

theorem dropUnsent_none (l : List Nat) : ∀ (s : St) (b : Nat), b ∈ l → .frame b ∉ s.live → dropUnsent l s = none := by
  induction l with
  | nil => intro s b hb _; cases hb
  | cons a rest ih =>
    intro s b hb hl
    unfold dropUnsent
    by_cases ha : .frame a ∈ s.live
    · rw [if_pos ha]
      refine ih _ b ?_ (fun hx => hl ((mem_releaseOnly s a b).1 hx).1)
      rcases List.mem_cons.1 hb with rfl | h
      · exact absurd ha hl
      · exact h
    · rw [if_neg ha]

/-- **C209 refuted.** An acknowledgement that overtakes a SETTINGS frame of the server does harm even if nothing is sent any more: when the client goes away then, the frame it has released is released again. -/
theorem C209_overtaken_refuted (env : List (Nat × Nat)) (p : Settings) (h : List Step) (hc : Calm [] h) (l : List (Nat × Nat)) (mem : Bytes) :
    ∃ s o, run env (St.init p) (h ++ [.settings l mem, .ack]) = some (s, o) ∧ closeRoot s = none := by
  obtain ⟨s, o, e, i, _⟩ := run_calm env h (inv_init p) hc
  have i2 := inv_settings i env mem l
  obtain ⟨s2, e2, _, h2, _, _, h5, _⟩ := ackLoop_some (onSettings env mem l s).yetack (onSettings env mem l s) (fun a ha => (i2.liveF a).2 (.inr ha)) i2.ndA
  have hy : s.next ∈ (onSettings env mem l s).yetack := by simp [onSettings, sendServerSettings, enqueue]
  have hcnt : (onSettings env mem l s).count ≠ 0 := by
    rw [i2.count]
    have := List.length_pos_of_mem hy
    omega
  have ea : onAck (onSettings env mem l s) = some s2 := by unfold onAck; rw [if_neg hcnt]; exact e2
  have hsend : s.next ∈ s2.send := by rw [h2]; simp [onSettings, sendServerSettings, enqueue]
  refine ⟨s2, o, ?_, ?_⟩
  · rw [run_append, e]
    simp [run, step, ea]
  · unfold closeRoot
    rw [dropUnsent_none _ _ s.next hsend (fun hm => ((h5 _).1 hm).2 hy)]
    rfl

example : ∃ s o, run [] (St.init fresh) ([.settings [] [], .flush 2] ++ [.settings [(4, 100000)] [], .ack]) = some (s, o) ∧ closeRoot s = none :=
  C209_overtaken_refuted [] fresh _ (by simp [Calm]) _ _

/-- Nothing waits, two frames have not been acknowledged. -/
example : ∃ s o s', run [(4, 65536)] (St.init fresh) [.settings [] [7, 7, 7, 7, 7, 7], .flush 1, .settings [(4, 5)] [7, 7, 7, 7, 7, 7], .other, .flush 9] = some (s, o) ∧ closeRoot s = some s' ∧
    (∀ a, .frame a ∉ s'.live) ∧ (∀ a, .frame a ∈ s.live → .payload a ∉ s'.live) ∧ ([(4, 65536)] = ([] : List (Nat × Nat)) → s'.live = []) :=
  C209_frames_released_once_partial _ _ _ (by simp [Calm]) (.inl (by simp [waitsAll, waits]))

/-- Nothing has been sent since the acknowledgement, two SETTINGS frames wait. -/
example : ∃ s o s', run [] (St.init fresh) [.settings [] [], .flush 2, .ack, .settings [(4, 5)] [], .settings [] []] = some (s, o) ∧ closeRoot s = some s' ∧
    (∀ a, .frame a ∉ s'.live) ∧ (∀ a, .frame a ∈ s.live → .payload a ∉ s'.live) ∧ (([] : List (Nat × Nat)) = [] → s'.live = []) :=
  C209_frames_released_once_partial _ _ _ (by simp [Calm, waits]) (.inr (by simp [sentSince, waits]))

example : ∃ s o, run [] (St.init fresh) [.settings [] [], .flush 2, .settings [(4, 100000)] []] = some (s, o) ∧ closeRoot s = none :=
  (C209_client_leaves_refuted [] fresh [] [(4, 100000)] [] []).2

end Fly.H2A
