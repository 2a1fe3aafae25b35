import Verif.H2Ack.Spec

namespace Fly.H2A
open Fly.H2 (Settings)

/-- What holds between two steps, `w` being the frames waiting to be sent. -/
structure Inv (s : St) (w : List Bool) : Prop where
  liveF : ∀ a, .frame a ∈ s.live ↔ a ∈ s.send ∨ a ∈ s.yetack
  lt : ∀ a, .frame a ∈ s.live → a < s.next
  nd : s.send.Nodup
  ndA : s.yetack.Nodup
  need : ∀ a ∈ s.send, (s.at a).needAck = true ↔ a ∈ s.yetack
  kind : ∀ a ∈ s.send, (s.at a).kind = .settings ↔ (s.at a).needAck = true
  count : s.count = s.yetack.length
  wait : s.send.map (fun a => (s.at a).needAck) = w

theorem inv_init (p : Settings) : Inv (St.init p) [] := by
  constructor <;> simp [St.init]

theorem mem_pbfree (l : List Block) (b c : Block) : c ∈ pbfree l b ↔ c ∈ l ∧ c ≠ b := by
  simp [pbfree, List.mem_filter]

theorem inv_peer {s : St} {w : List Bool} (h : Inv s w) (p : Settings) : Inv { s with peer := p } w :=
  ⟨h.liveF, h.lt, h.nd, h.ndA, h.need, h.kind, h.count, h.wait⟩

theorem inv_enqueue {s : St} {w : List Bool} (h : Inv s w) (k : Kind) (pl : Bytes) (na : Bool) (hk : k = .settings ↔ na = true) :
    Inv (enqueue s k pl na) (w ++ [na]) := by
  have hns : s.next ∉ s.send := fun hm => Nat.lt_irrefl _ (h.lt _ ((h.liveF _).2 (.inl hm)))
  have hny : s.next ∉ s.yetack := fun hm => Nat.lt_irrefl _ (h.lt _ ((h.liveF _).2 (.inr hm)))
  have hne : ∀ a ∈ s.send, a ≠ s.next := fun a ha he => hns (he ▸ ha)
  have hf : ∀ a, Block.frame a ∈ (enqueue s k pl na).live ↔ a = s.next ∨ .frame a ∈ s.live := by
    intro a
    simp only [enqueue, List.mem_cons, List.mem_append]
    by_cases hp : pl.isEmpty = true <;> simp [hp]
  constructor
  · intro a
    rw [hf, h.liveF]
    cases na <;> simp [enqueue] <;> grind
  · intro a ha
    rcases (hf a).1 ha with e | e
    · subst e; exact Nat.lt_succ_self _
    · exact Nat.lt_succ_of_lt (h.lt a e)
  · simp only [enqueue]
    rw [List.nodup_append]
    refine ⟨h.nd, by simp, ?_⟩
    intro a ha b hb
    rw [List.mem_singleton] at hb
    subst hb
    exact hne a ha
  · cases na
    · exact h.ndA
    · simp only [enqueue, if_true]
      rw [List.nodup_append]
      refine ⟨h.ndA, by simp, ?_⟩
      intro a ha b hb
      rw [List.mem_singleton] at hb
      subst hb
      intro he
      exact hny (he ▸ ha)
  · intro a ha
    simp only [enqueue, List.mem_append, List.mem_singleton] at ha ⊢
    rcases ha with ha | ha
    · rw [if_neg (hne a ha), h.need a ha]
      cases na
      · simp
      · simp [hne a ha]
    · subst ha
      cases na
      · simp [hny]
      · simp
  · intro a ha
    simp only [enqueue, List.mem_append, List.mem_singleton] at ha ⊢
    rcases ha with ha | ha
    · rw [if_neg (hne a ha)]; exact h.kind a ha
    · subst ha; simp [hk]
  · have := h.count
    cases na
    · simpa [enqueue] using this
    · simp only [enqueue, if_true, List.length_append, List.length_singleton]; omega
  · simp only [enqueue, List.map_append, List.map_cons, List.map_nil, if_true]
    rw [← h.wait]
    congr 1
    exact List.map_congr_left fun a ha => by rw [if_neg (hne a ha)]

theorem inv_settings {s : St} {w : List Bool} (h : Inv s w) (env : List (Nat × Nat)) (mem : Bytes) (l : List (Nat × Nat)) :
    Inv (onSettings env mem l s) (w ++ [true, false]) := by
  have h1 := inv_enqueue h .settings (Fly.H2.settingsPayload (mem.take (6 * env.length)) env) true (by simp)
  have h2 := inv_enqueue (inv_peer h1 (peerSettings s.peer l).1) (if (peerSettings s.peer l).2 then .settingsAck else .other) [] false
    (by cases (peerSettings s.peer l).2 <;> simp)
  rw [List.append_assoc] at h2
  exact h2

/-- A flush of a state in order sends the first frames and leaves a state in order. -/
theorem flush_inv (n : Nat) : ∀ {s : St} {w : List Bool}, Inv s w →
    ∃ s' o, flush n s = some (s', o) ∧ Inv s' (w.drop n) ∧ o.map (fun x => x.kind == .settings) = w.take n ∧ s'.peer = s.peer ∧
      s'.yetack = s.yetack ∧ s'.at = s.at := by
  induction n with
  | zero => intro s w h; exact ⟨s, [], rfl, h, rfl, rfl, rfl, rfl⟩
  | succ n ih =>
    intro s w h
    cases hs : s.send with
    | nil =>
      have hw : w = [] := by rw [← h.wait, hs]; rfl
      subst hw
      refine ⟨s, [], ?_, h, rfl, rfl, rfl, rfl⟩
      simp only [flush, hs]
    | cons a rest =>
      have ha : a ∈ s.send := by rw [hs]; exact List.mem_cons_self
      have hla : Block.frame a ∈ s.live := (h.liveF a).2 (.inl ha)
      have hnd : a ∉ rest ∧ rest.Nodup := by have := h.nd; rw [hs] at this; exact List.nodup_cons.1 this
      have hinv : Inv { s with send := rest, live := if (s.at a).needAck then s.live else pbfree (pbfree s.live (.payload a)) (.frame a) }
          (rest.map fun a => (s.at a).needAck) := by
        constructor
        · intro b
          show Block.frame b ∈ (if (s.at a).needAck then s.live else pbfree (pbfree s.live (.payload a)) (.frame a)) ↔ b ∈ rest ∨ b ∈ s.yetack
          have hb := h.liveF b
          rw [hs] at hb
          have hna := h.need a ha
          split
          · next hn =>
            rw [hb]
            have := hna.1 hn
            grind
          · next hn =>
            rw [mem_pbfree, mem_pbfree, hb]
            have : a ∉ s.yetack := fun hm => hn (hna.2 hm)
            grind
        · intro b hb
          have hb' : Block.frame b ∈ (if (s.at a).needAck then s.live else pbfree (pbfree s.live (.payload a)) (.frame a)) := hb
          apply h.lt b
          split at hb'
          · exact hb'
          · rw [mem_pbfree, mem_pbfree] at hb'; exact hb'.1.1
        · exact hnd.2
        · exact h.ndA
        · intro b hb; exact h.need b (by rw [hs]; exact List.mem_cons_of_mem _ hb)
        · intro b hb; exact h.kind b (by rw [hs]; exact List.mem_cons_of_mem _ hb)
        · exact h.count
        · rfl
      obtain ⟨s', o, e, i, m, hp, hy, hat⟩ := ih hinv
      have hw : w = (s.at a).needAck :: rest.map (fun a => (s.at a).needAck) := by rw [← h.wait, hs]; rfl
      refine ⟨s', ⟨(s.at a).kind, (s.at a).payload⟩ :: o, ?_, ?_, ?_, hp, hy, hat⟩
      · unfold flush
        simp only [hs]
        rw [if_pos hla, e]
      · rw [hw]; exact i
      · rw [hw]
        simp only [List.map_cons, List.take_succ_cons, m]
        have hk := h.kind a ha
        congr 1
        cases hn : (s.at a).needAck
        · rw [hn] at hk; simpa using hk
        · rw [hn] at hk; simpa using hk

/-- The frames released by an acknowledgement. -/
theorem mem_releaseAcked (s : St) (a b : Nat) : .frame b ∈ releaseAcked s a ↔ .frame b ∈ s.live ∧ b ≠ a := by
  unfold releaseAcked
  rw [mem_pbfree]
  split
  · simp
  · split
    · simp
    · rw [mem_pbfree]; simp

/-- The loop runs through if all frames on the list are there. -/
theorem ackLoop_some (l : List Nat) : ∀ (s : St), (∀ a ∈ l, .frame a ∈ s.live) → l.Nodup →
    ∃ s', ackLoop l s = some s' ∧ s'.yetack = [] ∧ s'.send = s.send ∧ s'.next = s.next ∧ s'.count = s.count - l.length ∧
      (∀ b, .frame b ∈ s'.live ↔ .frame b ∈ s.live ∧ b ∉ l) ∧
      (∀ b, (s'.at b).kind = (s.at b).kind ∧ (s'.at b).needAck = (s.at b).needAck ∧ (s'.at b).payload = (s.at b).payload) := by
  induction l with
  | nil => intro s _ _; exact ⟨_, rfl, rfl, rfl, rfl, by simp, by simp, by simp⟩
  | cons a rest ih =>
    intro s hl hnd
    obtain ⟨hn, hnd'⟩ := List.nodup_cons.1 hnd
    have hla := hl a List.mem_cons_self
    obtain ⟨s', e, h1, h2, h3, h4, h5, h6⟩ := ih
      { s with peer := ackPayload s.peer (s.at a).payload,
               «at» := fun b => if b = a then { s.at a with moved := !(s.at a).payload.isEmpty } else s.at b,
               live := releaseAcked { s with peer := ackPayload s.peer (s.at a).payload, «at» := fun b => if b = a then { s.at a with moved := !(s.at a).payload.isEmpty } else s.at b } a,
               count := s.count - 1 }
      (fun b hb => by
        rw [mem_releaseAcked]
        exact ⟨hl b (List.mem_cons_of_mem _ hb), fun he => hn (he ▸ hb)⟩) hnd'
    refine ⟨s', ?_, h1, h2, h3, ?_, ?_, ?_⟩
    · unfold ackLoop
      rw [if_pos hla]
      exact e
    · rw [h4]; simp only [List.length_cons]; omega
    · intro b
      rw [h5 b, mem_releaseAcked]
      grind
    · intro b
      have := h6 b
      simp only at this
      by_cases hb : b = a
      · rw [if_pos hb] at this; rw [hb] at this ⊢; exact this
      · rw [if_neg hb] at this; exact this

/-- An acknowledgement that finds no SETTINGS frame waiting leaves a state in order. -/
theorem onAck_inv {s : St} {w : List Bool} (h : Inv s w) (hw : true ∉ w) :
    ∃ s', onAck s = some s' ∧ Inv s' w ∧ s'.yetack = [] := by
  unfold onAck
  by_cases hc : s.count = 0
  · rw [if_pos hc]
    refine ⟨s, rfl, h, ?_⟩
    have := h.count
    exact List.eq_nil_of_length_eq_zero (by omega)
  · rw [if_neg hc]
    obtain ⟨s', e, h1, h2, h3, h4, h5, h6⟩ := ackLoop_some s.yetack s (fun a ha => (h.liveF a).2 (.inr ha)) h.ndA
    have hdis : ∀ a ∈ s.send, a ∉ s.yetack := by
      intro a ha hy
      apply hw
      rw [← h.wait, List.mem_map]
      exact ⟨a, ha, (h.need a ha).2 hy⟩
    refine ⟨s', e, ?_, h1⟩
    constructor
    · intro a
      rw [h5, h.liveF, h1, h2]
      have := hdis a
      grind
    · intro a ha; rw [h3]; exact h.lt a ((h5 a).1 ha).1
    · rw [h2]; exact h.nd
    · rw [h1]; exact List.nodup_nil
    · intro a ha
      rw [h2] at ha
      rw [h1, (h6 a).2.1, h.need a ha]
      have := hdis a ha
      simp [this]
    · intro a ha
      rw [h2] at ha
      rw [(h6 a).1, (h6 a).2.1]; exact h.kind a ha
    · rw [h4, h1, h.count]; simp
    · rw [h2, ← h.wait]
      exact List.map_congr_left fun a _ => (h6 a).2.1

theorem told_append (h : List Step) : ∀ w h', told w (h ++ h') = told w h ++ told (waitsAll w h) h' := by
  induction h with
  | nil => intro w h'; rfl
  | cons x h ih =>
    intro w h'
    cases x <;> simp only [List.cons_append, told, waitsAll, List.foldl_cons] <;> rw [ih] <;> simp [waits, waitsAll]

/-- A calm history runs through. -/
theorem run_calm (env : List (Nat × Nat)) (h : List Step) : ∀ {s : St} {w : List Bool}, Inv s w → Calm w h →
    ∃ s' o, run env s h = some (s', o) ∧ Inv s' (waitsAll w h) ∧ o.map (fun x => x.kind == .settings) = told w h := by
  induction h with
  | nil => intro s w hi _; exact ⟨s, [], rfl, hi, rfl⟩
  | cons x h ih =>
    intro s w hi hc
    cases x with
    | settings l mem =>
      obtain ⟨s', o, e, i, m⟩ := ih (inv_settings hi env mem l) hc
      exact ⟨s', o, by simp only [run, step, Option.bind_some, e, Option.map_some, List.nil_append], i, m⟩
    | ack =>
      obtain ⟨s1, e1, i1, _⟩ := onAck_inv hi hc.1
      obtain ⟨s', o, e, i, m⟩ := ih i1 hc.2
      exact ⟨s', o, by simp only [run, step, e1, Option.map_some, Option.bind_some, e, List.nil_append], i, m⟩
    | other =>
      obtain ⟨s', o, e, i, m⟩ := ih (inv_enqueue hi .other [] false (by simp)) hc
      exact ⟨s', o, by simp only [run, step, Option.bind_some, e, Option.map_some, List.nil_append], i, m⟩
    | flush n =>
      obtain ⟨s1, o1, e1, i1, m1, _⟩ := flush_inv n hi
      obtain ⟨s', o, e, i, m⟩ := ih i1 hc
      refine ⟨s', o1 ++ o, by simp only [run, step, e1, Option.bind_some, e, Option.map_some], i, ?_⟩
      rw [List.map_append, m1, m]; rfl

theorem run_append (env : List (Nat × Nat)) (h h' : List Step) : ∀ (s : St),
    run env s (h ++ h') = (run env s h).bind fun r => (run env r.1 h').map fun r' => (r'.1, r.2 ++ r'.2) := by
  induction h with
  | nil =>
    intro s
    simp only [List.nil_append, run, Option.bind_some]
    cases run env s h' <;> rfl
  | cons x h ih =>
    intro s
    simp only [List.cons_append, run]
    cases step env s x with
    | none => rfl
    | some r =>
      simp only [Option.bind_some, ih]
      cases run env r.1 h with
      | none => rfl
      | some r1 =>
        simp only [Option.bind_some, Option.map_some]
        cases run env r1.1 h' with
        | none => rfl
        | some r2 => simp [List.append_assoc]

theorem calm_withoutAcks (h : List Step) : ∀ w, Calm w (withoutAcks h) := by
  induction h with
  | nil => intro w; trivial
  | cons x h ih =>
    intro w
    cases x <;> simp [withoutAcks, Calm] <;> simpa [withoutAcks] using ih _

/-- A flush fails if a frame among those to be sent is not there. -/
theorem flush_none (n : Nat) : ∀ {s : St} {b : Nat} {pre post : List Nat}, s.send = pre ++ b :: post → .frame b ∉ s.live → pre.length < n → flush n s = none := by
  induction n with
  | zero => intro s b pre post _ _ h; omega
  | succ n ih =>
    intro s b pre post hs hb hl
    cases pre with
    | nil =>
      rw [List.nil_append] at hs
      unfold flush
      simp only [hs]
      rw [if_neg hb]
    | cons a pre =>
      rw [List.cons_append] at hs
      unfold flush
      simp only [hs]
      split
      · have := ih (s := { s with send := pre ++ b :: post, live := if (s.at a).needAck then s.live else pbfree (pbfree s.live (.payload a)) (.frame a) })
          (b := b) (pre := pre) (post := post) rfl (by
            intro hm
            have hm' : Block.frame b ∈ (if (s.at a).needAck then s.live else pbfree (pbfree s.live (.payload a)) (.frame a)) := hm
            split at hm'
            · exact hb hm'
            · rw [mem_pbfree, mem_pbfree] at hm'; exact hb hm'.1.1) (by simpa using hl)
        rw [this]
      · rfl

/-! ## The peer's settings -/

theorem asked_withoutAcks (h : List Step) : ∀ p, asked p (withoutAcks h) = asked p h := by
  induction h with
  | nil => intro p; rfl
  | cons x h ih =>
    intro p
    cases x <;> simp [withoutAcks, asked] <;> simpa [withoutAcks] using ih _

theorem flush_same (n : Nat) : ∀ {s s' : St} {o : List Sent}, flush n s = some (s', o) → s'.peer = s.peer ∧ s'.at = s.at := by
  induction n with
  | zero => intro s s' o h; simp only [flush, Option.some.injEq, Prod.mk.injEq] at h; rw [← h.1]; exact ⟨rfl, rfl⟩
  | succ n ih =>
    intro s s' o h
    unfold flush at h
    cases hs : s.send with
    | nil => simp only [hs, Option.some.injEq, Prod.mk.injEq] at h; rw [← h.1]; exact ⟨rfl, rfl⟩
    | cons a rest =>
      simp only [hs] at h
      split at h
      · split at h
        · cases h
        · next r hr =>
          simp only [Option.some.injEq, Prod.mk.injEq] at h
          obtain ⟨h1, _⟩ := h
          subst h1
          exact ih (s := { s with send := rest, live := _ }) (s' := r.1) (o := r.2) hr
      · cases h

theorem ackLoop_bare (l : List Nat) : ∀ {s s' : St}, (∀ a, (s.at a).payload = []) → ackLoop l s = some s' →
    s'.peer = s.peer ∧ ∀ a, (s'.at a).payload = [] := by
  induction l with
  | nil => intro s s' hb h; simp only [ackLoop, Option.some.injEq] at h; subst h; exact ⟨rfl, hb⟩
  | cons a rest ih =>
    intro s s' hb h
    unfold ackLoop at h
    split at h
    · obtain ⟨h1, h2⟩ := ih (fun b => by
        show (if b = a then { s.at a with moved := !(s.at a).payload.isEmpty } else s.at b).payload = []
        split
        · exact hb a
        · exact hb b) h
      refine ⟨?_, h2⟩
      rw [h1]
      show ackPayload s.peer (s.at a).payload = s.peer
      rw [hb a]; rfl
    · cases h

theorem onAck_bare {s s' : St} (hb : ∀ a, (s.at a).payload = []) (h : onAck s = some s') : s'.peer = s.peer ∧ ∀ a, (s'.at a).payload = [] := by
  unfold onAck at h
  split at h
  · cases h; exact ⟨rfl, hb⟩
  · exact ackLoop_bare _ hb h

/-- Without configured settings the peer's settings are what the peer asked for. -/
theorem run_bare (h : List Step) : ∀ {s s' : St} {o : List Sent}, (∀ a, (s.at a).payload = []) → run [] s h = some (s', o) → s'.peer = asked s.peer h := by
  induction h with
  | nil => intro s s' o _ h; simp only [run, Option.some.injEq, Prod.mk.injEq] at h; rw [← h.1]; rfl
  | cons x h ih =>
    intro s s' o hb hr
    simp only [run] at hr
    cases hx : step [] s x with
    | none => rw [hx] at hr; cases hr
    | some r =>
      rw [hx, Option.bind_some] at hr
      cases hr' : run [] r.1 h with
      | none => rw [hr'] at hr; cases hr
      | some r' =>
        rw [hr'] at hr
        simp only [Option.map_some, Option.some.injEq, Prod.mk.injEq] at hr
        obtain ⟨e1, _⟩ := hr
        subst e1
        cases x with
        | settings l mem =>
          simp only [step, Option.some.injEq] at hx
          subst hx
          have := ih (s := onSettings [] mem l s) (s' := r'.1) (o := r'.2) (fun a => by
            simp only [onSettings, sendServerSettings, enqueue]
            split
            · rfl
            · split
              · simp [Fly.H2.settingsPayload]
              · exact hb a) hr'
          rw [this]; rfl
        | ack =>
          simp only [step] at hx
          cases ha : onAck s with
          | none => rw [ha] at hx; cases hx
          | some s1 =>
            rw [ha] at hx
            simp only [Option.map_some, Option.some.injEq] at hx
            subst hx
            obtain ⟨h1, h2⟩ := onAck_bare hb ha
            rw [ih h2 hr', h1]; rfl
        | other =>
          simp only [step, Option.some.injEq] at hx
          subst hx
          have := ih (s := enqueue s .other [] false) (s' := r'.1) (o := r'.2) (fun a => by
            simp only [enqueue]
            split
            · rfl
            · exact hb a) hr'
          rw [this]; rfl
        | flush n =>
          simp only [step] at hx
          obtain ⟨h1, h2⟩ := flush_same n (s' := r.1) (o := r.2) hx
          rw [ih (fun a => by rw [h2]; exact hb a) hr', h1]; rfl

/-! ## The memory of the payloads -/

/-- Payloads in memory belong to frames to be acknowledged; `k` of them. -/
structure Held (s : St) (k : Nat) : Prop where
  need : ∀ a, .payload a ∈ s.live → (s.at a).needAck = true ∧ a < s.next
  len : (s.live.filter Block.isPayload).length = k

theorem filter_pbfree_frame (l : List Block) (a : Nat) : (pbfree l (.frame a)).filter Block.isPayload = l.filter Block.isPayload := by
  induction l with
  | nil => rfl
  | cons b l ih =>
    unfold pbfree at ih ⊢
    cases b with
    | frame c =>
      by_cases hc : c = a
      · subst hc; simpa [Block.isPayload] using ih
      · simp only [List.filter_cons]
        rw [if_pos (by simp [hc])]
        simpa [Block.isPayload] using ih
    | payload c =>
      rw [List.filter_cons_of_pos (by simp)]
      rw [List.filter_cons_of_pos (by rfl), List.filter_cons_of_pos (by rfl), ih]

theorem pbfree_absent (l : List Block) (b : Block) (h : b ∉ l) : pbfree l b = l := by
  unfold pbfree
  apply List.filter_eq_self.2
  intro c hc
  simp only [ne_eq, decide_eq_true_eq]
  exact fun he => h (he ▸ hc)

theorem held_flush (n : Nat) : ∀ {s s' : St} {o : List Sent} {k : Nat}, Held s k → flush n s = some (s', o) → Held s' k := by
  induction n with
  | zero => intro s s' o k h e; simp only [flush, Option.some.injEq, Prod.mk.injEq] at e; rw [← e.1]; exact h
  | succ n ih =>
    intro s s' o k h e
    unfold flush at e
    cases hs : s.send with
    | nil => simp only [hs, Option.some.injEq, Prod.mk.injEq] at e; rw [← e.1]; exact h
    | cons a rest =>
      simp only [hs] at e
      split at e
      · split at e
        · cases e
        · next r hr =>
          simp only [Option.some.injEq, Prod.mk.injEq] at e
          obtain ⟨h1, _⟩ := e
          subst h1
          refine ih (s := { s with send := rest, live := _ }) (s' := r.1) (o := r.2) ?_ hr
          cases hn : (s.at a).needAck
          · have habs : Block.payload a ∉ s.live := fun hm => by have := (h.need a hm).1; rw [hn] at this; cases this
            constructor
            · intro b hb
              simp only [hn] at hb
              rw [if_neg (by simp), mem_pbfree, mem_pbfree] at hb
              exact h.need b hb.1.1
            · simp only [hn]
              rw [if_neg (by simp), filter_pbfree_frame, pbfree_absent _ _ habs]
              exact h.len
          · constructor
            · intro b hb
              simp only [hn, if_true] at hb
              exact h.need b hb
            · simp only [hn, if_true]; exact h.len
      · cases e

theorem held_releaseAcked (s : St) (a : Nat) (hm : (s.at a).payload.isEmpty = false → (s.at a).moved = true) :
    releaseAcked s a = pbfree s.live (.frame a) := by
  unfold releaseAcked
  cases he : (s.at a).payload.isEmpty with
  | true => simp
  | false => simp [hm he]

theorem held_ackLoop (l : List Nat) : ∀ {s s' : St} {k : Nat}, Held s k → ackLoop l s = some s' → Held s' k := by
  induction l with
  | nil => intro s s' k h e; simp only [ackLoop, Option.some.injEq] at e; subst e; exact ⟨h.need, h.len⟩
  | cons a rest ih =>
    intro s s' k h e
    unfold ackLoop at e
    split at e
    · refine ih ?_ e
      have hr := held_releaseAcked
        { s with peer := ackPayload s.peer (s.at a).payload, «at» := fun b => if b = a then { s.at a with moved := !(s.at a).payload.isEmpty } else s.at b } a
        (by
          simp only [if_true]
          intro he
          rw [he]; rfl)
      constructor
      · intro b hb
        have hb' : Block.payload b ∈ releaseAcked _ a := hb
        rw [hr, mem_pbfree] at hb'
        have := h.need b hb'.1
        refine ⟨?_, this.2⟩
        show (if b = a then { s.at a with moved := !(s.at a).payload.isEmpty } else s.at b).needAck = true
        split
        · next hba => rw [← hba]; exact this.1
        · exact this.1
      · show ((releaseAcked _ a).filter Block.isPayload).length = k
        rw [hr, filter_pbfree_frame]
        exact h.len
    · cases e

theorem held_enqueue {s : St} {k : Nat} (h : Held s k) (kd : Kind) (pl : Bytes) (na : Bool) (hp : pl.isEmpty = false → na = true) :
    Held (enqueue s kd pl na) (if pl.isEmpty then k else k + 1) := by
  constructor
  · intro a ha
    simp only [enqueue, List.mem_cons, List.mem_append] at ha ⊢
    by_cases hn : a = s.next
    · rw [if_pos hn]
      refine ⟨?_, by omega⟩
      cases he : pl.isEmpty with
      | true =>
        rw [he] at ha
        simp only [if_true, List.not_mem_nil, false_or] at ha
        rcases ha with ha | ha
        · cases ha
        · have := (h.need a ha).2; omega
      | false => exact hp he
    · rw [if_neg hn]
      have : Block.payload a ∈ s.live := by
        rcases ha with ha | ha | ha
        · cases ha
        · cases he : pl.isEmpty with
          | true => rw [he] at ha; simp at ha
          | false => rw [he] at ha; simp at ha; exact absurd ha hn
        · exact ha
      exact ⟨(h.need a this).1, by have := (h.need a this).2; omega⟩
  · simp only [enqueue]
    rw [List.filter_cons_of_neg (by simp [Block.isPayload]), List.filter_append, List.length_append, h.len]
    cases pl.isEmpty
    · simp only [Bool.false_eq_true, if_false]
      rw [List.filter_cons_of_pos (by rfl)]
      simp only [List.filter_nil, List.length_singleton]
      omega
    · simp

theorem settingsPayload_length (env : List (Nat × Nat)) : ∀ mem : Bytes, 6 ≤ mem.length → (Fly.H2.settingsPayload mem env).length = mem.length := by
  induction env with
  | nil => intro mem _; rfl
  | cons p env ih =>
    intro mem hm
    have hl : (Fly.Buffer.writeAt mem 0 (Fly.H2.settingBytes p.1 p.2)).length = mem.length := by
      simp [Fly.Buffer.writeAt, Fly.H2.settingBytes, Fly.H2.toBE]; omega
    show (Fly.H2.settingsPayload (Fly.Buffer.writeAt mem 0 (Fly.H2.settingBytes p.1 p.2)) env).length = mem.length
    rw [ih _ (by omega), hl]

theorem run_held (env : List (Nat × Nat)) (hne : env ≠ []) (h : List Step) : ∀ {s s' : St} {o : List Sent} {k : Nat}, Held s k → Roomy env h →
    run env s h = some (s', o) → Held s' (k + h.countP Step.isSettings) := by
  induction h with
  | nil => intro s s' o k hk _ h; simp only [run, Option.some.injEq, Prod.mk.injEq] at h; rw [← h.1]; simpa using hk
  | cons x h ih =>
    intro s s' o k hk hro hr
    have hro' : Roomy env h := fun y hy => hro y (List.mem_cons_of_mem _ hy)
    simp only [run] at hr
    cases hx : step env s x with
    | none => rw [hx] at hr; cases hr
    | some r =>
      rw [hx, Option.bind_some] at hr
      cases hr' : run env r.1 h with
      | none => rw [hr'] at hr; cases hr
      | some r' =>
        rw [hr'] at hr
        simp only [Option.map_some, Option.some.injEq, Prod.mk.injEq] at hr
        obtain ⟨e1, _⟩ := hr
        subst e1
        cases x with
        | settings l mem =>
          simp only [step, Option.some.injEq] at hx
          subst hx
          have hm : 6 * env.length ≤ mem.length := hro _ List.mem_cons_self
          have hpos : 0 < env.length := List.length_pos_iff.2 hne
          have hpl : (Fly.H2.settingsPayload (mem.take (6 * env.length)) env).isEmpty = false := by
            have := settingsPayload_length env (mem.take (6 * env.length)) (by rw [List.length_take]; omega)
            rw [List.length_take] at this
            cases hq : Fly.H2.settingsPayload (mem.take (6 * env.length)) env with
            | nil => rw [hq] at this; simp at this; omega
            | cons => rfl
          have h1 := held_enqueue hk .settings (Fly.H2.settingsPayload (mem.take (6 * env.length)) env) true (fun _ => rfl)
          rw [hpl] at h1
          simp only [Bool.false_eq_true, if_false] at h1
          have h2 := held_enqueue (s := { sendServerSettings env mem s with peer := (peerSettings s.peer l).1 }) ⟨h1.need, h1.len⟩
            (if (peerSettings s.peer l).2 then .settingsAck else .other) [] false (by simp)
          simp only [List.isEmpty_nil, if_true] at h2
          have := ih (s := onSettings env mem l s) h2 hro' hr'
          rw [List.countP_cons_of_pos (by rfl)]
          rw [show k + (h.countP Step.isSettings + 1) = k + 1 + h.countP Step.isSettings by omega]
          exact this
        | ack =>
          simp only [step] at hx
          cases ha : onAck s with
          | none => rw [ha] at hx; cases hx
          | some s1 =>
            rw [ha] at hx
            simp only [Option.map_some, Option.some.injEq] at hx
            subst hx
            have h1 : Held s1 k := by
              unfold onAck at ha
              split at ha
              · cases ha; exact hk
              · exact held_ackLoop _ hk ha
            rw [List.countP_cons_of_neg (by simp [Step.isSettings])]
            exact ih h1 hro' hr'
        | other =>
          simp only [step, Option.some.injEq] at hx
          subst hx
          have h1 := held_enqueue hk .other [] false (by simp)
          rw [List.countP_cons_of_neg (by simp [Step.isSettings])]
          exact ih h1 hro' hr'
        | flush n =>
          simp only [step] at hx
          have h1 := held_flush n (s' := r.1) (o := r.2) hk hx
          rw [List.countP_cons_of_neg (by simp [Step.isSettings])]
          exact ih h1 hro' hr'

/-- Without configured settings no payload is ever allocated. -/
theorem no_payload_step {s s' : St} {o : List Sent} (x : Step) (h : ∀ a, .payload a ∉ s.live) (hx : step [] s x = some (s', o)) : ∀ a, .payload a ∉ s'.live := by
  have hh : Held s 0 := ⟨fun a ha => absurd ha (h a), by
    rw [List.length_eq_zero_iff, List.filter_eq_nil_iff]
    intro b hb
    cases b with
    | frame c => simp [Block.isPayload]
    | payload c => exact absurd hb (h c)⟩
  have key : ∀ {t : St}, Held t 0 → ∀ a, .payload a ∉ t.live := by
    intro t ht a ha
    have := ht.len
    rw [List.length_eq_zero_iff, List.filter_eq_nil_iff] at this
    exact this _ ha rfl
  cases x with
  | settings l mem =>
    simp only [step, Option.some.injEq, Prod.mk.injEq] at hx
    obtain ⟨hx, _⟩ := hx
    subst hx
    have h1 := held_enqueue hh .settings (Fly.H2.settingsPayload (mem.take (6 * ([] : List (Nat × Nat)).length)) []) true (fun _ => rfl)
    have he : (Fly.H2.settingsPayload (mem.take (6 * ([] : List (Nat × Nat)).length)) []).isEmpty = true := by simp [Fly.H2.settingsPayload]
    rw [if_pos he] at h1
    have h2 := held_enqueue (s := { sendServerSettings [] mem s with peer := (peerSettings s.peer l).1 }) ⟨h1.need, h1.len⟩
      (if (peerSettings s.peer l).2 then .settingsAck else .other) [] false (by simp)
    exact key h2
  | ack =>
    simp only [step] at hx
    cases ha : onAck s with
    | none => rw [ha] at hx; cases hx
    | some s1 =>
      rw [ha] at hx
      simp only [Option.map_some, Option.some.injEq, Prod.mk.injEq] at hx
      obtain ⟨hx, _⟩ := hx
      subst hx
      apply key
      unfold onAck at ha
      split at ha
      · cases ha; exact hh
      · exact held_ackLoop _ hh ha
  | other =>
    simp only [step, Option.some.injEq, Prod.mk.injEq] at hx
    obtain ⟨hx, _⟩ := hx
    subst hx
    exact key (held_enqueue hh .other [] false (by simp))
  | flush n =>
    simp only [step] at hx
    exact key (held_flush n hh hx)

theorem no_payload (h : List Step) : ∀ {s s' : St} {o : List Sent}, (∀ a, .payload a ∉ s.live) → run [] s h = some (s', o) → ∀ a, .payload a ∉ s'.live := by
  induction h with
  | nil => intro s s' o hs h; simp only [run, Option.some.injEq, Prod.mk.injEq] at h; rw [← h.1]; exact hs
  | cons x h ih =>
    intro s s' o hs hr
    simp only [run] at hr
    cases hx : step [] s x with
    | none => rw [hx] at hr; cases hr
    | some r =>
      rw [hx, Option.bind_some] at hr
      cases hr' : run [] r.1 h with
      | none => rw [hr'] at hr; cases hr
      | some r' =>
        rw [hr'] at hr
        simp only [Option.map_some, Option.some.injEq, Prod.mk.injEq] at hr
        rw [← hr.1]
        exact ih (no_payload_step x (s' := r.1) (o := r.2) hs hx) (s' := r'.1) (o := r'.2) hr'

end Fly.H2A
