import Verif.H2Wire.Spec
import Verif.H2Frame.Props
import Verif.H2Stream.Props
import Verif.Conf.Lemmas
import Verif.H2Trip.Lemmas

set_option linter.all false

namespace Fly.H2Wire
open Buffer (Cursor NE advance)
open H2S (Out)
open H2 (wireHeader wireSettings)
open Header (Pairs)
open Hpack (DTab Entry)
open Site (Site)

/-! ## Places -/

theorem go_behind : ∀ (rs : List Bytes) (l : Nat) (p : Cursor), 1 ≤ l → advance.go l rs = some p →
    p.cur ≠ [] ∧ ∃ a b, rs = a ++ (b ++ p.cur) :: p.rest ∧ (a.flatten ++ b).length = l - 1
  | [], l, p, hl, h => by simp [advance.go] at h
  | r :: rs, l, p, hl, h => by
    unfold advance.go at h
    by_cases hr : l ≤ r.length
    · rw [if_pos hr] at h
      injection h with h
      subst h
      refine ⟨?_, [], r.take (l - 1), by simp, by simp; omega⟩
      intro he
      have := congrArg List.length he
      simp at this; omega
    · rw [if_neg hr] at h
      obtain ⟨h1, a, b, h2, h3⟩ := go_behind rs (l - r.length) p (by omega) h
      refine ⟨h1, r :: a, b, by rw [h2]; rfl, ?_⟩
      simp only [List.flatten_cons, List.length_append] at h3 ⊢
      omega

theorem advance_behind {c p : Cursor} {n : Nat} (h : advance c n = some p) : Behind n c p := by
  unfold advance at h
  by_cases hn : n < c.cur.length
  · rw [if_pos hn] at h
    injection h with h
    subst h
    refine ⟨?_, [], c.cur.take n, by simp, by simp; omega⟩
    intro he
    have := congrArg List.length he
    simp at this; omega
  · rw [if_neg hn] at h
    obtain ⟨h1, a, b, h2, h3⟩ := go_behind _ _ _ (by omega) h
    refine ⟨h1, c.cur :: a, b, by rw [h2]; rfl, ?_⟩
    simp only [List.flatten_cons, List.length_append] at h3 ⊢
    omega

theorem go_of_behind : ∀ (a : List Bytes) (b : Bytes) (p : Cursor) (l : Nat), p.cur ≠ [] → (a.flatten ++ b).length + 1 = l →
    advance.go l (a ++ (b ++ p.cur) :: p.rest) = some p
  | [], b, p, l, hp, hl => by
    have := List.length_pos_iff.2 hp
    simp only [List.flatten_nil, List.nil_append] at hl
    simp only [List.nil_append, advance.go]
    rw [if_pos (by rw [List.length_append]; omega), ← hl]
    simp
  | r :: a, b, p, l, hp, hl => by
    simp only [List.flatten_cons, List.length_append] at hl
    simp only [List.cons_append, advance.go]
    rw [if_neg (by omega)]
    exact go_of_behind a b p _ hp (by simp only [List.length_append]; omega)

theorem behind_advance {c p : Cursor} {n : Nat} (h : Behind n c p) : advance c n = some p := by
  obtain ⟨hp, a, b, h1, h2⟩ := h
  unfold advance
  cases a with
  | nil =>
    simp only [List.nil_append, List.cons.injEq] at h1
    simp only [List.flatten_nil, List.nil_append] at h2
    have := List.length_pos_iff.2 hp
    rw [if_pos (by rw [h1.1, List.length_append]; omega), h1.1, h1.2, ← h2]
    simp
  | cons x a =>
    simp only [List.cons_append, List.cons.injEq] at h1
    simp only [List.flatten_cons, List.length_append] at h2
    rw [if_neg (by rw [h1.1]; omega), h1.2]
    exact go_of_behind a b p _ hp (by rw [h1.1, List.length_append]; omega)

theorem behind_unique {c p q : Cursor} {n : Nat} (h : Behind n c p) (h' : Behind n c q) : p = q := by
  have := (behind_advance h).symm.trans (behind_advance h')
  injection this

theorem behind_trans {c p q : Cursor} {n m : Nat} (h : Behind n c p) (h' : Behind m p q) : Behind (n + m) c q := by
  obtain ⟨hp, a, b, h1, h2⟩ := h
  obtain ⟨hq, a', b', h3, h4⟩ := h'
  refine ⟨hq, ?_⟩
  cases a' with
  | nil =>
    simp only [List.nil_append, List.cons.injEq] at h3
    refine ⟨a, b ++ b', by rw [h1, h3.1, h3.2]; simp, ?_⟩
    simp only [List.flatten_nil, List.nil_append, List.length_append] at h2 h4 ⊢
    omega
  | cons x a' =>
    simp only [List.cons_append, List.cons.injEq] at h3
    refine ⟨a ++ (b ++ p.cur) :: a', b', by rw [h1, h3.2]; simp, ?_⟩
    have := congrArg List.length h3.1
    simp only [List.flatten_append, List.flatten_cons, List.length_append] at h2 h4 ⊢
    omega

theorem takeSlow_behind : ∀ (n : Nat) (c : Cursor) (x : Bytes) (r : Cursor), c.cur ≠ [] → H2.takeSlow n c = some (x, some r) → Behind n c r
  | 0, c, x, r, hc, h => by
    simp only [H2.takeSlow, Option.some.injEq, Prod.mk.injEq] at h
    rw [← h.2]
    exact ⟨hc, [], [], rfl, rfl⟩
  | n + 1, c, x, r, hc, h => by
    unfold H2.takeSlow at h
    cases hcur : c.cur with
    | nil => exact absurd hcur hc
    | cons y t =>
      rw [hcur] at h
      simp only at h
      cases ha : advance c 1 with
      | none =>
        rw [ha] at h
        simp only at h
        by_cases hn : n = 0
        · rw [if_pos hn] at h; simp at h
        · rw [if_neg hn] at h; simp at h
      | some c' =>
        rw [ha] at h
        simp only [Option.map_eq_some_iff, Prod.mk.injEq] at h
        obtain ⟨⟨x', r'⟩, h1, h2, h3⟩ := h
        simp only at h3
        subst h3
        have := behind_trans (advance_behind ha) (takeSlow_behind n c' x' r (advance_behind ha).1 h1)
        rwa [Nat.add_comm] at this

theorem takeN_behind {n : Nat} {c : Cursor} {x : Bytes} {r : Cursor} (hc : c.cur ≠ []) (h : H2.takeN n c = some (x, some r)) : Behind n c r := by
  unfold H2.takeN at h
  by_cases hn : c.cur.length ≤ n
  · rw [if_pos hn] at h; exact takeSlow_behind n c x r hc h
  · rw [if_neg hn] at h
    injection h with h
    injection h with h1 h2
    injection h2 with h2
    subst h2
    refine ⟨?_, [], c.cur.take n, by simp, by simp; omega⟩
    intro he
    have := congrArg List.length he
    simp at this; omega

theorem payloadOf_advance (c : Cursor) : H2.payloadOf c = advance c 9 := by
  unfold H2.payloadOf
  by_cases h : c.cur.length ≤ 9
  · rw [if_pos h]
  · rw [if_neg h]
    unfold advance
    rw [if_pos (by omega)]

/-- A 31 bit number is read, whatever it is, and the pointer is behind it. -/
theorem read31_behind (c : Cursor) (h : NE c) (hl : 4 < c.flat.length) : ∃ v p, H2.read31 c = some (v, some p) ∧ NE p ∧ p.flat = c.flat.drop 4 ∧ Behind 4 c p := by
  unfold H2.read31
  by_cases hc : c.cur.length ≤ 4
  · rw [if_pos hc]
    obtain ⟨r, h1, h2⟩ := H2.takeSlow_spec 4 c h (by omega)
    obtain ⟨p, rfl, hp, hf⟩ := h2 hl
    match hfl : c.flat, hl with
    | a :: b :: d :: e :: y :: t, _ =>
      rw [hfl] at h1
      refine ⟨_, p, by rw [h1]; rfl, hp, by rw [hf, hfl], takeSlow_behind 4 c _ p h.cur h1⟩
  · rw [if_neg hc]
    match hcur : c.cur with
    | [] | [_] | [_, _] | [_, _, _] | [_, _, _, _] => rw [hcur] at hc; simp at hc
    | a :: b :: d :: e :: y :: t =>
      refine ⟨_, ⟨y :: t, c.rest⟩, rfl, ⟨by simp, h.rest⟩, ?_, by simp, [], [a, b, d, e], by simp [hcur], rfl⟩
      simp [Cursor.flat, hcur]

/-! ## Frame headers -/

theorem headOf_frame {c : Cursor} {type flags sid : Nat} {payload : Bytes} (h : Holds c type flags sid payload) :
    ∃ p rest, headOf c = some ⟨payload.length, type, flags, sid, some p⟩ ∧ NE p ∧ p.flat = payload ++ rest ∧ rest ≠ [] ∧ Behind 9 c p := by
  obtain ⟨hne, hs, hl, r, rest, hr, hf⟩ := h
  rw [List.append_assoc] at hf
  obtain ⟨h1, h2, h3, h4, _⟩ := H2.C07_read_header payload.length type flags sid r (payload ++ rest) (by omega) hs c ⟨hne.cur, hne.rest⟩ hf
  have hlen : 9 < c.flat.length := by
    have : c.flat.length = (wireHeader payload.length type flags r sid ++ (payload ++ rest)).length := congrArg List.length hf
    have hrl := List.length_pos_iff.2 hr
    rw [this]
    simp only [List.length_append, wireHeader, List.length_cons, List.length_nil]
    omega
  obtain ⟨p, e1, e2, e3⟩ := H2.payloadOf_spec c hne hlen
  refine ⟨p, rest, ?_, e2, ?_, hr, advance_behind (by rw [← payloadOf_advance]; exact e1)⟩
  · unfold headOf
    rw [h1, h2, h3, h4, e1]
  · have hf : c.flat = _ := hf
    rw [e3, hf]; rfl

/-- What a frame does to a connection on which it may come now. -/
theorem step_eq (s : Site) (k : H2Trip.Conn) (l : Link) (a : Arrival) (hg : l.c.goaway = false) (he : l.c.ended = false) {h : Head} (hh : headOf a.place = some h)
    {f : H2S.Frame} {t : DTab} {set : H2.Settings} (hd : decode l h = some (f, t, set)) {c c' : H2S.Conn} {os : List Out} (hs : H2S.stepFrame l.c f = some (c, os))
    (hf : fresh l h.sid c = c') {rs : List (Nat × Bytes)} (ha : answers s k t ⟨a, windows c' h.sid⟩ os = some rs) :
    step s k l a = some (⟨closeAll { c' with window := c'.window - (drawn s k t ⟨a, windows c' h.sid⟩ os : Nat) } rs, t, set⟩, os, rs) ∧ winAt l a = windows c' h.sid := by
  have ht : turn l a = some (⟨c', t, set⟩, os, h.sid) := by
    unfold turn
    simp only [hh, hd, hs, hf]
  have hw : winAt l a = windows c' h.sid := by unfold winAt; rw [ht]
  refine ⟨?_, hw⟩
  unfold step
  rw [hw, ht]
  simp only [hg, he, ha]
  rfl

/-- Nothing is asked for. -/
def Quiet (o : Out) : Prop := ∀ sid hs b d, o ≠ Out.dispatch sid hs b d

theorem quiet_answers (s : Site) (k : H2Trip.Conn) (t : DTab) (a : At) : ∀ os : List Out, (∀ o ∈ os, Quiet o) → answers s k t a os = some [] ∧ drawn s k t a os = 0
  | [], _ => ⟨rfl, rfl⟩
  | o :: os, h => by
    have ih := quiet_answers s k t a os fun o ho => h o (by simp [ho])
    have ho := h o (by simp)
    cases o
    case dispatch sid hs b d => exact absurd rfl (ho sid hs b d)
    all_goals exact ih

/-- A frame of a stream that is there, to which no response follows. -/
theorem step_quiet (s : Site) (k : H2Trip.Conn) (l : Link) (a : Arrival) (hg : l.c.goaway = false) (he : l.c.ended = false) {h : Head} (hh : headOf a.place = some h)
    {f : H2S.Frame} {t : DTab} {set : H2.Settings} (hd : decode l h = some (f, t, set)) {c : H2S.Conn} {os : List Out} (hs : H2S.stepFrame l.c f = some (c, os))
    (hf : (H2S.search l.c h.sid).isSome) (hq : ∀ o ∈ os, Quiet o) : step s k l a = some (⟨c, t, set⟩, os, []) := by
  have hfr : fresh l h.sid c = c := by unfold fresh; rw [if_pos hf]
  obtain ⟨q1, q2⟩ := quiet_answers s k t ⟨a, windows c h.sid⟩ os hq
  have := (step_eq s k l a hg he hh hd hs hfr q1).1
  rw [q2] at this
  simpa [closeAll] using this

/-- The window of a new stream. -/
theorem fresh_open {l : Link} {sid : Nat} (hs0 : sid ≠ 0) {ss : List H2S.Stream} (h : ∀ t ∈ l.c.streams, t.id ≠ sid) (hss : ∀ t ∈ ss, t.id ≠ sid) {c : H2S.Conn} {st : H2S.Stream}
    (hc : c.streams = ss ++ [st]) (hid : st.id = sid) {w : Int} (hw : st.window + ((l.set.initialWindowSize : Int) - 65535) = w) :
    fresh l sid c = { c with streams := ss ++ [{ st with window := w }] } := by
  have hn : H2S.search l.c sid = none := by
    unfold H2S.search
    rw [if_neg hs0, List.find?_eq_none]
    intro t ht; simpa using h t ht
  unfold fresh
  rw [hn, if_neg (by simp), hc, List.map_append]
  congr 2
  · conv => rhs; rw [← List.map_id ss]
    refine List.map_congr_left fun t ht => ?_
    rw [if_neg (hss t ht)]; rfl
  · simp [hid, hw]

theorem windows_of {c : H2S.Conn} {sid : Nat} (hs0 : sid ≠ 0) {a b : List H2S.Stream} {st : H2S.Stream} (hc : c.streams = a ++ st :: b) (ha : ∀ t ∈ a, t.id ≠ sid) (hid : st.id = sid) :
    windows c sid = ⟨st.window, c.window⟩ := by
  have hn : a.find? (fun s => s.id == sid) = none := by
    rw [List.find?_eq_none]
    intro t ht; simpa using ha t ht
  unfold windows H2S.search
  rw [if_neg hs0, hc, List.find?_append, hn]
  simp [hid]

/-! ## Control frames -/

/-- A connection on which frames are read. -/
structure Up (mb : Nat) (c : H2S.Conn) : Prop where
  goaway : c.goaway = false
  ended : c.ended = false
  comm : c.comm = true
  maxConc : c.maxConc = none
  maxFrame : c.maxFrame = 16384
  maxBody : c.maxBody = mb
  root : c.root.id = 0

theorem foldl_settings : ∀ (l : List (Nat × Nat)) (s : H2.Settings), (∀ p ∈ l, Setting p) → ∃ s', l.foldl H2.stepSetting (.ok s) = .ok s'
  | [], s, _ => ⟨s, rfl⟩
  | p :: l, s, h => by
    obtain ⟨id, v⟩ := p
    have hp := h (id, v) (by simp)
    have : ∃ s', H2.applySetting s id v = .ok s' := by
      obtain ⟨_, _, h2, h4, h5, h6⟩ := hp
      simp only at h2 h4 h5 h6
      unfold H2.applySetting
      split
      · exact ⟨_, rfl⟩
      split
      · next h => rw [if_pos (by have := h2 h; omega)]; exact ⟨_, rfl⟩
      split
      · exact ⟨_, rfl⟩
      split
      · next h => rw [if_neg (by have := h4 h; unfold H2.windowSizeMax; omega)]; exact ⟨_, rfl⟩
      split
      · split <;> exact ⟨_, rfl⟩
      split
      · next h => rw [if_pos (by have := h6 h; unfold H2.frameSizeDefault H2.frameSizeMax; omega)]; exact ⟨_, rfl⟩
      · exact ⟨_, rfl⟩
    obtain ⟨s', hs'⟩ := this
    simp only [List.foldl_cons, H2.stepSetting, hs']
    exact foldl_settings l s' fun q hq => h q (by simp [hq])

theorem foldl_bad (s' : H2.Settings) : ∀ (l : List (Nat × Nat)) (r : H2.SettingsResult), (∀ s, r ≠ .ok s) → l.foldl H2.stepSetting r ≠ .ok s'
  | [], r, h => h s'
  | p :: l, r, h => by
    rw [List.foldl_cons]
    refine foldl_bad s' l _ ?_
    cases r with
    | ok s => exact absurd rfl (h s)
    | _ => simp [H2.stepSetting]

/-- Settings other than that of the window leave it as it is. -/
theorem foldl_same : ∀ (l : List (Nat × Nat)) (s s' : H2.Settings), (∀ p ∈ l, p.1 ≠ 4) → l.foldl H2.stepSetting (.ok s) = .ok s' →
    s'.initialWindowSize = s.initialWindowSize ∧ s'.windowSize = s.windowSize
  | [], s, s', _, e => by
    simp only [List.foldl_nil, H2.SettingsResult.ok.injEq] at e
    rw [e]; exact ⟨rfl, rfl⟩
  | (id, v) :: l, s, s', h, e => by
    have h4 := h (id, v) (by simp)
    simp only at h4
    rw [List.foldl_cons] at e
    simp only [H2.stepSetting] at e
    cases ha : H2.applySetting s id v with
    | ok m =>
      rw [ha] at e
      obtain ⟨i1, i2⟩ := foldl_same l m s' (fun q hq => h q (by simp [hq])) e
      have hm : m.initialWindowSize = s.initialWindowSize ∧ m.windowSize = s.windowSize := by
        unfold H2.applySetting at ha
        rw [if_neg h4] at ha
        repeat' split at ha
        all_goals first | (injection ha with ha; rw [← ha]; exact ⟨rfl, rfl⟩) | cases ha
      exact ⟨i1.trans hm.1, i2.trans hm.2⟩
    | protocolError => rw [ha] at e; exact absurd e (foldl_bad s' l _ (by simp))
    | flowControlError => rw [ha] at e; exact absurd e (foldl_bad s' l _ (by simp))

/-- The window told by the first settings. -/
theorem foldl_starts {ss : List (Nat × Nat)} {init : Nat} (h : Starts ss init) (hs : ∀ p ∈ ss, Setting p) {s s' : H2.Settings} (h1 : s.initialWindowSize = 65535)
    (h2 : s.windowSize = 65535) (e : ss.foldl H2.stepSetting (.ok s) = .ok s') : s'.initialWindowSize = init := by
  rcases h with ⟨h, rfl⟩ | ⟨a, b, rfl, h⟩
  · rw [(foldl_same ss s s' h e).1, h1]
  · rw [List.foldl_append, List.foldl_cons] at e
    obtain ⟨m, hm⟩ := foldl_settings a s fun p hp => hs p (by simp [hp])
    rw [hm] at e
    obtain ⟨m1, m2⟩ := foldl_same a s m (fun p hp => h p (by simp [hp])) hm
    obtain ⟨_, hv, _, h4, _⟩ := hs (4, init) (by simp)
    have h4 := h4 rfl
    simp only at h4 hv
    have ha : H2.applySetting m 4 init = .ok { m with initialWindowSize := init } := by
      unfold H2.applySetting
      simp only [show (4 : Nat) ≠ 1 by decide, show (4 : Nat) ≠ 2 by decide, show (4 : Nat) ≠ 3 by decide, if_true, if_false]
      rw [if_neg (by unfold H2.windowSizeMax; omega), m1, m2, h1, h2]
      congr 2
      unfold H2.toU32
      omega
    simp only [H2.stepSetting, ha] at e
    exact (foldl_same b _ s' (fun p hp => h p (by simp [hp])) e).1

theorem wireSettings_length : ∀ l : List (Nat × Nat), (wireSettings l).length = 6 * l.length
  | [] => rfl
  | (_, _) :: l => by simp only [wireSettings, List.length_append, wireSettings_length l, List.length_cons, List.length_nil]; omega

/-- Settings, also the first of a connection. -/
theorem settings_step (s : Site) (k : H2Trip.Conn) (l : Link) (a : Arrival) (hg : l.c.goaway = false) (he : l.c.ended = false) (hm : l.c.maxFrame = 16384) (h0 : l.c.root.id = 0)
    (ss : List (Nat × Nat)) (h : Holds a.place 4 0 0 (wireSettings ss)) (hs : ∀ p ∈ ss, Setting p) :
    ∃ set, step s k l a = some (⟨{ l.c with comm := true }, l.t, set⟩, [.settingsAck], []) ∧ ss.foldl H2.stepSetting (.ok l.set) = .ok set := by
  have hlen := h.2.2.1
  obtain ⟨p, rest, e1, e2, e3, e4, _⟩ := headOf_frame h
  obtain ⟨set, hset⟩ := foldl_settings ss l.set hs
  have hp := H2.peerSettings_ok l.set ss (some p) rest ⟨p, rfl, e2, by
    rw [e3, H2.wireSettings_eq ss fun q hq => ⟨(hs q hq).1, (hs q hq).2.1⟩]⟩ e4 (fun q hq => ⟨(hs q hq).1, (hs q hq).2.1⟩)
  refine ⟨set, ?_, hset⟩
  have hd : decode l ⟨(wireSettings ss).length, 4, 0, 0, some p⟩ = some ({ type := 4, flags := 0, sid := 0, length := (wireSettings ss).length }, l.t, set) := by
    have hla : looksAt l.c ⟨(wireSettings ss).length, 4, 0, 0, some p⟩ = true := by simp [looksAt, H2S.search]
    unfold decode
    simp only [hla, Bool.not_true, Bool.false_eq_true, if_false]
    rw [if_neg (by decide), wireSettings_length, show (6 * ss.length + 5) / 6 = ss.length by omega, hp, hset]
    rfl
  have hst : H2S.stepFrame l.c { type := 4, flags := 0, sid := 0, length := (wireSettings ss).length } = some ({ l.c with comm := true }, [.settingsAck]) := by
    rw [H2S.stepFrame_eq _ _ hg he, if_neg (by rw [hm]; simpa using hlen)]
    have h6 : (wireSettings ss).length % 6 = 0 := by rw [wireSettings_length]; omega
    simp [H2S.stepRest, H2S.search, H2S.process, H2S.handle, H2S.onSettings, H2S.Ctx.when, h6, H2S.flag, H2S.Ctx.commit, h0]
  exact step_quiet s k l a hg he e1 hd hst (by simp [H2S.search]) (by simp [Quiet])

theorem ack_step (s : Site) (k : H2Trip.Conn) (l : Link) (a : Arrival) {mb : Nat} (hu : Up mb l.c) (h : Holds a.place 4 1 0 []) : step s k l a = some (l, [], []) := by
  obtain ⟨p, rest, e1, e2, e3, e4, _⟩ := headOf_frame h
  have hd : decode l ⟨0, 4, 1, 0, some p⟩ = some ({ type := 4, flags := 1, sid := 0, length := 0 }, l.t, l.set) := by
    have hla : looksAt l.c ⟨0, 4, 1, 0, some p⟩ = true := by simp [looksAt, H2S.search]
    unfold decode
    simp only [hla, Bool.not_true, Bool.false_eq_true, if_false]
    rw [if_pos (by decide)]
  have hst : H2S.stepFrame l.c { type := 4, flags := 1, sid := 0, length := 0 } = some (l.c, []) := by
    rw [H2S.stepFrame_eq _ _ hu.goaway hu.ended, if_neg (by simp)]
    simp [H2S.stepRest, H2S.search, H2S.process, H2S.handle, H2S.onSettings, H2S.Ctx.when, H2S.flag, H2S.Ctx.commit, hu.root]
  exact step_quiet s k l a hu.goaway hu.ended e1 hd hst (by simp [H2S.search]) (by simp)

theorem read_increment {c p : Cursor} {n : Nat} {rest : Bytes} (hn : n < 2 ^ 31) (hc : n % 256 < 128 ∨ 13 < c.cur.length) (e2 : NE p)
    (e3 : p.flat = [n / 16777216, n / 65536 % 256, n / 256 % 256, n % 256] ++ rest) (e4 : rest ≠ []) (eb : Behind 9 c p) : ∃ q, H2.read31 p = some (n, q) := by
  have hval : H2.be [n / 16777216, n / 65536 % 256, n / 256 % 256, n % 256] = n := by simp [H2.be]; omega
  unfold H2.read31
  by_cases hp : p.cur.length ≤ 4
  · rw [if_pos hp]
    have hlow : n % 256 < 128 := by
      rcases hc with hc | hc
      · exact hc
      · have := behind_advance eb
        unfold advance at this
        rw [if_pos (by omega)] at this
        injection this with this
        rw [← this] at hp
        simp at hp; omega
    have hrl := List.length_pos_iff.2 e4
    obtain ⟨r, t1, t2⟩ := H2.takeSlow_spec 4 p e2 (by rw [e3]; simp)
    rw [t1, e3]
    refine ⟨r, ?_⟩
    simp only [List.cons_append, List.nil_append, List.take_succ_cons, List.take_zero, Option.bind_some, H2.clearTop, Nat.mod_eq_of_lt hlow, hval]
  · rw [if_neg hp]
    have hflat : p.cur ++ p.rest.flatten = [n / 16777216, n / 65536 % 256, n / 256 % 256, n % 256] ++ rest := e3
    match hcur : p.cur with
    | [] | [_] | [_, _] | [_, _, _] | [_, _, _, _] => rw [hcur] at hp; simp at hp
    | b1 :: b2 :: b3 :: b4 :: y :: t =>
      rw [hcur] at hflat
      simp only [List.cons_append, List.nil_append, List.cons.injEq] at hflat
      obtain ⟨rfl, rfl, rfl, rfl, _⟩ := hflat
      refine ⟨some ⟨y :: t, p.rest⟩, ?_⟩
      simp only [H2.clearTop, Nat.mod_eq_of_lt (show n / 16777216 < 128 by omega), hval]

theorem decode_grow {l : Link} {mb : Nat} (hu : Up mb l.c) {sid n : Nat} (hf : (H2S.search l.c sid).isSome) {c p : Cursor} {rest : Bytes} (hn : n < 2 ^ 31)
    (hc : n % 256 < 128 ∨ 13 < c.cur.length) (e2 : NE p) (e3 : p.flat = [n / 16777216, n / 65536 % 256, n / 256 % 256, n % 256] ++ rest) (e4 : rest ≠ []) (eb : Behind 9 c p) :
    decode l ⟨4, 8, 0, sid, some p⟩ = some ({ type := 8, flags := 0, sid := sid, length := 4, increment := n }, l.t, l.set) := by
  obtain ⟨q, hread⟩ := read_increment hn hc e2 e3 e4 eb
  have hla : looksAt l.c ⟨4, 8, 0, sid, some p⟩ = true := by simp [looksAt, hf, hu.comm]
  unfold decode
  simp only [hla, Bool.not_true, Bool.false_eq_true, if_false, hread, Option.map_some]

theorem window_step (s : Site) (k : H2Trip.Conn) (l : Link) (a : Arrival) {mb : Nat} (hu : Up mb l.c) (n : Nat) (h : Grows a.place 0 n) :
    step s k l a = some (⟨{ l.c with window := l.c.window + n }, l.t, l.set⟩, [], []) := by
  obtain ⟨h, h0, hn, hc⟩ := h
  obtain ⟨p, rest, e1, e2, e3, e4, eb⟩ := headOf_frame h
  have hd := decode_grow hu (sid := 0) (by simp [H2S.search]) hn hc e2 e3 e4 eb
  have hst : H2S.stepFrame l.c { type := 8, flags := 0, sid := 0, length := 4, increment := n } = some ({ l.c with window := l.c.window + n }, []) := by
    rw [H2S.stepFrame_eq _ _ hu.goaway hu.ended, if_neg (by rw [hu.maxFrame]; simp)]
    simp [H2S.stepRest, H2S.search, H2S.process, H2S.handle, H2S.onWindowUpdate, H2S.Ctx.when, H2S.Ctx.commit, hu.root, hu.comm, show ¬ n = 0 by omega]
  exact step_quiet s k l a hu.goaway hu.ended e1 hd hst (by simp [H2S.search]) (by simp)

/-- A frame of which the payload is not looked at. -/
theorem decode_other {l : Link} {h : Head} (h3 : h.type = 3 ∨ 10 ≤ h.type) : decode l h = some ({ type := h.type, flags := h.flags, sid := h.sid, length := h.length }, l.t, l.set) := by
  unfold decode
  split
  · rfl
  · split <;> first | rfl | omega

theorem handle_unknown {f : H2S.Frame} (h : 10 ≤ f.type) (x : H2S.Ctx) : H2S.handle f x = some x := by
  unfold H2S.handle
  split <;> first | rfl | omega

theorem unknown_step (s : Site) (k : H2Trip.Conn) (l : Link) (a : Arrival) {mb : Nat} (hu : Up mb l.c) {type flags : Nat} {payload : Bytes} (ht : 10 ≤ type)
    (h : Holds a.place type flags 0 payload) : step s k l a = some (l, [], []) := by
  obtain ⟨p, rest, e1, e2, e3, e4, eb⟩ := headOf_frame h
  have hd := decode_other (l := l) (h := ⟨payload.length, type, flags, 0, some p⟩) (Or.inr ht)
  have hst : H2S.stepFrame l.c { type := type, flags := flags, sid := 0, length := payload.length } = some (l.c, []) := by
    rw [H2S.stepFrame_eq _ _ hu.goaway hu.ended, if_neg (by rw [hu.maxFrame]; have := h.2.2.1; simp; omega)]
    unfold H2S.stepRest H2S.process
    simp only [H2S.search, if_true, handle_unknown (f := { type := type, flags := flags, sid := 0, length := payload.length }) ht, hu.comm, Bool.not_true, Bool.false_and,
      Bool.false_eq_true, if_false, Option.map_some, H2S.Ctx.commit, hu.root]
    have := hu.comm
    cases hl : l.c
    rw [hl] at this
    simp only at this
    rw [this]
  exact step_quiet s k l a hu.goaway hu.ended e1 hd hst (by simp [H2S.search]) (by simp)

/-- A control frame changes nothing but the settings and the window of the connection. -/
theorem control_step (s : Site) (k : H2Trip.Conn) (l : Link) (a : Arrival) {mb : Nat} (hu : Up mb l.c) {n : Nat} (h : Control a.place n) :
    ∃ set os, step s k l a = some (⟨{ l.c with window := l.c.window + n }, l.t, set⟩, os, []) ∧ set.initialWindowSize = l.set.initialWindowSize ∧ ∀ o ∈ os, Calm o := by
  have hc : { l.c with comm := true } = l.c := by
    have := hu.comm
    cases hl : l.c
    rw [hl] at this
    simp only at this
    rw [this]
  cases h with
  | settings ss h1 h2 =>
    obtain ⟨set, e, e'⟩ := settings_step s k l a hu.goaway hu.ended hu.maxFrame hu.root ss h1 fun p hp => (h2 p hp).1
    rw [hc] at e
    exact ⟨set, _, by simpa using e, (foldl_same ss _ _ (fun p hp => (h2 p hp).2) e').1, by simp [Calm]⟩
  | ack h1 => exact ⟨l.set, _, by simpa using ack_step s k l a hu h1, rfl, by simp⟩
  | window n h1 => exact ⟨_, _, window_step s k l a hu n h1, rfl, by simp⟩
  | unknown type flags payload ht h1 => exact ⟨l.set, _, by simpa using unknown_step s k l a hu ht h1, rfl, by simp⟩

/-! ## The header block -/

theorem step_block {h : Head} {c x : Cursor} {prio block : Bytes} (hp : prio = [] ∨ prio.length = 5) (fin : Bool) (sid : Nat)
    (hh : h = ⟨(prio ++ block).length, 1, (if fin then 5 else 4) + (if prio = [] then 0 else 32), sid, h.payload⟩) {p : Cursor} (hpl : h.payload = some p)
    (hl : (prio ++ block).length ≤ 16384) {rest : Bytes} (hr : rest ≠ []) (hne : NE p) (hf : p.flat = prio ++ block ++ rest) (hb : Behind 9 c p)
    (hx : Behind (9 + prio.length) c x) : headerBlock h = some (block.length, some x) := by
  rw [hh, hpl]
  have f3 : H2S.flag ((if fin then 5 else 4) + (if prio = [] then 0 else 32)) 3 = false := by
    cases fin <;> by_cases h : prio = [] <;> simp [h, H2S.flag]
  unfold headerBlock skipPad
  simp only [f3, Bool.false_eq_true, if_false]
  rcases hp with rfl | h5
  · have f5 : H2S.flag ((if fin then 5 else 4) + (if ([] : Bytes) = [] then 0 else 32)) 5 = false := by cases fin <;> simp [H2S.flag]
    rw [behind_unique hb hx]
    simp only [List.nil_append]
    rw [if_neg (by cases fin <;> simp [H2S.flag])]
  · have hpn : prio ≠ [] := by intro h; rw [h] at h5; simp at h5
    have f5 : H2S.flag ((if fin then 5 else 4) + (if prio = [] then 0 else 32)) 5 = true := by cases fin <;> simp [hpn, H2S.flag]
    simp only [f5, if_true]
    have hrl := List.length_pos_iff.2 hr
    have hlen : p.flat.length = 5 + block.length + rest.length := by rw [hf]; simp [h5]; omega
    obtain ⟨v, q, r1, r2, r3, r4⟩ := read31_behind p hne (by omega)
    have hql : q.flat.length = 1 + block.length + rest.length := by rw [r3, List.length_drop, hlen]; omega
    obtain ⟨r, t1, t2⟩ := H2.takeN_spec 1 q r2 (by omega)
    obtain ⟨w, rfl, w1, w2⟩ := t2 (by omega)
    have hw := behind_trans (behind_trans hb r4) (takeN_behind r2.cur t1)
    rw [show 9 + 4 + 1 = 9 + prio.length by rw [h5]] at hw
    rw [behind_unique hx hw]
    simp only [r1, oneByte, t1, Option.map_some, Option.some.injEq, Prod.mk.injEq, and_true]
    rw [List.length_append] at hl ⊢
    omega

/-- The request of a stream, complete but for its content. -/
def opened (sid : Nat) (fs : Pairs) : H2S.Stream := { id := sid, st := .open_, peerEnd := true, headers := some fs }

/-- Other streams are left alone. -/
theorem map_other {sid : Nat} {ss : List H2S.Stream} (h : ∀ t ∈ ss, t.id ≠ sid) (x : H2S.Stream) : ss.map (fun t => if t.id = sid then x else t) = ss := by
  conv => rhs; rw [← List.map_id ss]
  refine List.map_congr_left fun t ht => ?_
  rw [if_neg (h t ht)]; rfl

theorem find_other {sid : Nat} {ss : List H2S.Stream} (h : ∀ t ∈ ss, t.id ≠ sid) : ss.find? (fun s => s.id == sid) = none := by
  rw [List.find?_eq_none]
  intro t ht; simpa using h t ht

theorem filter_other {sid : Nat} {ss : List H2S.Stream} (h : ∀ t ∈ ss, t.id ≠ sid) : ss.filter (fun s => s.id != sid) = ss := by
  rw [List.filter_eq_self]
  intro t ht; simpa using h t ht

theorem open_frame {mb : Nat} {c : H2S.Conn} (hu : Up mb c) {sid : Nat} (hs : ∀ t ∈ c.streams, t.id ≠ sid) (hodd : sid % 2 = 1) (hm : c.maxSid < sid) (fin prio : Bool) (n : Nat)
    (hn : n ≤ 16384) (fs : Pairs) :
    H2S.stepFrame c { type := 1, flags := (if fin then 5 else 4) + (if prio then 0 else 32), sid := sid, length := n, hdrs := fs } =
      some ({ c with
        streams := c.streams ++ [if fin then { opened sid fs with st := .halfRemote, canResp := true } else opened sid fs]
        count := c.count + 1
        maxSid := sid },
        .opened sid :: if fin then [.dispatch sid fs none false] else []) := by
  have hs0 : sid ≠ 0 := by omega
  have hfind : H2S.search c sid = none := by unfold H2S.search; rw [if_neg hs0, find_other hs]
  have href : H2S.refuse c sid = false := by
    have : ¬ sid ≤ c.maxSid := by omega
    simp [H2S.refuse, hu.maxConc, this, hodd]
  rw [H2S.stepFrame_eq _ _ hu.goaway hu.ended, if_neg (by rw [hu.maxFrame]; simp; omega)]
  unfold H2S.stepRest
  simp only [hfind, href, Bool.false_eq_true, if_false]
  unfold H2S.process
  have hcm : (H2S.create c sid).comm = true := hu.comm
  simp only [hcm, Bool.not_true, Bool.false_and, Bool.false_eq_true, if_false, List.nil_append]
  cases fin <;> cases prio <;>
    simp [H2S.handle, H2S.onHeaders, H2S.Ctx.when, hs0, H2S.respond, H2S.endStream, H2S.endHeaders, H2S.flag, H2S.Ctx.commit, H2S.create, map_other hs, opened]

/-- From the response of Verif.H2Site. -/
theorem answer_of {s : Site} {k : H2Trip.Conn} {t : DTab} {i : H2Trip.Incoming} {now : Bytes → Bytes} {bs : Bytes} {fs : Pairs} {r : H2Trip.Resp}
    (h1 : H2Site.response s now ⟨true, H2Trip.cells i.alloc fs, i.body, i.discard⟩ = some r) (h2 : H2Trip.send k (H2Trip.dynOf t) i.sid i.win r i.writes = some bs)
    (z : At) (body : Option (Nat × Bytes)) (e1 : z.alloc = i.alloc) (e2 : z.win = i.win) (e3 : z.writes = i.writes) (e4 : z.now = now) (e5 : contentOf body = some i.body) :
    answer s k t z i.sid fs body i.discard = some bs := by
  unfold answer
  rw [e5, e1, e2, e3, e4]
  simp only [h1]
  exact h2

/-! ## The content -/

theorem contentLength_of {fs : Pairs} {n : Nat} (h : Tells fs n) (hn : n < 2 ^ 63) : H2S.contentLength fs = n := by
  obtain ⟨v, h1, ⟨d1, d2, d3⟩, h3⟩ := h
  unfold H2S.contentLength
  cases hf : fs.find? (fun h => (h.1 == b!"Content-Length" || h.1 == b!"content-length") && h.2 != []) with
  | none =>
    have := List.find?_eq_none.1 hf _ h1
    simp [d2] at this
  | some x =>
    obtain ⟨nm, w⟩ := x
    have hm := List.mem_of_find?_eq_some hf
    have hp := List.find?_some hf
    simp only [Bool.and_eq_true, Bool.or_eq_true, beq_iff_eq] at hp
    have hw : w = v := h3 _ hm (by rcases hp.1 with h | h <;> (simp only at h ⊢; rw [h]; decide))
    subst hw
    simp only [Conf.atoll_digits w d1]
    have : Conf.decimal w = n := by
      rw [← d3]
      unfold Conf.decimal
      congr 1
      funext a d
      omega
    rw [this]
    omega

/-- The stream when `got` of its `n` bytes of content have arrived; `mb` are allowed; `w` is its window. -/
def part (sid : Nat) (fs : Pairs) (mb n : Nat) (got : Bytes) (w : Int) : H2S.Stream :=
  { opened sid fs with body := if n ≤ mb ∧ got ≠ [] then some (n, got) else none, discard := decide (mb < n ∧ got ≠ []), window := w }

theorem data_frame {mb : Nat} {c : H2S.Conn} (hu : Up mb c) {sid n : Nat} (hodd : sid % 2 = 1) {fs : Pairs} (hcl : H2S.contentLength fs = n) (got d : Bytes) (w : Int) (fin : Bool)
    {pre post : List H2S.Stream} (hs : c.streams = pre ++ part sid fs mb n got w :: post) (hpre : ∀ t ∈ pre, t.id ≠ sid) (hpost : ∀ t ∈ post, t.id ≠ sid)
    (hn : got.length + d.length ≤ n) (hd : d.length ≤ 16384) :
    ∃ os, (∀ o ∈ os, ∃ i m, o = Out.windowUpdate i m) ∧
      H2S.stepFrame c { type := 0, flags := if fin then 1 else 0, sid := sid, length := d.length, data := d } =
        some ({ c with
          streams := pre ++ (if fin then { part sid fs mb n (got ++ d) w with st := .halfRemote, canResp := true } else part sid fs mb n (got ++ d) w) :: post },
          os ++ if fin then [.dispatch sid fs (part sid fs mb n (got ++ d) w).body (part sid fs mb n (got ++ d) w).discard] else []) := by
  have hs0 : sid ≠ 0 := by omega
  have hid : (part sid fs mb n got w).id = sid := rfl
  have hst : (part sid fs mb n got w).st = .open_ := rfl
  have hfind : H2S.search c sid = some (part sid fs mb n got w) := by
    unfold H2S.search; rw [if_neg hs0, hs, List.find?_append, find_other hpre]; simp [hid]
  have hdl : ∀ f : H2S.Frame, f.flags = (if fin then 1 else 0) → H2S.dataLen f = f.length ∧ H2S.endStream f = fin := by
    intro f hf
    cases fin <;> simp [H2S.dataLen, H2S.padded, H2S.endStream, hf, H2S.flag]
  obtain ⟨os, ho, hp⟩ : ∃ os, (∀ o ∈ os, ∃ i m, o = Out.windowUpdate i m) ∧
      H2S.parseData ⟨c, part sid fs mb n got w, []⟩ d.length d = some (⟨c, part sid fs mb n (got ++ d) w, os⟩, true) := by
    unfold H2S.parseData
    by_cases h0 : d.length = 0
    · have : d = [] := List.eq_nil_of_length_eq_zero h0
      subst this
      exact ⟨[], by simp, by simp⟩
    · rw [if_neg h0]
      have hdn : d ≠ [] := by intro h; rw [h] at h0; simp at h0
      have hh : (part sid fs mb n got w).headers = some fs := rfl
      simp only [hh, hcl]
      by_cases hmb : mb < n
      · have hnb : ¬ n ≤ mb := by omega
        by_cases hg : got = []
        · subst hg
          refine ⟨[.windowUpdate sid d.length, .windowUpdate 0 d.length], by simp, ?_⟩
          simp [part, opened, hmb, hnb, hu.maxBody, hdn]
        · refine ⟨[.windowUpdate sid d.length, .windowUpdate 0 d.length], by simp, ?_⟩
          simp [part, opened, hmb, hnb, hu.maxBody, hg]
      · have hnb : n ≤ mb := by omega
        refine ⟨[.windowUpdate 0 d.length, .windowUpdate sid d.length], by simp, ?_⟩
        by_cases hg : got = []
        · subst hg
          have h1 : ¬ n < d.length := by simp at hn; omega
          simp [part, opened, hmb, hnb, hu.maxBody, H2S.bodyOf, hdn, h1]
        · have h1 : ¬ n < got.length + d.length := by omega
          simp [part, opened, hmb, hnb, hu.maxBody, H2S.bodyOf, hg, h1]
  refine ⟨os, ho, ?_⟩
  rw [H2S.stepFrame_eq _ _ hu.goaway hu.ended, if_neg (by rw [hu.maxFrame]; simp; omega)]
  unfold H2S.stepRest
  simp only [hfind]
  unfold H2S.process
  simp only [hu.comm, Bool.not_true, Bool.false_and, Bool.false_eq_true, if_false]
  have hpart : ∀ g, (part sid fs mb n g w).id = sid ∧ (part sid fs mb n g w).peerEnd = true ∧ (part sid fs mb n g w).headers = some fs := fun g => ⟨rfl, rfl, rfl⟩
  unfold H2S.handle
  simp only
  unfold H2S.onData
  obtain ⟨e1, e2⟩ := hdl { type := 0, flags := if fin then 1 else 0, sid := sid, length := d.length, data := d } rfl
  simp only [e1, e2, H2S.Ctx.when, hid, hst, show (sid == 0) = false by simp [hs0], Bool.false_eq_true, if_false]
  rw [if_neg (by decide)]
  simp only [hp]
  cases fin
  · have : (part sid fs mb n (got ++ d) w).st = .open_ := rfl
    simp [H2S.respond, this, H2S.Ctx.commit, hs, hid, hpart, hs0, hu.comm, map_other hpre, map_other hpost]
  · simp [H2S.respond, H2S.Ctx.commit, hs, hid, hpart, hs0, hu.comm, map_other hpre, map_other hpost]

/-- More window for a request under way. -/
theorem grow_frame {mb : Nat} {c : H2S.Conn} (hu : Up mb c) {sid n : Nat} (hodd : sid % 2 = 1) {fs : Pairs} (got : Bytes) (w : Int)
    {pre post : List H2S.Stream} (hs : c.streams = pre ++ part sid fs mb n got w :: post) (hpre : ∀ t ∈ pre, t.id ≠ sid) (hpost : ∀ t ∈ post, t.id ≠ sid) {i : Nat} (hi : 0 < i) :
    H2S.stepFrame c { type := 8, flags := 0, sid := sid, length := 4, increment := i } = some ({ c with streams := pre ++ part sid fs mb n got (w + i) :: post }, []) := by
  have hs0 : sid ≠ 0 := by omega
  have hfind : H2S.search c sid = some (part sid fs mb n got w) := by
    unfold H2S.search; rw [if_neg hs0, hs, List.find?_append, find_other hpre]; simp [part, opened]
  rw [H2S.stepFrame_eq _ _ hu.goaway hu.ended, if_neg (by rw [hu.maxFrame]; simp)]
  simp [H2S.stepRest, hfind, H2S.process, H2S.handle, H2S.onWindowUpdate, H2S.Ctx.when, H2S.Ctx.commit, hu.comm, show ¬ i = 0 by omega, hs0, hs, part, opened, map_other hpre,
    map_other hpost]

/-- A request under way is cancelled. -/
theorem reset_frame {mb : Nat} {c : H2S.Conn} (hu : Up mb c) {sid n : Nat} (hodd : sid % 2 = 1) {fs : Pairs} (got : Bytes) (w : Int) (flags : Nat)
    {pre post : List H2S.Stream} (hs : c.streams = pre ++ part sid fs mb n got w :: post) (hpre : ∀ t ∈ pre, t.id ≠ sid) (hpost : ∀ t ∈ post, t.id ≠ sid) :
    H2S.stepFrame c { type := 3, flags := flags, sid := sid, length := 4 } = some ({ c with streams := pre ++ { part sid fs mb n got w with st := .closed } :: post }, []) := by
  have hs0 : sid ≠ 0 := by omega
  have hfind : H2S.search c sid = some (part sid fs mb n got w) := by
    unfold H2S.search; rw [if_neg hs0, hs, List.find?_append, find_other hpre]; simp [part, opened]
  rw [H2S.stepFrame_eq _ _ hu.goaway hu.ended, if_neg (by rw [hu.maxFrame]; simp)]
  simp [H2S.stepRest, hfind, H2S.process, H2S.handle, H2S.onRst, H2S.Ctx.when, H2S.Ctx.commit, hu.comm, hs0, hs, part, opened, map_other hpre, map_other hpost]

/-- A frame of an unknown type for a request under way. -/
theorem unknown_frame {mb : Nat} {c : H2S.Conn} (hu : Up mb c) {sid n : Nat} (hodd : sid % 2 = 1) {fs : Pairs} (got : Bytes) (w : Int) {type : Nat} (ht : 10 ≤ type) (flags : Nat)
    {len : Nat} (hl : len ≤ 16384)
    {pre post : List H2S.Stream} (hs : c.streams = pre ++ part sid fs mb n got w :: post) (hpre : ∀ t ∈ pre, t.id ≠ sid) (hpost : ∀ t ∈ post, t.id ≠ sid) :
    H2S.stepFrame c { type := type, flags := flags, sid := sid, length := len } = some (c, []) := by
  have hs0 : sid ≠ 0 := by omega
  have hfind : H2S.search c sid = some (part sid fs mb n got w) := by
    unfold H2S.search; rw [if_neg hs0, hs, List.find?_append, find_other hpre]; simp [part, opened]
  rw [H2S.stepFrame_eq _ _ hu.goaway hu.ended, if_neg (by rw [hu.maxFrame]; simp; omega)]
  have hst : ({ c with streams := pre ++ part sid fs mb n got w :: post } : H2S.Conn) = c := by rw [← hs]
  conv => rhs; rw [← hst]
  simp [H2S.stepRest, hfind, H2S.process, handle_unknown (f := { type := type, flags := flags, sid := sid, length := len }) ht, H2S.Ctx.commit, hu.comm, hs0, hs, part, opened,
    map_other hpre, map_other hpost]

theorem decode_data {mb : Nat} {l : Link} (hu : Up mb l.c) {sid : Nat} (hodd : sid % 2 = 1) (hf : (H2S.search l.c sid).isSome) (d : Bytes) (fin : Bool) {p : Cursor} {rest : Bytes}
    (h1 : NE p) (h2 : p.flat = d ++ rest) (h3 : rest ≠ []) :
    decode l ⟨d.length, 0, if fin then 1 else 0, sid, some p⟩ = some ({ type := 0, flags := if fin then 1 else 0, sid := sid, length := d.length, data := d }, l.t, l.set) := by
  have hla : looksAt l.c ⟨d.length, 0, if fin then 1 else 0, sid, some p⟩ = true := by simp [looksAt, hf, hu.comm]
  have hsk : skipPad ⟨d.length, 0, if fin then 1 else 0, sid, some p⟩ = some (d.length, some p) := by
    cases fin <;> simp [skipPad, H2S.flag]
  have hrl := List.length_pos_iff.2 h3
  unfold decode
  simp only [hla, Bool.not_true, Bool.false_eq_true, if_false, hsk]
  cases d with
  | nil => rfl
  | cons x d =>
    have := Buffer.memcpy_spec (x :: d).length p h1 (by rw [h2, List.length_append]; omega)
    rw [List.length_cons] at this
    simp only [List.length_cons, this, h2, Option.map_some, Option.some.injEq, Prod.mk.injEq, and_true]
    simp

theorem answers_none (s : Site) (k : H2Trip.Conn) (t : DTab) (a : At) : ∀ os : List Out, (∀ o ∈ os, ∃ i m, o = Out.windowUpdate i m) → ∀ rest,
    answers s k t a (os ++ rest) = answers s k t a rest ∧ drawn s k t a (os ++ rest) = drawn s k t a rest
  | [], _, _ => ⟨rfl, rfl⟩
  | o :: os, h, rest => by
    obtain ⟨i, m, rfl⟩ := h o (by simp)
    exact answers_none s k t a os (fun o ho => h o (by simp [ho])) rest

/-- What a response takes of the windows. -/
theorem used_ok (k : H2Trip.Conn) (hk : 16384 ≤ k.maxFrame ∧ k.maxFrame < 2 ^ 24) (sid : Nat) (hsid : sid < 2 ^ 31) (w : Send.Win) (tab : List Entry) (r : H2Trip.Resp)
    (s : H2Trip.Writes) (body : Bytes) (h : H2Trip.Sendable k tab r s body) (ho : body ≠ [] → 0 < w.stream ∧ 0 < w.conn) : used k tab sid w r s = body.length := by
  obtain ⟨fr, e1, e2⟩ := H2Trip.frames_written k hk sid hsid r s _ _ rfl tab h.block h.takes
  unfold used
  simp only [e1, e2, if_true]
  unfold Send.startData
  by_cases hb : body = []
  · subst hb
    by_cases hw : w.stream ≤ 0 ∨ w.conn ≤ 0
    · rw [if_pos hw]; rfl
    · rw [if_neg hw, if_pos (by rw [h.right.2.1]; rfl)]; rfl
  · have hpos := List.length_pos_iff.2 hb
    have := ho hb
    rw [if_neg (by omega), if_neg (by rw [h.right.2.1]; omega)]
    simp only
    rw [if_pos (by
      rw [H2.C07_written_header_layout _ _ _ _ _ (by rw [h.right.2.1]; exact h.length) hsid,
        H2Trip.dataHeader_written (H2.wireHeader _ _ _ _ _) _ h.takes.dataHeader.1 (show 9 ≤ _ from h.takes.dataHeader.2)])]
    rcases h.right.2.2 _ h.takes.data.1 with h1 | ⟨_, _, h1⟩
    · rw [h1.2]
    · have := h.takes.data.2; omega

theorem finish_eq {sid : Nat} {c : H2S.Conn} {st : H2S.Stream} {pre post : List H2S.Stream} (hs : c.streams = pre ++ st :: post) (hpre : ∀ t ∈ pre, t.id ≠ sid)
    (hpost : ∀ t ∈ post, t.id ≠ sid) (h1 : st.id = sid) (h2 : st.canResp = true) (h3 : st.st = .halfRemote) :
    (H2S.finish c sid).1 = { c with streams := pre ++ post, count := c.count - 1, maxHandled := max c.maxHandled sid } := by
  unfold H2S.finish
  rw [if_pos (by simp [hs, h1, h2, h3])]
  simp [hs, h1, filter_other hpre, filter_other hpost]

theorem Up.window {mb : Nat} {c : H2S.Conn} (h : Up mb c) (w : Int) : Up mb { c with window := w } :=
  { goaway := h.goaway, ended := h.ended, comm := h.comm, maxConc := h.maxConc, maxFrame := h.maxFrame, maxBody := h.maxBody, root := h.root }

theorem Up.streams {mb : Nat} {c : H2S.Conn} (h : Up mb c) (st : List H2S.Stream) : Up mb { c with streams := st } :=
  { goaway := h.goaway, ended := h.ended, comm := h.comm, maxConc := h.maxConc, maxFrame := h.maxFrame, maxBody := h.maxBody, root := h.root }

theorem run_append (s : Site) (k : H2Trip.Conn) : ∀ (as bs : List Arrival) (l l' l'' : Link) (os os' : List Out) (rs rs' : List (Nat × Bytes)),
    run s k l as = some (l', os, rs) → run s k l' bs = some (l'', os', rs') → run s k l (as ++ bs) = some (l'', os ++ os', rs ++ rs')
  | [], bs, l, l', l'', os, os', rs, rs', h, h' => by
    simp only [run, Option.some.injEq, Prod.mk.injEq] at h
    obtain ⟨rfl, rfl, rfl⟩ := h
    exact h'
  | a :: as, bs, l, l', l'', os, os', rs, rs', h, h' => by
    rw [run] at h
    rw [List.cons_append, run]
    cases hs : step s k l a with
    | none => rw [hs] at h; simp at h
    | some q =>
      obtain ⟨m, o1, r1⟩ := q
      rw [hs] at h
      simp only [Option.map_eq_some_iff, Prod.mk.injEq] at h
      obtain ⟨⟨x, y, w⟩, e, rfl, rfl, rfl⟩ := h
      simp only [run_append s k as bs m x l'' y os' w rs' e h', Option.map_some, List.append_assoc]

end Fly.H2Wire
