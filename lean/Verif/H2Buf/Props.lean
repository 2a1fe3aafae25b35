import Verif.H2Buf.Model
import Verif.Buffer.Props
import Verif.H2Feed.Props

/-! # C208 — the frames of an HTTP/2 client through the chunks of the connection buffer -/

namespace Fly.H2Buf

open Buffer (Buf Chunk Cursor WF CWF NE content firstPtr_wf release_wf receive_wf firstPtr release room)
open H2Feed (Raw Keeps stream Short)

/-- A buffer as it is between two events. -/
structure Good (b : Buf) : Prop where
  wf : WF b
  per : 0 < b.perLen
  room : 0 < room b

/-- The layout of the buffer as it is now. -/
def layOf (q : Bytes) (p : Cursor) : Bytes → Cursor := fun x => if x = q then p else H2Feed.onePiece x

theorem layOf_keeps {q : Bytes} {p : Cursor} (hp : NE p) {g : Bytes} (hg : g ≠ []) (hf : p.flat = q ++ g) : Keeps (layOf q p) := by
  intro x
  unfold layOf
  split
  · rename_i h
    subst h
    exact ⟨hp.cur, hp.rest, g, hg, hf⟩
  · exact H2Feed.onePiece_keeps x

/-- Where the bytes of a buffer lie. -/
theorem Good.place {b : Buf} (h : Good b) : ∃ p, firstPtr b = some p ∧ Keeps (layOf (content b.chunks) p) ∧ layOf (content b.chunks) p (content b.chunks) = p := by
  obtain ⟨p, g, h1, h2, h3, h4⟩ := firstPtr_wf b h.wf
  refine ⟨p, h1, layOf_keeps h2 (List.length_pos_iff.1 (by rw [h4]; exact h.room)) h3, by simp [layOf]⟩

theorem room_release {b b' : Buf} {n : Nat} (h : release b n = some b') : room b' = room b := by
  unfold release at h
  cases hc : b.chunks with
  | nil => rw [hc] at h; cases h
  | cons c rest =>
    rw [hc] at h
    simp only at h
    split at h
    · cases h
      unfold room
      rw [hc]
      cases rest with
      | nil => rfl
      | cons d t => simp only [List.getLast?_cons_cons]
    · split at h
      · cases h
      · rename_i m more hd
        cases h
        have hl : (c :: rest).getLast? = (m :: more).getLast? := by
          rw [← hd]
          conv => lhs; rw [← List.take_append_drop (Buffer.releaseCount (c :: rest) 0 n).1 (c :: rest)]
          rw [List.getLast?_append, hd, List.getLast?_cons]
          rfl
        unfold room
        rw [hc, hl]
        cases more with
        | nil => rfl
        | cons d t => simp only [List.getLast?_cons_cons]

theorem Good.release {b : Buf} (h : Good b) {n : Nat} (hn : n ≤ (content b.chunks).length) :
    ∃ b', Buffer.release b n = some b' ∧ Good b' ∧ content b'.chunks = (content b.chunks).drop n ∧ b'.perLen = b.perLen ∧ b'.chainMax = b.chainMax := by
  obtain ⟨b', h1, h2, h3, h4, h5⟩ := release_wf b h.wf n hn (by have := h.room; omega)
  exact ⟨b', h1, ⟨h2, by have := h.per; omega, by rw [room_release h1]; exact h.room⟩, h3, h4, h5⟩

/-- An empty buffer is one chunk. -/
theorem Good.refresh {b : Buf} (h : Good b) (h0 : b.useLen = 0) :
    Good (refresh b) ∧ content (refresh b).chunks = content b.chunks ∧ (refresh b).perLen = b.perLen ∧ (refresh b).chainMax = b.chainMax := by
  obtain ⟨front, last, hc, hfull⟩ := h.wf.ex
  have hall := h.wf.all
  have hu := h.wf.use
  have hcont : content b.chunks = [] := List.length_eq_zero_iff.1 (by omega)
  have hfront : front = [] := by
    cases front with
    | nil => rfl
    | cons c t =>
      exfalso
      have hcw := hall c (by rw [hc]; simp)
      have := Buffer.used_length hcw
      rw [hfull c (by simp)] at this
      rw [hc, List.cons_append, Buffer.content_cons] at hcont
      have hz := congrArg List.length hcont
      rw [List.length_append, List.length_nil] at hz
      have := hcw.useLt
      omega
  subst hfront
  have hb : (H2Buf.refresh b) = { b with chunks := [{ last with useOff := 0, filled := 0 }] } := by
    unfold H2Buf.refresh
    rw [hc]; rfl
  have hlw := hall last (by rw [hc]; simp)
  have hnew : content [{ last with useOff := 0, filled := 0 }] = [] := by simp [content, Chunk.used]
  rw [hb]
  refine ⟨⟨⟨⟨[], _, rfl, by simp⟩, ?_, by simp, ?_, ?_⟩, h.per, ?_⟩, ?_, rfl, rfl⟩
  · intro c hcm
    rw [List.mem_singleton.1 hcm]
    exact ⟨hlw.len, h.per, Nat.le_refl _, Nat.zero_le _⟩
  · have := h.wf.le
    rw [hc] at this
    simpa using this
  · show b.useLen = _
    rw [h0, hnew]; rfl
  · show 0 < last.store.length - 0
    rw [hlw.len]; have := h.per; omega
  · rw [hnew, hcont]

/-- A turn that takes a frame. -/
theorem turn_of_frame {b : Buf} (h : Good b) {p : Cursor} (hp : firstPtr b = some p) {lay : Bytes → Cursor} (hl : lay (content b.chunks) = p) {max : Nat} {f : Raw} {left : Bytes}
    (ht : H2Feed.turn lay max (content b.chunks) = .frame f left) :
    ∃ b', turn max b = .frame f b' ∧ Good b' ∧ content b'.chunks = left ∧ b'.perLen = b.perLen ∧ b'.chainMax = b.chainMax := by
  unfold H2Feed.turn at ht
  unfold turn
  rw [hp, h.wf.use]
  rw [hl] at ht
  split at ht
  · cases ht
  · rename_i h9
    rw [if_neg h9]
    simp only
    split at ht
    · cases ht
    · rename_i hd hh
      rw [hh]
      simp only
      split at ht
      · cases ht
      · rename_i hm
        rw [if_neg hm]
        split at ht
        · cases ht
        · rename_i hle
          rw [if_neg hle]
          split at ht
          · cases ht
          · rename_i pl hpl
            rw [hpl]
            simp only
            split at ht
            · cases ht
            · rename_i d hdd
              rw [hdd]
              simp only
              cases ht
              obtain ⟨b', e1, e2, e3, e4, e5⟩ := h.release (n := 9 + hd.length) (by omega)
              rw [e1]
              simp only
              by_cases hz : b'.useLen = 0
              · obtain ⟨r1, r2, r3, r4⟩ := e2.refresh hz
                exact ⟨H2Buf.refresh b', by rw [if_pos hz], r1, by rw [r2, e3], by rw [r3, e4], by rw [r4, e5]⟩
              · exact ⟨b', by rw [if_neg hz], e2, e3, e4, e5⟩

/-- A turn that does not. -/
theorem turn_of_wait {b : Buf} (h : Good b) {p : Cursor} (hp : firstPtr b = some p) {lay : Bytes → Cursor} (hl : lay (content b.chunks) = p) {max : Nat}
    (ht : H2Feed.turn lay max (content b.chunks) = .wait) : turn max b = .wait := by
  unfold H2Feed.turn at ht
  unfold turn
  rw [hp, h.wf.use]
  rw [hl] at ht
  split at ht
  · rename_i h9
    rw [if_pos h9]
  · rename_i h9
    rw [if_neg h9]
    simp only
    split at ht
    · cases ht
    · rename_i hd hh
      rw [hh]
      simp only
      split at ht
      · cases ht
      · rename_i hm
        rw [if_neg hm]
        split at ht
        · rename_i hle
          rw [if_pos hle]
        · split at ht
          · cases ht
          · split at ht <;> cases ht

theorem loop_spec {max : Nat} (hmax : max < 2 ^ 24) (pause : Raw → Bool) : ∀ (n : Nat) (fs : List Raw) (b : Buf), Good b → (∀ f ∈ fs, f.Fits max) →
    content b.chunks <+: stream fs → b.useLen ≤ n →
    ∃ done todo b', fs = done ++ todo ∧ loop max pause n b = (done, .waits b') ∧ Good b' ∧ content b.chunks = stream done ++ content b'.chunks ∧
      (Short (content b'.chunks) todo ∨ ∃ f ∈ done, pause f = true) ∧ b'.perLen = b.perLen ∧ b'.chainMax = b.chainMax
  | 0, fs, b, hb, _, _, h => by
    have h0 : content b.chunks = [] := List.length_eq_zero_iff.1 (by have := hb.wf.use; omega)
    refine ⟨[], fs, b, rfl, rfl, hb, by simp [stream], Or.inl ?_, rfl, rfl⟩
    rw [h0]
    cases fs with
    | nil => rfl
    | cons f t => exact ⟨List.nil_prefix, by rw [H2Feed.bytes_length, List.length_nil]; omega⟩
  | n + 1, [], b, hb, _, hp, _ => by
    have h0 : content b.chunks = [] := by simpa [stream] using hp
    refine ⟨[], [], b, rfl, ?_, hb, by simp [stream], Or.inl h0, rfl, rfl⟩
    unfold loop
    have : turn max b = .wait := by
      unfold turn
      rw [if_pos (by rw [hb.wf.use, h0]; decide)]
    rw [this]
  | n + 1, f :: fs, b, hb, hf, hp, hn => by
    have e : stream (f :: fs) = f.bytes ++ stream fs := by simp [stream]
    rw [e] at hp
    obtain ⟨p, p1, p2, p3⟩ := hb.place
    by_cases hl : (content b.chunks).length < f.bytes.length
    · have hpre : content b.chunks <+: f.bytes := List.prefix_of_prefix_length_le hp (List.prefix_append _ _) (by omega)
      refine ⟨[], f :: fs, b, rfl, ?_, hb, by simp [stream], Or.inl ⟨hpre, hl⟩, rfl, rfl⟩
      unfold loop
      rw [turn_of_wait hb p1 p3 (H2Feed.turn_wait p2 hmax (hf f (by simp)) hpre hl)]
    · obtain ⟨more, hm⟩ : f.bytes <+: content b.chunks := List.prefix_of_prefix_length_le (List.prefix_append _ _) hp (by omega)
      have ht := H2Feed.turn_frame p2 hmax (hf f (by simp)) more
      rw [hm] at ht
      obtain ⟨b1, t1, t2, t3, t4, t5⟩ := turn_of_frame hb p1 p3 ht
      by_cases hpa : pause f = true
      · refine ⟨[f], fs, b1, rfl, ?_, t2, by rw [t3, ← hm]; simp [stream], Or.inr ⟨f, by simp, hpa⟩, t4, t5⟩
        unfold loop
        rw [t1]
        simp only
        rw [if_pos hpa]
      · have hp2 : content b1.chunks <+: stream fs := by
          rw [t3]
          rw [← hm] at hp
          exact (List.prefix_append_right_inj _).1 hp
        obtain ⟨done, todo, b', h1, h2, h3, h4, h5, h6, h7⟩ := loop_spec hmax pause n fs b1 t2 (fun g hg => hf g (by simp [hg])) hp2 (by
          rw [t2.wf.use, t3]
          have hu := hb.wf.use
          have := congrArg List.length hm
          rw [List.length_append, H2Feed.bytes_length] at this
          omega)
        refine ⟨f :: done, todo, b', by rw [h1]; rfl, ?_, h3, ?_, ?_, by rw [h6, t4], by rw [h7, t5]⟩
        · unfold loop
          rw [t1]
          simp only
          rw [if_neg hpa, h2]
        · rw [← hm, ← t3, h4]; simp [stream]
        · rcases h5 with h5 | ⟨g, g1, g2⟩
          · exact Or.inl h5
          · exact Or.inr ⟨g, by simp [g1], g2⟩

theorem filled_length {L : Nat} : ∀ (cs : List Chunk), (∀ c ∈ cs, CWF L c ∧ c.filled = L ∧ c.useOff = 0) → (content cs).length = cs.length * L
  | [], _ => by simp [content]
  | c :: cs, h => by
    obtain ⟨h1, h2, h3⟩ := h c (by simp)
    rw [Buffer.content_cons, List.length_append, filled_length cs (fun x hx => h x (by simp [hx])), Buffer.used_length h1, h2, h3, List.length_cons, Nat.succ_mul]
    omega

/-- How many bytes a full buffer holds. -/
theorem full_length {b : Buf} (h : WF b) (hp : 0 < b.perLen) (hr : room b = 0) (hc : b.chunks.length = b.chainMax) : (b.chainMax - 1) * b.perLen < (content b.chunks).length := by
  obtain ⟨front, last, hcs, hfull⟩ := h.ex
  have hlw := h.all last (by rw [hcs]; simp)
  have hlast : last.filled = b.perLen := by
    have : b.chunks.getLast? = some last := by rw [hcs]; simp
    simp only [room, this, Chunk.unuseLen, hlw.len] at hr
    have := hlw.filledLe
    omega
  have hf : ∀ c ∈ b.chunks, c.filled = b.perLen := by
    intro c hcm
    rw [hcs, List.mem_append, List.mem_singleton] at hcm
    rcases hcm with hcm | rfl
    · exact hfull c hcm
    · exact hlast
  have hall := h.all
  have ht := h.tail0
  cases hb : b.chunks with
  | nil => rw [hb] at hcs; simp at hcs
  | cons c rest =>
    rw [hb] at hf hall ht hc
    have := filled_length rest (fun x hx => ⟨hall x (by simp [hx]), hf x (by simp [hx]), ht x hx⟩)
    have hcw := hall c (by simp)
    rw [Buffer.content_cons, List.length_append, this, Buffer.used_length hcw, hf c (by simp), ← hc, List.length_cons, Nat.add_sub_cancel]
    have := hcw.useLt
    omega

theorem receive_spec (mem : Nat → Bytes) (hm : ∀ n, (mem n).length = n) {b : Buf} (h : Good b) (wire : Bytes) (n : Nat) :
    (∃ b', receive mem b wire n = some (.success b') ∧ Good b' ∧ content b'.chunks = content b.chunks ++ wire.take (min n (room b)) ∧ b'.perLen = b.perLen ∧ b'.chainMax = b.chainMax) ∨
    (∃ b', receive mem b wire n = some (.limit b') ∧ (b.chainMax - 1) * b.perLen < (content b.chunks).length + min (min n (room b)) wire.length) := by
  unfold receive
  simp only
  split
  · rename_i h0
    exact Or.inl ⟨b, rfl, h, by rw [h0]; simp, rfl, rfl⟩
  · obtain ⟨b', u, h1, h2, h3, h4, h5, h6⟩ := receive_wf mem hm b h.per h.wf (wire.take (min n (room b))) (by rw [List.length_take]; omega)
    rcases h2 with ⟨rfl, h2⟩ | ⟨rfl, h2, h7⟩
    · exact Or.inl ⟨b', h1, ⟨h3, by have := h.per; omega, h2⟩, h4, h5, h6⟩
    · refine Or.inr ⟨b', h1, ?_⟩
      have := full_length h3 (by have := h.per; omega) h2 h7
      rw [h4, h5, h6, List.length_append, List.length_take] at this
      exact this

theorem room_le {b : Buf} (h : WF b) : room b ≤ b.perLen := by
  obtain ⟨front, last, hc, _⟩ := h.ex
  have hlw := h.all last (by rw [hc]; simp)
  have : b.chunks.getLast? = some last := by rw [hc]; simp
  simp only [room, this, Chunk.unuseLen, hlw.len]
  omega

theorem short_length {max : Nat} {left : Bytes} {fs : List Raw} (hf : ∀ f ∈ fs, f.Fits max) (h : Short left fs) : left.length ≤ 8 + max := by
  cases fs with
  | nil => rw [show left = [] from h]; simp
  | cons f t =>
    have := h.2
    rw [H2Feed.bytes_length] at this
    have := (hf f (by simp)).2
    omega

/-- How many of the events bring bytes. -/
def busy (ns : List Nat) : Nat := (ns.filter (· ≠ 0)).length

theorem feed_spec (mem : Nat → Bytes) (hm : ∀ n, (mem n).length = n) {max : Nat} (hmax : max < 2 ^ 24) (pause : Raw → Bool) : ∀ (ns : List Nat) (fs : List Raw) (b : Buf) (wire : Bytes), Good b →
    (∀ f ∈ fs, f.Fits max) → content b.chunks ++ wire <+: stream fs →
    ∃ done todo, fs = done ++ todo ∧
      ((∃ b' rest, feed mem max pause b wire ns = (done, .waits b' rest) ∧ Good b' ∧ content b.chunks ++ wire = stream done ++ (content b'.chunks ++ rest) ∧ rest.length ≤ wire.length - busy ns ∧
        ((∀ f ∈ fs, pause f = false) → Short (content b.chunks) fs → Short (content b'.chunks) todo)) ∨
      (feed mem max pause b wire ns = (done, .overflow) ∧
        ¬ ((∀ f ∈ fs, pause f = false) ∧ Short (content b.chunks) fs ∧ 8 + max + b.perLen ≤ (b.chainMax - 1) * b.perLen)))
  | [], fs, b, wire, hb, _, _ => ⟨[], fs, rfl, Or.inl ⟨b, wire, rfl, hb, by simp [stream], by simp [busy], fun _ h => h⟩⟩
  | n :: ns, fs, b, wire, hb, hf, hp => by
    rcases receive_spec mem hm hb wire n with ⟨b1, r1, r2, r3, r4, r5⟩ | ⟨b1, r1, r2⟩
    · have hcut : content b1.chunks ++ wire.drop (min n (room b)) = content b.chunks ++ wire := by
        rw [r3, List.append_assoc, List.take_append_drop]
      have hp1 : content b1.chunks <+: stream fs := (by rw [← hcut]; exact List.prefix_append _ _ : content b1.chunks <+: content b.chunks ++ wire).trans hp
      obtain ⟨done, todo, b2, h1, h2, h3, h4, h5, h6, h7⟩ := loop_spec hmax pause b1.useLen fs b1 r2 hf hp1 (Nat.le_refl _)
      have hcut2 : content b.chunks ++ wire = stream done ++ (content b2.chunks ++ wire.drop (min n (room b))) := by
        rw [← hcut, h4, List.append_assoc]
      have hp2 : content b2.chunks ++ wire.drop (min n (room b)) <+: stream todo := by
        rw [hcut2, h1, H2Feed.stream_append] at hp
        exact (List.prefix_append_right_inj _).1 hp
      have hs2 : (∀ f ∈ fs, pause f = false) → Short (content b2.chunks) todo := by
        intro hn
        rcases h5 with h5 | ⟨g, g1, g2⟩
        · exact h5
        · rw [hn g (by rw [h1]; simp [g1])] at g2; cases g2
      obtain ⟨done', todo', e1, e2⟩ := feed_spec mem hm hmax pause ns todo b2 (wire.drop (min n (room b))) h3 (fun f h => hf f (by rw [h1]; simp [h])) hp2
      have hlen : (wire.drop (min n (room b))).length - busy ns ≤ wire.length - busy (n :: ns) := by
        have := hb.room
        rw [List.length_drop]
        unfold busy
        by_cases h0 : n = 0
        · rw [List.filter_cons_of_neg (by simp [h0])]; omega
        · rw [List.filter_cons_of_pos (by simp [h0]), List.length_cons]; omega
      refine ⟨done ++ done', todo', by rw [h1, e1, List.append_assoc], ?_⟩
      rcases e2 with ⟨b', rest, q1, q2, q3, q4, q5⟩ | ⟨q1, q2⟩
      · refine Or.inl ⟨b', rest, ?_, q2, ?_, by omega, ?_⟩
        · unfold feed
          rw [r1]
          simp only
          rw [h2]
          simp only
          rw [q1]
        · rw [hcut2, q3, H2Feed.stream_append, List.append_assoc]
        · intro hn _
          exact q5 (fun f h => hn f (by rw [h1]; simp [h])) (hs2 hn)
      · refine Or.inr ⟨?_, ?_⟩
        · unfold feed
          rw [r1]
          simp only
          rw [h2]
          simp only
          rw [q1]
        · rintro ⟨hn, _, hcap⟩
          exact q2 ⟨fun f h => hn f (by rw [h1]; simp [h]), hs2 hn, by rw [h6, h7, r4, r5]; exact hcap⟩
    · refine ⟨[], fs, rfl, Or.inr ⟨?_, ?_⟩⟩
      · unfold feed
        rw [r1]
      · rintro ⟨_, hs, hcap⟩
        have := short_length hf hs
        have := room_le hb.wf
        omega

/-- The events after all bytes have arrived. -/
theorem feed_rest (mem : Nat → Bytes) {max : Nat} (hmax : max < 2 ^ 24) (pause : Raw → Bool) : ∀ (m : Nat) (fs : List Raw) (b : Buf), Good b → (∀ f ∈ fs, f.Fits max) → content b.chunks = stream fs →
    (fs.filter pause).length < m → ∃ b', feed mem max pause b [] (List.replicate m 0) = (fs, .waits b' []) ∧ b'.useLen = 0
  | 0, _, _, _, _, _, h => by omega
  | m + 1, fs, b, hb, hf, hc, hlt => by
    obtain ⟨done, todo, b2, h1, h2, h3, h4, h5, h6, h7⟩ := loop_spec hmax pause b.useLen fs b hb hf (by rw [hc]; exact List.prefix_refl _) (Nat.le_refl _)
    have hleft : content b2.chunks = stream todo := by
      rw [hc, h1, H2Feed.stream_append] at h4
      exact (List.append_cancel_left h4).symm
    have hstep : feed mem max pause b [] (List.replicate (m + 1) 0) =
        (done ++ (feed mem max pause b2 [] (List.replicate m 0)).1, (feed mem max pause b2 [] (List.replicate m 0)).2) := by
      rw [List.replicate_succ]
      conv => lhs; unfold feed
      simp only [receive, List.take_nil, List.drop_nil, if_true]
      rw [h2]
    have hshort : Short (content b2.chunks) todo → todo = [] := by
      intro h
      cases todo with
      | nil => rfl
      | cons f t =>
        exfalso
        have := h.2
        rw [hleft] at this
        simp only [stream, List.map_cons, List.flatten_cons, List.length_append] at this
        omega
    rw [hstep]
    cases todo with
    | nil =>
      have hz : b2.useLen = 0 := by rw [h3.wf.use, hleft]; rfl
      have hnil : ∀ (k : Nat), feed mem max pause b2 [] (List.replicate k 0) = ([], .waits b2 []) := by
        intro k
        induction k with
        | zero => rfl
        | succ k ih =>
          rw [List.replicate_succ]
          conv => lhs; unfold feed
          simp only [receive, List.take_nil, List.drop_nil, if_true]
          rw [hz]
          simp only [loop]
          rw [ih]
          rfl
      rw [hnil m]
      exact ⟨b2, by rw [h1], hz⟩
    | cons g t =>
      have hlt2 : ((g :: t).filter pause).length < m := by
        rcases h5 with h5 | ⟨f, f1, f2⟩
        · cases hshort h5
        · have : 0 < (done.filter pause).length := List.length_pos_iff.2 (List.ne_nil_of_mem (List.mem_filter.2 ⟨f1, f2⟩))
          rw [h1, List.filter_append, List.length_append] at hlt
          omega
      obtain ⟨b', e1, e2⟩ := feed_rest mem hmax pause m (g :: t) b2 h3 (fun f h => hf f (by rw [h1]; simp at h ⊢; right; exact h)) hleft hlt2
      rw [e1]
      exact ⟨b', by rw [h1], e2⟩

theorem feed_append (mem : Nat → Bytes) (max : Nat) (pause : Raw → Bool) : ∀ (ns ms : List Nat) (b : Buf) (wire : Bytes) (fs : List Raw) (b' : Buf) (rest : Bytes),
    feed mem max pause b wire ns = (fs, .waits b' rest) →
    feed mem max pause b wire (ns ++ ms) = (fs ++ (feed mem max pause b' rest ms).1, (feed mem max pause b' rest ms).2)
  | [], ms, b, wire, fs, b', rest, h => by
    simp only [feed, Prod.mk.injEq, State.waits.injEq] at h
    obtain ⟨rfl, rfl, rfl⟩ := h
    simp
  | n :: ns, ms, b, wire, fs, b', rest, h => by
    rw [List.cons_append]
    unfold feed at h
    conv => lhs; unfold feed
    cases hr : receive mem b wire n with
    | none => rw [hr] at h; cases h
    | some u =>
      rw [hr] at h
      cases u with
      | limit _ => cases h
      | success b1 =>
        simp only at h ⊢
        cases hl : loop max pause b1.useLen b1 with
        | mk gs e =>
          rw [hl] at h
          cases e with
          | tooLong => cases h
          | undef => cases h
          | waits b2 =>
            simp only [Prod.mk.injEq] at h ⊢
            obtain ⟨h1, h2⟩ := h
            cases hq : feed mem max pause b2 (wire.drop (min n (room b))) ns with
            | mk qs st =>
              rw [hq] at h1 h2
              simp only at h1 h2
              subst h2
              rw [feed_append mem max pause ns ms b2 _ qs b' rest hq, ← h1]
              simp

theorem feed_overflow (mem : Nat → Bytes) (max : Nat) (pause : Raw → Bool) : ∀ (ns ms : List Nat) (b : Buf) (wire : Bytes) (fs : List Raw),
    feed mem max pause b wire ns = (fs, .overflow) → feed mem max pause b wire (ns ++ ms) = (fs, .overflow)
  | [], ms, b, wire, fs, h => by simp [feed] at h
  | n :: ns, ms, b, wire, fs, h => by
    rw [List.cons_append]
    unfold feed at h
    conv => lhs; unfold feed
    cases hr : receive mem b wire n with
    | none => rw [hr] at h; cases h
    | some u =>
      rw [hr] at h
      cases u with
      | limit _ => exact h
      | success b1 =>
        simp only at h ⊢
        cases hl : loop max pause b1.useLen b1 with
        | mk gs e =>
          rw [hl] at h
          cases e with
          | tooLong => cases h
          | undef => cases h
          | waits b2 =>
            simp only [Prod.mk.injEq] at h ⊢
            obtain ⟨h1, h2⟩ := h
            cases hq : feed mem max pause b2 (wire.drop (min n (room b))) ns with
            | mk qs st =>
              rw [hq] at h1 h2
              simp only at h1 h2
              subst h2
              rw [feed_overflow mem max pause ns ms b2 _ qs hq]
              exact ⟨h1, rfl⟩

/-! ## The connection preface -/

theorem init_good (mem : Nat → Bytes) (hm : ∀ n, (mem n).length = n) (cm per : Nat) (hp : 0 < per) (hc : 0 < cm) :
    ∃ b, Buffer.init mem 1 cm per = some b ∧ Good b ∧ content b.chunks = [] ∧ b.perLen = per ∧ b.chainMax = cm ∧ room b = per := by
  obtain ⟨b, h1, h2, h3, h4, h5⟩ := Buffer.init_one mem hm cm per hp hc
  have hb : b = ⟨[Chunk.fresh (mem per)], cm, per, 0⟩ := by
    simp [Buffer.init, Buffer.init.go, Buffer.addChain] at h1
    exact h1.2.symm
  have hr : room b = per := by
    rw [hb]
    show (mem per).length - 0 = per
    rw [hm]; rfl
  exact ⟨b, h1, ⟨h2, by omega, by omega⟩, h3, h4, h5, hr⟩

/-- Events with which nothing arrives. -/
theorem start_zeros (mem : Nat → Bytes) (max : Nat) (pause : Raw → Bool) (b : Buf) (h : b.useLen = 0) (wire : Bytes) (ns : List Nat) : ∀ (z : Nat),
    start mem max pause b wire (List.replicate z 0 ++ ns) = start mem max pause b wire ns
  | 0 => rfl
  | z + 1 => by
    rw [List.replicate_succ, List.cons_append]
    conv => lhs; unfold start
    simp only [receive, Nat.zero_min, List.take_zero, List.drop_zero, if_true]
    rw [if_pos ⟨trivial, by omega⟩, start_zeros mem max pause b h wire ns z]

theorem preface_take (b : Buf) (h : Good b) (h24 : 24 ≤ (content b.chunks).length) :
    Buffer.initPreface b = if (content b.chunks).take 24 = Buffer.preface then .ok else .error := by
  have hpl : Buffer.preface.length = 24 := by decide
  have hr := h.room
  have := Buffer.memcmpFirst_spec b h.wf Buffer.preface (by decide) (by rw [hpl]; exact h24) (by rw [hpl]; omega)
  unfold Buffer.initPreface
  rw [this, hpl]
  by_cases he : (content b.chunks).take 24 = Buffer.preface
  · rw [if_pos he, if_pos he]
  · rw [if_neg he, if_neg he]

/-- The first bytes: the preface, whole. -/
theorem start_spec (mem : Nat → Bytes) (hm : ∀ n, (mem n).length = n) {max : Nat} (hmax : max < 2 ^ 24) (pause : Raw → Bool) (fs : List Raw) (hf : ∀ f ∈ fs, f.Fits max) (b : Buf) (hb : Good b)
    (h0 : content b.chunks = []) (hr : 24 ≤ room b) (n : Nat) (hn : 24 ≤ n) (ns : List Nat) :
    (∃ done todo b3, fs = done ++ todo ∧ Good b3 ∧ stream fs = stream done ++ (content b3.chunks ++ (Buffer.preface ++ stream fs).drop (min n (room b))) ∧
      start mem max pause b (Buffer.preface ++ stream fs) (n :: ns) =
        (done ++ (feed mem max pause b3 ((Buffer.preface ++ stream fs).drop (min n (room b))) ns).1, (feed mem max pause b3 ((Buffer.preface ++ stream fs).drop (min n (room b))) ns).2) ∧
      ((∀ f ∈ fs, pause f = false) → Short (content b3.chunks) todo) ∧ b3.perLen = b.perLen ∧ b3.chainMax = b.chainMax) ∨
    (start mem max pause b (Buffer.preface ++ stream fs) (n :: ns) = ([], .overflow) ∧ (b.chainMax - 1) * b.perLen < b.perLen) := by
  have hpl : Buffer.preface.length = 24 := by decide
  have hk : 24 ≤ min n (room b) := by omega
  rcases receive_spec mem hm hb (Buffer.preface ++ stream fs) n with ⟨b1, r1, r2, r3, r4, r5⟩ | ⟨b1, r1, r2⟩
  · left
    generalize hkk : min n (room b) = k at hk r3 ⊢
    rw [h0, List.nil_append] at r3
    have htake : (Buffer.preface ++ stream fs).take k = Buffer.preface ++ (stream fs).take (k - 24) := by
      rw [List.take_append, hpl, List.take_of_length_le (by rw [hpl]; exact hk)]
    have hc24 : (content b1.chunks).take 24 = Buffer.preface := by
      rw [r3, htake]
      conv => lhs; rw [← hpl]
      rw [List.take_left]
    have hlen : 24 ≤ (content b1.chunks).length := by rw [r3, htake, List.length_append, hpl]; omega
    have hok : Buffer.initPreface b1 = .ok := by rw [preface_take b1 r2 hlen, if_pos hc24]
    obtain ⟨b2, e1, e2, e3, e4, e5⟩ := r2.release hlen
    have hc2 : content b2.chunks = (stream fs).take (k - 24) := by
      rw [e3, r3, htake, List.drop_left' hpl]
    have hdrop : (Buffer.preface ++ stream fs).drop k = (stream fs).drop (k - 24) := by
      rw [List.drop_append, hpl, List.drop_of_length_le (by rw [hpl]; exact hk), List.nil_append]
    obtain ⟨done, todo, b3, h1, h2, h3, h4, h5, h6, h7⟩ := loop_spec hmax pause b2.useLen fs b2 e2 hf (by rw [hc2]; exact List.take_prefix _ _) (Nat.le_refl _)
    refine ⟨done, todo, b3, h1, h3, ?_, ?_, ?_, by rw [h6, e4, r4], by rw [h7, e5, r5]⟩
    · rw [hdrop, ← List.append_assoc, ← h4, hc2, List.take_append_drop]
    · conv => lhs; unfold start
      rw [r1]
      simp only
      rw [hkk, if_neg (by rintro ⟨hx, _⟩; rw [htake] at hx; have := congrArg List.length hx; rw [List.length_append, hpl] at this; simp at this), hok]
      simp only
      rw [e1]
      simp only
      rw [h2]
    · intro hq
      rcases h5 with h5 | ⟨g, g1, g2⟩
      · exact h5
      · rw [hq g (by rw [h1]; simp [g1])] at g2; cases g2
  · right
    refine ⟨?_, ?_⟩
    · unfold start
      rw [r1]
    · rw [h0] at r2
      have := room_le hb.wf
      simp only [List.length_nil] at r2
      omega

/-- **C208: frames through the connection buffer.** A client sends the connection preface and then any frames the server allows.  Whatever the size of the chunks of the buffer (24 bytes at least), whatever was
in the memory they are made of, and however many bytes each event brings, as long as the first bytes contain the whole preface: the frames handled are the first ones of the client, in their order, each once,
with the type, flags, stream and payload they were sent with.  Every byte of the other frames is in the buffer or has not been read yet, and if no frame begins a response, the buffer holds less than
the next frame.  The connection goes on, or the buffer has no room left.  Missing: prefaces that arrive in pieces (C55), what the frames do (C199). -/
theorem C208_frames_in_order_partial (mem : Nat → Bytes) (hm : ∀ n, (mem n).length = n) (chainMax perLen : Nat) (hp : 24 ≤ perLen) (hc : 0 < chainMax) (max : Nat) (hmax : max < 2 ^ 24) (pause : Raw → Bool)
    (fs : List Raw) (hf : ∀ f ∈ fs, f.Fits max) (z n : Nat) (hn : 24 ≤ n) (ns : List Nat) :
    ∃ b0, Buffer.init mem 1 chainMax perLen = some b0 ∧ ∃ done todo, fs = done ++ todo ∧
      ((∃ b rest, start mem max pause b0 (b!"PRI * HTTP/2.0\r\n\r\nSM\r\n\r\n" ++ stream fs) (List.replicate z 0 ++ n :: ns) = (done, .waits b rest) ∧ (stream done).length + b.useLen + rest.length = (stream fs).length ∧
          ((∀ f ∈ fs, pause f = false) → (todo = [] → b.useLen = 0) ∧ ∀ f t, todo = f :: t → b.useLen < 9 + f.payload.length)) ∨
        start mem max pause b0 (b!"PRI * HTTP/2.0\r\n\r\nSM\r\n\r\n" ++ stream fs) (List.replicate z 0 ++ n :: ns) = (done, .overflow)) := by
  obtain ⟨b0, i1, i2, i3, i4, i5, i6⟩ := init_good mem hm chainMax perLen (by omega) hc
  refine ⟨b0, i1, ?_⟩
  rw [start_zeros mem max pause b0 (by rw [i2.wf.use, i3]; rfl)]
  change ∃ done todo, fs = done ++ todo ∧ ((∃ b rest, start mem max pause b0 (Buffer.preface ++ stream fs) (n :: ns) = (done, .waits b rest) ∧ (stream done).length + b.useLen + rest.length = (stream fs).length ∧
          ((∀ f ∈ fs, pause f = false) → (todo = [] → b.useLen = 0) ∧ ∀ f t, todo = f :: t → b.useLen < 9 + f.payload.length)) ∨
    start mem max pause b0 (Buffer.preface ++ stream fs) (n :: ns) = (done, .overflow))
  rcases start_spec mem hm hmax pause fs hf b0 i2 i3 (by omega) n hn ns with ⟨done, todo, b3, h1, h2, h3, h4, h5, h6, h7⟩ | ⟨h1, _⟩
  · have hp2 : content b3.chunks ++ (Buffer.preface ++ stream fs).drop (min n (room b0)) <+: stream todo := by
      have h3' := h3
      conv at h3' => lhs; rw [h1, H2Feed.stream_append]
      rw [← List.append_cancel_left h3']
      exact List.prefix_refl _
    obtain ⟨done', todo', e1, e2⟩ := feed_spec mem hm hmax pause ns todo b3 _ h2 (fun f h => hf f (by rw [h1]; simp [h])) hp2
    refine ⟨done ++ done', todo', by rw [h1, e1, List.append_assoc], ?_⟩
    rcases e2 with ⟨b', rest, q1, q2, q3, _, q5⟩ | ⟨q1, _⟩
    · left
      refine ⟨b', rest, by rw [h4, q1], ?_, fun hq => ?_⟩
      · have hl := congrArg List.length h3
        have hl2 := congrArg List.length q3
        rw [List.length_append] at hl
        rw [List.length_append (bs := content b'.chunks ++ rest), List.length_append (bs := rest)] at hl2
        rw [H2Feed.stream_append, List.length_append, q2.wf.use]
        omega
      · have hs := q5 (fun f h => hq f (by rw [h1]; simp [h])) (h5 hq)
        rw [q2.wf.use]
        refine ⟨fun h => ?_, fun f t h => ?_⟩
        · rw [h] at hs; rw [show content b'.chunks = [] from hs]; rfl
        · rw [h] at hs
          have := hs.2
          rwa [H2Feed.bytes_length] at this
    · right; rw [h4, q1]
  · exact ⟨[], fs, rfl, Or.inr h1⟩

/-- **C208: all frames are handled.** If every byte is read (as many events bring bytes as there are bytes at most) and as many events follow as there are frames that begin responses and one more, all
frames have been handled and the buffer is empty — or it had no room left at some time. -/
theorem C208_all_frames_partial (mem : Nat → Bytes) (hm : ∀ n, (mem n).length = n) (chainMax perLen : Nat) (hp : 24 ≤ perLen) (hc : 0 < chainMax) (max : Nat) (hmax : max < 2 ^ 24) (pause : Raw → Bool)
    (fs : List Raw) (hf : ∀ f ∈ fs, f.Fits max) (z n : Nat) (hn : 24 ≤ n) (ns : List Nat) (hns : (stream fs).length ≤ (ns.filter (· ≠ 0)).length) (m : Nat) (hlt : (fs.filter pause).length < m) :
    ∃ b0, Buffer.init mem 1 chainMax perLen = some b0 ∧
      ((∃ b, start mem max pause b0 (b!"PRI * HTTP/2.0\r\n\r\nSM\r\n\r\n" ++ stream fs) (List.replicate z 0 ++ n :: (ns ++ List.replicate m 0)) = (fs, .waits b []) ∧ b.useLen = 0) ∨
        ∃ done, start mem max pause b0 (b!"PRI * HTTP/2.0\r\n\r\nSM\r\n\r\n" ++ stream fs) (List.replicate z 0 ++ n :: (ns ++ List.replicate m 0)) = (done, .overflow)) := by
  obtain ⟨b0, i1, i2, i3, i4, i5, i6⟩ := init_good mem hm chainMax perLen (by omega) hc
  refine ⟨b0, i1, ?_⟩
  rw [start_zeros mem max pause b0 (by rw [i2.wf.use, i3]; rfl)]
  change (∃ b, start mem max pause b0 (Buffer.preface ++ stream fs) (n :: (ns ++ List.replicate m 0)) = (fs, .waits b []) ∧ b.useLen = 0) ∨
    ∃ done, start mem max pause b0 (Buffer.preface ++ stream fs) (n :: (ns ++ List.replicate m 0)) = (done, .overflow)
  rcases start_spec mem hm hmax pause fs hf b0 i2 i3 (by omega) n hn (ns ++ List.replicate m 0) with ⟨done, todo, b3, h1, h2, h3, h4, h5, h6, h7⟩ | ⟨h1, _⟩
  · have h3' := h3
    conv at h3' => lhs; rw [h1, H2Feed.stream_append]
    have h3' := List.append_cancel_left h3'
    obtain ⟨done', todo', e1, e2⟩ := feed_spec mem hm hmax pause ns todo b3 _ h2 (fun f h => hf f (by rw [h1]; simp [h])) (by rw [← h3']; exact List.prefix_refl _)
    rcases e2 with ⟨b', rest, q1, q2, q3, q4, _⟩ | ⟨q1, _⟩
    · left
      have hrest : rest = [] := by
        have hpl : Buffer.preface.length = 24 := by decide
        apply List.length_eq_zero_iff.1
        unfold busy at q4
        rw [List.length_drop, List.length_append, hpl] at q4
        omega
      subst hrest
      have hc' : content b'.chunks = stream todo' := by
        rw [← h3', e1, H2Feed.stream_append, List.append_nil] at q3
        exact (List.append_cancel_left q3).symm
      obtain ⟨b'', k1, k2⟩ := feed_rest mem hmax pause m todo' b' q2 (fun f h => hf f (by rw [h1, e1]; simp [h])) hc' (by
        rw [h1, e1, List.filter_append, List.filter_append, List.length_append, List.length_append] at hlt
        omega)
      refine ⟨b'', ?_, k2⟩
      rw [h4, feed_append mem max pause ns _ b3 _ done' b' [] q1, k1, h1, e1]
    · right
      exact ⟨done ++ done', by rw [h4, feed_overflow mem max pause ns _ b3 _ done' q1]⟩
  · exact Or.inr ⟨[], h1⟩

/-- **C208: the buffer does not run out of room.** If the buffer has one chunk more than a frame and a read need, and no frame begins a response (after which frames may pile up), it never runs out of room. -/
theorem C208_no_overflow_partial (mem : Nat → Bytes) (hm : ∀ n, (mem n).length = n) (chainMax perLen : Nat) (hp : 24 ≤ perLen) (hc : 0 < chainMax) (max : Nat) (hmax : max < 2 ^ 24) (pause : Raw → Bool)
    (fs : List Raw) (hf : ∀ f ∈ fs, f.Fits max) (hq : ∀ f ∈ fs, pause f = false) (hcap : 8 + max + perLen ≤ (chainMax - 1) * perLen) (z n : Nat) (hn : 24 ≤ n) (ns : List Nat) :
    ∃ b0, Buffer.init mem 1 chainMax perLen = some b0 ∧
      ∀ done, start mem max pause b0 (b!"PRI * HTTP/2.0\r\n\r\nSM\r\n\r\n" ++ stream fs) (List.replicate z 0 ++ n :: ns) ≠ (done, .overflow) := by
  obtain ⟨b0, i1, i2, i3, i4, i5, i6⟩ := init_good mem hm chainMax perLen (by omega) hc
  refine ⟨b0, i1, ?_⟩
  rw [start_zeros mem max pause b0 (by rw [i2.wf.use, i3]; rfl)]
  change ∀ done, start mem max pause b0 (Buffer.preface ++ stream fs) (n :: ns) ≠ (done, .overflow)
  intro d hd
  rcases start_spec mem hm hmax pause fs hf b0 i2 i3 (by omega) n hn ns with ⟨done, todo, b3, h1, h2, h3, h4, h5, h6, h7⟩ | ⟨_, h1⟩
  · have h3' := h3
    conv at h3' => lhs; rw [h1, H2Feed.stream_append]
    have h3' := List.append_cancel_left h3'
    obtain ⟨done', todo', e1, e2⟩ := feed_spec mem hm hmax pause ns todo b3 _ h2 (fun f h => hf f (by rw [h1]; simp [h])) (by rw [← h3']; exact List.prefix_refl _)
    rcases e2 with ⟨b', rest, q1, _⟩ | ⟨_, q2⟩
    · rw [h4, q1] at hd
      simp at hd
    · exact q2 ⟨fun f h => hq f (by rw [h1]; simp [h]), h5 hq, by rw [h6, h7, i4, i5]; exact hcap⟩
  · rw [i4, i5] at h1
    omega

/-- **C208: a wrong preface.** If the first 24 bytes are there and are not the connection preface, the connection is refused and no frame is handled, whatever else the client sends. -/
theorem C208_wrong_preface_refused_partial (mem : Nat → Bytes) (hm : ∀ n, (mem n).length = n) (chainMax perLen : Nat) (hp : 24 ≤ perLen) (hc : 2 ≤ chainMax) (max : Nat) (pause : Raw → Bool)
    (wire : Bytes) (hl : 24 ≤ wire.length) (hw : wire.take 24 ≠ b!"PRI * HTTP/2.0\r\n\r\nSM\r\n\r\n") (z n : Nat) (hn : 24 ≤ n) (ns : List Nat) :
    ∃ b0, Buffer.init mem 1 chainMax perLen = some b0 ∧ start mem max pause b0 wire (List.replicate z 0 ++ n :: ns) = ([], .refused) := by
  obtain ⟨b0, i1, i2, i3, i4, i5, i6⟩ := init_good mem hm chainMax perLen (by omega) (by omega)
  refine ⟨b0, i1, ?_⟩
  rw [start_zeros mem max pause b0 (by rw [i2.wf.use, i3]; rfl)]
  rcases receive_spec mem hm i2 wire n with ⟨b1, r1, r2, r3, r4, r5⟩ | ⟨b1, r1, r2⟩
  · rw [i3, List.nil_append] at r3
    have hlen : 24 ≤ (content b1.chunks).length := by rw [r3, List.length_take]; omega
    have hne : (content b1.chunks).take 24 ≠ Buffer.preface := by
      rw [r3, List.take_take, Nat.min_eq_left (by omega)]
      exact hw
    unfold start
    rw [r1]
    simp only
    rw [if_neg (by rintro ⟨hx, _⟩; rw [r3, hx] at hlen; simp at hlen), preface_take b1 r2 hlen, if_neg hne]
  · exfalso
    rw [i3, i4, i5, i6] at r2
    simp only [List.length_nil] at r2
    have : 1 * perLen ≤ (chainMax - 1) * perLen := Nat.mul_le_mul_right _ (by omega)
    omega

/-! ## A frame that does not fit into the buffer -/

theorem content_le {L : Nat} : ∀ (cs : List Chunk), (∀ c ∈ cs, CWF L c) → (content cs).length ≤ cs.length * L
  | [], _ => by simp [content]
  | c :: cs, h => by
    have := content_le cs (fun x hx => h x (by simp [hx]))
    have h1 := h c (by simp)
    have := h1.filledLe
    rw [Buffer.content_cons, List.length_append, Buffer.used_length h1, List.length_cons, Nat.succ_mul]
    omega

/-- A buffer with room holds less than all its chunks could. -/
theorem Good.less {b : Buf} (h : Good b) : (content b.chunks).length < b.chainMax * b.perLen := by
  obtain ⟨front, last, hc, _⟩ := h.wf.ex
  have hlw := h.wf.all last (by rw [hc]; simp)
  have hr := h.room
  have hl : b.chunks.getLast? = some last := by rw [hc]; simp
  simp only [Buffer.room, hl, Chunk.unuseLen, hlw.len] at hr
  have hfr := content_le front (fun c hcm => h.wf.all c (by rw [hc]; simp [hcm]))
  have hle := h.wf.le
  have hmul : b.chunks.length * b.perLen ≤ b.chainMax * b.perLen := Nat.mul_le_mul_right _ hle
  have hcl : b.chunks.length = front.length + 1 := by rw [hc]; simp
  rw [hcl, Nat.succ_mul] at hmul
  have hcont : (content b.chunks).length = (content front).length + (content [last]).length := by rw [hc, Buffer.content_append, List.length_append]
  have h1 : (content [last]).length = last.filled - last.useOff := by
    rw [Buffer.content_cons, List.length_append, Buffer.used_length hlw]; simp [content]
  omega

theorem feed_never (mem : Nat → Bytes) (hm : ∀ n, (mem n).length = n) {max : Nat} (hmax : max < 2 ^ 24) (pause : Raw → Bool) {f : Raw} {fs : List Raw} (hf : ∀ g ∈ f :: fs, g.Fits max) :
    ∀ (ns : List Nat) (b : Buf) (wire : Bytes), Good b → content b.chunks ++ wire = stream (f :: fs) → b.chainMax * b.perLen ≤ f.bytes.length → wire.length ≤ busy ns →
      feed mem max pause b wire ns = ([], .overflow)
  | [], b, wire, hb, hw, hcap, hns => by
    exfalso
    have h0 : wire = [] := List.length_eq_zero_iff.1 (by simpa [busy] using hns)
    have := hb.less
    have hl := congrArg List.length hw
    rw [h0] at hl
    simp only [stream, List.map_cons, List.flatten_cons, List.length_append, List.length_nil] at hl
    omega
  | n :: ns, b, wire, hb, hw, hcap, hns => by
    rcases receive_spec mem hm hb wire n with ⟨b1, r1, r2, r3, r4, r5⟩ | ⟨b1, r1, _⟩
    · have hcut : content b1.chunks ++ wire.drop (min n (room b)) = stream (f :: fs) := by
        rw [r3, List.append_assoc, List.take_append_drop, hw]
      obtain ⟨done, todo, b2, h1, h2, h3, h4, h5, h6, h7⟩ := loop_spec hmax pause b1.useLen (f :: fs) b1 r2 hf (by rw [← hcut]; exact List.prefix_append _ _) (Nat.le_refl _)
      have hdone : done = [] := by
        cases done with
        | nil => rfl
        | cons g t =>
          exfalso
          rw [List.cons_append, List.cons.injEq] at h1
          have := r2.less
          rw [r4, r5, h4, ← h1.1] at this
          simp only [stream, List.map_cons, List.flatten_cons, List.length_append] at this
          omega
      subst hdone
      have hlen : (wire.drop (min n (room b))).length ≤ busy ns := by
        have := hb.room
        rw [List.length_drop]
        unfold busy at hns ⊢
        by_cases h0 : n = 0
        · rw [List.filter_cons_of_neg (by simp [h0])] at hns; omega
        · rw [List.filter_cons_of_pos (by simp [h0]), List.length_cons] at hns; omega
      unfold feed
      rw [r1]
      simp only
      rw [h2]
      simp only
      rw [feed_never mem hm hmax pause hf ns b2 _ h3 (by rw [← hcut, h4]; simp [stream]) (by rw [h6, h7, r4, r5]; exact hcap) hlen]
      rfl
    · unfold feed
      rw [r1]

/-- **C208: frames the server allows but has no room for.** The whole buffer may be as small as the largest frame without its header (src/v2.c:651-656 ask for no more).  If a frame and its header do not
fit into it with one byte left, the frame is never handled, however its bytes arrive: the buffer runs out of room and the handler fails. -/
theorem C208_allowed_frame_overflows_refuted (mem : Nat → Bytes) (hm : ∀ n, (mem n).length = n) (chainMax perLen : Nat) (hp : 24 ≤ perLen) (hc : 0 < chainMax) (max : Nat) (hmax : max < 2 ^ 24) (pause : Raw → Bool)
    (f : Raw) (fs : List Raw) (hf : ∀ g ∈ f :: fs, g.Fits max) (hcap : chainMax * perLen ≤ 9 + f.payload.length) (z n : Nat) (hn : 24 ≤ n) (ns : List Nat)
    (hns : (stream (f :: fs)).length ≤ (ns.filter (· ≠ 0)).length) :
    ∃ b0, Buffer.init mem 1 chainMax perLen = some b0 ∧
      start mem max pause b0 (b!"PRI * HTTP/2.0\r\n\r\nSM\r\n\r\n" ++ stream (f :: fs)) (List.replicate z 0 ++ n :: ns) = ([], .overflow) := by
  obtain ⟨b0, i1, i2, i3, i4, i5, i6⟩ := init_good mem hm chainMax perLen (by omega) hc
  refine ⟨b0, i1, ?_⟩
  rw [start_zeros mem max pause b0 (by rw [i2.wf.use, i3]; rfl)]
  change start mem max pause b0 (Buffer.preface ++ stream (f :: fs)) (n :: ns) = ([], .overflow)
  rcases start_spec mem hm hmax pause (f :: fs) hf b0 i2 i3 (by omega) n hn ns with ⟨done, todo, b3, h1, h2, h3, h4, h5, h6, h7⟩ | ⟨h1, _⟩
  · have hpl : Buffer.preface.length = 24 := by decide
    have hdone : done = [] := by
      cases done with
      | nil => rfl
      | cons g t =>
        exfalso
        have hb := H2Feed.bytes_length f
        rw [List.cons_append, List.cons.injEq] at h1
        have hl := congrArg List.length h3
        have hperle : perLen ≤ chainMax * perLen := Nat.le_mul_of_pos_left _ hc
        rw [List.length_append, List.length_append, List.length_drop, List.length_append, hpl, ← h1.1] at hl
        simp only [stream, List.map_cons, List.flatten_cons, List.length_append] at hl
        omega
    subst hdone
    rw [h4]
    have h3' : content b3.chunks ++ (Buffer.preface ++ stream (f :: fs)).drop (min n (room b0)) = stream (f :: fs) := by
      conv => rhs; rw [h3]
      simp [stream]
    rw [feed_never mem hm hmax pause hf ns b3 _ h2 h3' (by rw [h6, h7, i4, i5, H2Feed.bytes_length]; exact hcap) (by
      unfold busy
      rw [List.length_drop, List.length_append, hpl]
      omega)]
    rfl
  · exact h1

/-! ## Requests that pile up -/

/-- A read that fills the last chunk: there is a new one, or no room for it. -/
theorem receive_full (mem : Nat → Bytes) (hm : ∀ n, (mem n).length = n) {b b' : Buf} (h : Good b) {wire : Bytes} {n : Nat} (hn : room b ≤ n) (hw : room b ≤ wire.length)
    (hr : receive mem b wire n = some (.success b')) : room b' = b.perLen := by
  have hmin : min n (room b) = room b := by omega
  have hlen : (wire.take (room b)).length = room b := by rw [List.length_take]; omega
  have hpos := h.room
  unfold receive at hr
  simp only at hr
  rw [hmin, if_neg (by intro hx; rw [hx, List.length_nil] at hlen; omega)] at hr
  obtain ⟨front, last, hc, _⟩ := h.wf.ex
  have hlw := h.wf.all last (by rw [hc]; simp)
  have hlast : b.chunks.getLast? = some last := by rw [hc]; simp
  have hroom : room b = last.store.length - last.filled := by simp [room, hlast, Chunk.unuseLen]
  unfold Buffer.receive at hr
  rw [hlast] at hr
  simp only at hr
  unfold Buffer.updateBuffer at hr
  simp only [hc, Buffer.setLast_append, List.getLast?_concat] at hr
  have hwl := Buffer.writeAt_length last.store last.filled (wire.take (room b)) (by omega)
  unfold Buffer.updateLoop at hr
  have hun : Chunk.unuseLen { last with store := Buffer.writeAt last.store last.filled (wire.take (room b)) } = room b := by
    show (Buffer.writeAt last.store last.filled (wire.take (room b))).length - last.filled = room b
    rw [hwl, hroom]
  simp only [hun, hlen, ge_iff_le, Nat.le_refl, if_true, Nat.sub_self] at hr
  split at hr
  · cases hr
  · unfold Buffer.updateLoop at hr
    have hf : (Chunk.fresh (mem b.perLen)).unuseLen = b.perLen := by simp [Chunk.unuseLen, Chunk.fresh, hm]
    have hp := h.per
    simp only [hf] at hr
    rw [if_neg (by omega)] at hr
    simp only [if_true] at hr
    cases hr
    simp [room, hf]

theorem turn_room {b b' : Buf} {max : Nat} {f : Raw} (h : Good b) (hr : room b = b.perLen) (ht : turn max b = .frame f b') : room b' = b.perLen := by
  unfold turn at ht
  split at ht
  · cases ht
  split at ht
  · cases ht
  split at ht
  · cases ht
  split at ht
  · cases ht
  split at ht
  · cases ht
  split at ht
  · cases ht
  split at ht
  · cases ht
  split at ht
  · cases ht
  · rename_i hd _ _ _ _ _ _ _ _ _ b1 hrel
    cases ht
    have h1 := room_release hrel
    split
    · have hb1 := hrel
      unfold H2Buf.refresh
      cases hcs : b1.chunks with
      | nil => simp only; rw [h1, hr]
      | cons c rest =>
        simp only
        cases rest with
        | nil =>
          show c.store.length - 0 = b.perLen
          have : room b1 = c.store.length - c.filled := by simp [room, hcs, Chunk.unuseLen]
          have hle : c.store.length = b.perLen := by
            unfold Buffer.release at hrel
            cases hbc : b.chunks with
            | nil => rw [hbc] at hrel; cases hrel
            | cons d ds =>
              have hall := h.wf.all
              rw [hbc] at hrel hall
              simp only at hrel
              split at hrel
              · cases hrel
                simp only [List.cons.injEq] at hcs
                rw [← hcs.1]
                exact (hall d (by simp)).len
              · split at hrel
                · cases hrel
                · rename_i m more hdr
                  cases hrel
                  simp only [List.cons.injEq] at hcs
                  rw [← hcs.1]
                  exact (hall m (List.mem_of_mem_drop (by rw [hdr]; simp))).len
          omega
        | cons d ds =>
          rw [← hr, ← h1]
          simp only [room, hcs, List.getLast?_cons_cons]
    · rw [h1, hr]

/-- A frame that begins a response ends the loop. -/
theorem loop_one {max : Nat} (hmax : max < 2 ^ 24) (pause : Raw → Bool) {f : Raw} (hf : f.Fits max) (hp : pause f = true) {b : Buf} (hb : Good b) (hr : room b = b.perLen) {y : Bytes}
    (hc : content b.chunks = f.bytes ++ y) :
    ∃ b', loop max pause b.useLen b = ([f], .waits b') ∧ Good b' ∧ content b'.chunks = y ∧ room b' = b.perLen ∧ b'.perLen = b.perLen ∧ b'.chainMax = b.chainMax := by
  obtain ⟨p, p1, p2, p3⟩ := hb.place
  have ht := H2Feed.turn_frame p2 hmax hf y
  rw [← hc] at ht
  obtain ⟨b', t1, t2, t3, t4, t5⟩ := turn_of_frame hb p1 p3 ht
  refine ⟨b', ?_, t2, t3, turn_room hb hr t1, t4, t5⟩
  have hu : b.useLen = (content b.chunks).length := hb.wf.use
  rw [hc, List.length_append, H2Feed.bytes_length] at hu
  obtain ⟨n, hn⟩ : ∃ n, b.useLen = n + 1 := ⟨b.useLen - 1, by omega⟩
  rw [hn]
  unfold loop
  rw [t1]
  simp only
  rw [if_pos hp]

theorem feed_pile (mem : Nat → Bytes) (hm : ∀ n, (mem n).length = n) {max : Nat} (hmax : max < 2 ^ 24) (pause : Raw → Bool) (size per : Nat) (hsize : size < per) : ∀ (K : Nat) (fs : List Raw) (b : Buf) (wire : Bytes),
    Good b → b.perLen = per → room b = per → (∀ f ∈ fs, f.Fits max ∧ pause f = true ∧ f.bytes.length ≤ size) → content b.chunks ++ wire = stream fs → K * per ≤ wire.length →
    b.chainMax * per ≤ (content b.chunks).length + K * (per - size) → ∃ done, feed mem max pause b wire (List.replicate K per) = (done, .overflow)
  | 0, fs, b, wire, hb, hper, _, _, _, _, hcap => by
    exfalso
    have := hb.less
    rw [hper] at this
    omega
  | K + 1, fs, b, wire, hb, hper, hr, hf, hc, hw, hcap => by
    have hw1 : per ≤ wire.length := by rw [Nat.succ_mul] at hw; omega
    rw [List.replicate_succ]
    unfold feed
    rcases receive_spec mem hm hb wire per with ⟨b1, r1, r2, r3, r4, r5⟩ | ⟨b1, r1, _⟩
    · have hroom := receive_full mem hm hb (by omega) (by omega) r1
      rw [show min per (room b) = per by omega] at r3 ⊢
      rw [r1]
      simp only
      have hl := congrArg List.length hc
      rw [List.length_append] at hl
      cases fs with
      | nil =>
        exfalso
        rw [show stream [] = [] from rfl, List.length_nil] at hl
        omega
      | cons f t =>
        obtain ⟨f1, f2, f3⟩ := hf f (by simp)
        have hcut : content b1.chunks ++ wire.drop per = f.bytes ++ stream t := by
          rw [r3, List.append_assoc, List.take_append_drop, hc]; simp [stream]
        have hl1 : (content b1.chunks).length = (content b.chunks).length + per := by
          rw [r3, List.length_append, List.length_take]; omega
        obtain ⟨y, hy⟩ : f.bytes <+: content b1.chunks := List.prefix_of_prefix_length_le (List.prefix_append _ _) ⟨_, hcut⟩ (by omega)
        obtain ⟨b2, l1, l2, l3, l4, l5, l6⟩ := loop_one hmax pause f1 f2 r2 (by rw [hroom, r4]) hy.symm
        rw [l1]
        simp only
        have hyl : f.bytes.length + y.length = (content b.chunks).length + per := by rw [← hl1, ← hy, List.length_append]
        obtain ⟨done, hd⟩ := feed_pile mem hm hmax pause size per hsize K t b2 (wire.drop per) l2 (by rw [l5, r4, hper]) (by rw [l4, r4, hper]) (fun g hg => hf g (by simp [hg]))
          (by rw [← hy, List.append_assoc] at hcut; rw [l3]; exact List.append_cancel_left hcut) (by rw [List.length_drop]; rw [Nat.succ_mul] at hw; omega)
          (by rw [l6, r5, l3]; rw [Nat.succ_mul] at hcap; omega)
        rw [hd]
        exact ⟨_, rfl⟩
    · rw [r1]
      exact ⟨[], rfl⟩

/-- **C208: requests that pile up.** With every event at most one frame that begins a response is handled, but a whole chunk is read.  A client that sends enough such frames at once, each of them smaller than a
chunk and allowed, runs the buffer out of room: the connection fails, though none of the frames is wrong. -/
theorem C208_pipelined_requests_overflow_refuted (mem : Nat → Bytes) (hm : ∀ n, (mem n).length = n) (chainMax perLen : Nat) (hc : 0 < chainMax) (max : Nat) (hmax : max < 2 ^ 24) (pause : Raw → Bool)
    (size : Nat) (hsize : 24 + size ≤ perLen) (fs : List Raw) (hf : ∀ f ∈ fs, f.Fits max ∧ pause f = true ∧ f.bytes.length ≤ size) (hlong : (chainMax * perLen + 1) * perLen ≤ (stream fs).length) :
    ∃ b0, Buffer.init mem 1 chainMax perLen = some b0 ∧
      ∃ done, start mem max pause b0 (b!"PRI * HTTP/2.0\r\n\r\nSM\r\n\r\n" ++ stream fs) (List.replicate (chainMax * perLen + 1) perLen) = (done, .overflow) := by
  obtain ⟨b0, i1, i2, i3, i4, i5, i6⟩ := init_good mem hm chainMax perLen (by omega) hc
  refine ⟨b0, i1, ?_⟩
  rw [List.replicate_succ]
  change ∃ done, start mem max pause b0 (Buffer.preface ++ stream fs) (perLen :: List.replicate (chainMax * perLen) perLen) = (done, .overflow)
  have hpl : Buffer.preface.length = 24 := by decide
  rw [Nat.succ_mul] at hlong
  rcases receive_spec mem hm i2 (Buffer.preface ++ stream fs) perLen with ⟨b1, r1, r2, r3, r4, r5⟩ | ⟨b1, r1, _⟩
  · have hroom := receive_full mem hm i2 (by omega) (by rw [List.length_append]; omega) r1
    rw [i3, List.nil_append, i6, Nat.min_self] at r3
    have htake : (Buffer.preface ++ stream fs).take perLen = Buffer.preface ++ (stream fs).take (perLen - 24) := by
      rw [List.take_append, hpl, List.take_of_length_le (by rw [hpl]; omega)]
    have hc24 : (content b1.chunks).take 24 = Buffer.preface := by rw [r3, htake, List.take_left' hpl]
    have hlen : 24 ≤ (content b1.chunks).length := by rw [r3, htake, List.length_append, hpl]; omega
    have hok : Buffer.initPreface b1 = .ok := by rw [preface_take b1 r2 hlen, if_pos hc24]
    obtain ⟨b2, e1, e2, e3, e4, e5⟩ := r2.release hlen
    have hc2 : content b2.chunks = (stream fs).take (perLen - 24) := by rw [e3, r3, htake, List.drop_left' hpl]
    have hdrop : (Buffer.preface ++ stream fs).drop perLen = (stream fs).drop (perLen - 24) := by
      rw [List.drop_append, hpl, List.drop_of_length_le (by rw [hpl]; omega), List.nil_append]
    have hroom2 : room b2 = b2.perLen := by rw [room_release e1, hroom, e4, r4]
    unfold start
    rw [r1]
    simp only
    rw [i6, Nat.min_self, if_neg (by rintro ⟨hx, _⟩; rw [htake] at hx; have := congrArg List.length hx; rw [List.length_append, hpl] at this; simp at this), hok]
    simp only
    rw [e1]
    simp only
    cases fs with
    | nil =>
      exfalso
      simp [stream] at hlong
      omega
    | cons f t =>
      obtain ⟨f1, f2, f3⟩ := hf f (by simp)
      have hcut : content b2.chunks ++ (stream (f :: t)).drop (perLen - 24) = f.bytes ++ stream t := by
        rw [hc2, List.take_append_drop]; simp [stream]
      obtain ⟨y, hy⟩ : f.bytes <+: content b2.chunks := List.prefix_of_prefix_length_le (List.prefix_append _ _) ⟨_, hcut⟩ (by rw [hc2, List.length_take]; omega)
      obtain ⟨b3, l1, l2, l3, l4, l5, l6⟩ := loop_one hmax pause f1 f2 e2 hroom2 hy.symm
      rw [l1, hdrop]
      simp only
      have hmul : chainMax * perLen ≤ chainMax * perLen * (perLen - size) := Nat.le_mul_of_pos_right _ (by omega)
      obtain ⟨done, hd⟩ := feed_pile mem hm hmax pause size perLen (by omega) (chainMax * perLen) t b3 ((stream (f :: t)).drop (perLen - 24)) l2 (by rw [l5, e4, r4, i4]) (by rw [l4, e4, r4, i4])
        (fun g hg => hf g (by simp [hg])) (by rw [← hy, List.append_assoc] at hcut; rw [l3]; exact List.append_cancel_left hcut) (by rw [List.length_drop]; omega)
        (by rw [l6, e5, r5, i5]; omega)
      rw [hd]
      exact ⟨_, rfl⟩
  · unfold start
    rw [r1]
    exact ⟨[], rfl⟩

/-! ## A frame that is too long -/

open H2 (wireHeader) in
theorem turn_of_tooLong {b : Buf} (h : Good b) {max : Nat} {f : Raw} (hs : f.sid < 2 ^ 31) (h1 : max < f.payload.length) (h2 : f.payload.length < 2 ^ 24) {x : Bytes}
    (hb : content b.chunks = wireHeader f.payload.length f.type f.flags false f.sid ++ x) : turn max b = .tooLong := by
  obtain ⟨p, p1, p2, p3⟩ := h.place
  have ht := H2Feed.turn_tooLong p2 hs h1 h2 (f := f) x
  rw [← hb] at ht
  unfold H2Feed.turn at ht
  unfold turn
  rw [p1, h.wf.use]
  rw [p3] at ht
  split at ht
  · cases ht
  · rename_i h9
    rw [if_neg h9]
    simp only
    split at ht
    · cases ht
    · rename_i hd hh
      rw [hh]
      simp only
      split at ht
      · rename_i hm
        rw [if_pos hm]
      · split at ht
        · cases ht
        · split at ht
          · cases ht
          · split at ht <;> cases ht

/-- The complete frames in front are taken. -/
theorem loop_take {max : Nat} (hmax : max < 2 ^ 24) (pause : Raw → Bool) : ∀ (fs : List Raw) (n : Nat) (b : Buf) (y : Bytes), Good b → (∀ g ∈ fs, g.Fits max ∧ pause g = false) →
    content b.chunks = stream fs ++ y →
    ∃ b', loop max pause (n + fs.length) b = (fs ++ (loop max pause n b').1, (loop max pause n b').2) ∧ Good b' ∧ content b'.chunks = y ∧ b'.perLen = b.perLen ∧ b'.chainMax = b.chainMax
  | [], n, b, y, hb, _, hc => ⟨b, rfl, hb, by simpa [stream] using hc, rfl, rfl⟩
  | f :: fs, n, b, y, hb, hf, hc => by
    obtain ⟨p, p1, p2, p3⟩ := hb.place
    have hc' : content b.chunks = f.bytes ++ (stream fs ++ y) := by rw [hc]; simp [stream]
    have ht := H2Feed.turn_frame p2 hmax (hf f (by simp)).1 (stream fs ++ y)
    rw [← hc'] at ht
    obtain ⟨b1, t1, t2, t3, t4, t5⟩ := turn_of_frame hb p1 p3 ht
    obtain ⟨b', e1, e2, e3, e4, e5⟩ := loop_take hmax pause fs n b1 y t2 (fun g hg => hf g (by simp [hg])) t3
    refine ⟨b', ?_, e2, e3, by rw [e4, t4], by rw [e5, t5]⟩
    rw [List.length_cons, ← Nat.add_assoc]
    conv => lhs; unfold loop
    rw [t1]
    simp only
    rw [if_neg (by rw [(hf f (by simp)).2]; simp), e1]
    rfl

open H2 (wireHeader) in
/-- One run of the loop before a frame that is too long. -/
theorem loop_before {max : Nat} (hmax : max < 2 ^ 24) (pause : Raw → Bool) {f : Raw} (hs : f.sid < 2 ^ 31) (h1 : max < f.payload.length) (h2 : f.payload.length < 2 ^ 24) (fs : List Raw) (x wire : Bytes) (b : Buf)
    (hb : Good b) (hf : ∀ g ∈ fs, g.Fits max ∧ pause g = false) (hc : content b.chunks ++ wire = stream fs ++ (wireHeader f.payload.length f.type f.flags false f.sid ++ x)) :
    loop max pause b.useLen b = (fs, .tooLong) ∨
    ∃ done todo b', fs = done ++ todo ∧ loop max pause b.useLen b = (done, .waits b') ∧ Good b' ∧ content b'.chunks ++ wire = stream todo ++ (wireHeader f.payload.length f.type f.flags false f.sid ++ x) ∧
      (Short (content b'.chunks) todo ∨ (todo = [] ∧ (content b'.chunks).length < 9)) ∧ b'.perLen = b.perLen ∧ b'.chainMax = b.chainMax := by
  have hwl : (wireHeader f.payload.length f.type f.flags false f.sid).length = 9 := rfl
  by_cases hl : (content b.chunks).length ≤ (stream fs).length
  · right
    have hp : content b.chunks <+: stream fs := List.prefix_of_prefix_length_le ⟨wire, hc⟩ (List.prefix_append _ _) hl
    obtain ⟨done, todo, b', e1, e2, e3, e4, e5, e6, e7⟩ := loop_spec hmax pause b.useLen fs b hb (fun g hg => (hf g hg).1) hp (Nat.le_refl _)
    refine ⟨done, todo, b', e1, e2, e3, ?_, ?_, e6, e7⟩
    · rw [e4, e1, H2Feed.stream_append, List.append_assoc, List.append_assoc] at hc
      exact List.append_cancel_left hc
    · rcases e5 with e5 | ⟨g, g1, g2⟩
      · exact Or.inl e5
      · rw [(hf g (by rw [e1]; simp [g1])).2] at g2; cases g2
  · obtain ⟨y, hy⟩ : stream fs <+: content b.chunks := List.prefix_of_prefix_length_le (List.prefix_append _ _) ⟨wire, hc⟩ (by omega)
    have hyw : y ++ wire = wireHeader f.payload.length f.type f.flags false f.sid ++ x := by
      rw [← hy, List.append_assoc] at hc
      exact List.append_cancel_left hc
    have hfl := H2Feed.stream_length fs
    have hul : b.useLen = (content b.chunks).length := hb.wf.use
    obtain ⟨n, hn⟩ : ∃ n, b.useLen = (n + 1) + fs.length := ⟨b.useLen - fs.length - 1, by omega⟩
    obtain ⟨b', e1, e2, e3, e4, e5⟩ := loop_take hmax pause fs (n + 1) b y hb hf hy.symm
    by_cases h9 : y.length < 9
    · right
      have hw : turn max b' = .wait := by
        unfold turn
        rw [if_pos (by rw [e2.wf.use, e3]; exact h9)]
      refine ⟨fs, [], b', by simp, ?_, e2, by rw [e3, hyw]; rfl, Or.inr ⟨rfl, by rw [e3]; exact h9⟩, e4, e5⟩
      rw [hn, e1]
      unfold loop
      rw [hw]
      simp
    · left
      obtain ⟨x', hx'⟩ : wireHeader f.payload.length f.type f.flags false f.sid <+: y := List.prefix_of_prefix_length_le (List.prefix_append _ x) ⟨wire, hyw⟩ (by omega)
      rw [hn, e1]
      unfold loop
      rw [turn_of_tooLong e2 hs h1 h2 (x := x') (by rw [e3, hx'])]
      simp

open H2 (wireHeader) in
theorem feed_tooLong (mem : Nat → Bytes) (hm : ∀ n, (mem n).length = n) {max : Nat} (hmax : max < 2 ^ 24) (pause : Raw → Bool) {f : Raw} (hs : f.sid < 2 ^ 31) (h1 : max < f.payload.length)
    (h2 : f.payload.length < 2 ^ 24) (x : Bytes) : ∀ (ns : List Nat) (fs : List Raw) (b : Buf) (wire : Bytes), Good b → (∀ g ∈ fs, g.Fits max ∧ pause g = false) →
    content b.chunks ++ wire = stream fs ++ (wireHeader f.payload.length f.type f.flags false f.sid ++ x) → (Short (content b.chunks) fs ∨ (fs = [] ∧ (content b.chunks).length < 9)) →
    8 + max + b.perLen ≤ (b.chainMax - 1) * b.perLen → wire.length ≤ busy ns → feed mem max pause b wire ns = (fs, .tooLong)
  | [], fs, b, wire, hb, hf, hc, hsh, _, hns => by
    exfalso
    have hwl : (wireHeader f.payload.length f.type f.flags false f.sid).length = 9 := rfl
    have h0 : wire = [] := List.length_eq_zero_iff.1 (by simpa [busy] using hns)
    have hl := congrArg List.length hc
    rw [h0, List.append_nil, List.length_append, List.length_append, hwl] at hl
    rcases hsh with hsh | ⟨_, hsh⟩
    · cases fs with
      | nil => rw [show content b.chunks = [] from hsh] at hl; simp at hl; omega
      | cons g t =>
        have := hsh.2
        simp only [stream, List.map_cons, List.flatten_cons, List.length_append] at hl
        omega
    · omega
  | n :: ns, fs, b, wire, hb, hf, hc, hsh, hcap, hns => by
    have hshort : (content b.chunks).length ≤ 8 + max := by
      rcases hsh with hsh | ⟨_, hsh⟩
      · exact short_length (fun g hg => (hf g hg).1) hsh
      · omega
    rcases receive_spec mem hm hb wire n with ⟨b1, r1, r2, r3, r4, r5⟩ | ⟨b1, _, r2⟩
    · have hcut : content b1.chunks ++ wire.drop (min n (room b)) = stream fs ++ (wireHeader f.payload.length f.type f.flags false f.sid ++ x) := by
        rw [r3, List.append_assoc, List.take_append_drop, hc]
      have hlen : (wire.drop (min n (room b))).length ≤ busy ns := by
        have := hb.room
        rw [List.length_drop]
        unfold busy at hns ⊢
        by_cases h0 : n = 0
        · rw [List.filter_cons_of_neg (by simp [h0])] at hns; omega
        · rw [List.filter_cons_of_pos (by simp [h0]), List.length_cons] at hns; omega
      unfold feed
      rw [r1]
      simp only
      rcases loop_before hmax pause hs h1 h2 fs x _ b1 r2 hf hcut with e | ⟨done, todo, b2, e1, e2, e3, e4, e5, e6, e7⟩
      · rw [e]
      · rw [e2]
        simp only
        rw [feed_tooLong mem hm hmax pause hs h1 h2 x ns todo b2 _ e3 (fun g hg => hf g (by rw [e1]; simp [hg])) e4 e5 (by rw [e6, e7, r4, r5]; exact hcap) hlen, e1]
    · exfalso
      have := room_le hb.wf
      omega

/-- **C208: a frame that is too long.** Behind the preface and any frames the server allows (none of which begins a response) a client sends a longer one.  The frames before it are handled, and it is refused as
soon as its header has been read, whatever has arrived of its payload, in a buffer that has room for a frame and a read. -/
theorem C208_long_frame_refused_partial (mem : Nat → Bytes) (hm : ∀ n, (mem n).length = n) (chainMax perLen : Nat) (hp : 24 ≤ perLen) (hc : 0 < chainMax) (max : Nat) (hmax : max < 2 ^ 24) (pause : Raw → Bool)
    (fs : List Raw) (hf : ∀ g ∈ fs, g.Fits max ∧ pause g = false) (f : Raw) (hs : f.sid < 2 ^ 31) (h1 : max < f.payload.length) (h2 : f.payload.length < 2 ^ 24) (k : Nat) (hk : 9 ≤ k)
    (hcap : 8 + max + perLen ≤ (chainMax - 1) * perLen) (z n : Nat) (hn : 24 ≤ n) (ns : List Nat) (hns : (stream fs ++ f.bytes.take k).length ≤ (ns.filter (· ≠ 0)).length) :
    ∃ b0, Buffer.init mem 1 chainMax perLen = some b0 ∧
      start mem max pause b0 (b!"PRI * HTTP/2.0\r\n\r\nSM\r\n\r\n" ++ (stream fs ++ f.bytes.take k)) (List.replicate z 0 ++ n :: ns) = (fs, .tooLong) := by
  obtain ⟨b0, i1, i2, i3, i4, i5, i6⟩ := init_good mem hm chainMax perLen (by omega) hc
  refine ⟨b0, i1, ?_⟩
  rw [start_zeros mem max pause b0 (by rw [i2.wf.use, i3]; rfl)]
  have hpl : Buffer.preface.length = 24 := by decide
  have hfb : f.bytes.take k = H2.wireHeader f.payload.length f.type f.flags false f.sid ++ f.payload.take (k - 9) := by
    have hwl : (H2.wireHeader f.payload.length f.type f.flags false f.sid).length = 9 := rfl
    unfold Raw.bytes
    rw [List.take_append, hwl, List.take_of_length_le (by omega)]
  generalize hW : stream fs ++ f.bytes.take k = W at hns
  rw [hfb] at hW
  change start mem max pause b0 (Buffer.preface ++ W) (n :: ns) = (fs, .tooLong)
  have hk24 : 24 ≤ min n (room b0) := by omega
  rcases receive_spec mem hm i2 (Buffer.preface ++ W) n with ⟨b1, r1, r2, r3, r4, r5⟩ | ⟨b1, _, r2⟩
  · generalize hkk : min n (room b0) = j at hk24 r3
    rw [i3, List.nil_append] at r3
    have htake : (Buffer.preface ++ W).take j = Buffer.preface ++ W.take (j - 24) := by
      rw [List.take_append, hpl, List.take_of_length_le (by rw [hpl]; exact hk24)]
    have hc24 : (content b1.chunks).take 24 = Buffer.preface := by rw [r3, htake, List.take_left' hpl]
    have hlen : 24 ≤ (content b1.chunks).length := by rw [r3, htake, List.length_append, hpl]; omega
    have hok : Buffer.initPreface b1 = .ok := by rw [preface_take b1 r2 hlen, if_pos hc24]
    obtain ⟨b2, e1, e2, e3, e4, e5⟩ := r2.release hlen
    have hc2 : content b2.chunks = W.take (j - 24) := by rw [e3, r3, htake, List.drop_left' hpl]
    have hdrop : (Buffer.preface ++ W).drop j = W.drop (j - 24) := by
      rw [List.drop_append, hpl, List.drop_of_length_le (by rw [hpl]; exact hk24), List.nil_append]
    unfold start
    rw [r1]
    simp only
    rw [hkk, if_neg (by rintro ⟨hx, _⟩; rw [htake] at hx; have := congrArg List.length hx; rw [List.length_append, hpl] at this; simp at this), hok]
    simp only
    rw [e1]
    simp only
    rcases loop_before hmax pause hs h1 h2 fs (f.payload.take (k - 9)) ((Buffer.preface ++ W).drop j) b2 e2 hf (by rw [hc2, hdrop, List.take_append_drop, hW]) with e | ⟨done, todo, b3, l1, l2, l3, l4, l5, l6, l7⟩
    · rw [e]
    · rw [l2]
      simp only
      rw [feed_tooLong mem hm hmax pause hs h1 h2 _ ns todo b3 _ l3 (fun g hg => hf g (by rw [l1]; simp [hg])) l4 l5 (by rw [l6, l7, e4, e5, r4, r5, i4, i5]; exact hcap)
        (by unfold busy; rw [hdrop, List.length_drop]; omega), l1]
  · exfalso
    rw [i3, i4, i5, i6] at r2
    simp only [List.length_nil] at r2
    omega

/-! ## A preface in pieces -/

/-- **C208: a preface in pieces.** RFC 9113 lets the 24 bytes of the preface arrive in any pieces.  If only some of them arrive with the first event and the next byte of the chunk's memory is not by chance the one that
will follow, the client is refused although all it sent is correct, and none of its frames is handled. -/
theorem C208_split_preface_refused_refuted (mem : Nat → Bytes) (hm : ∀ n, (mem n).length = n) (chainMax perLen : Nat) (hc : 0 < chainMax) (max : Nat) (pause : Raw → Bool) (fs : List Raw)
    (n : Nat) (h0 : 0 < n) (hn : n < 24) (hp : n < perLen) (hx : (mem perLen)[n]? ≠ (b!"PRI * HTTP/2.0\r\n\r\nSM\r\n\r\n")[n]?) (z : Nat) (ns : List Nat) :
    ∃ b0, Buffer.init mem 1 chainMax perLen = some b0 ∧
      start mem max pause b0 (b!"PRI * HTTP/2.0\r\n\r\nSM\r\n\r\n" ++ stream fs) (List.replicate z 0 ++ n :: ns) = ([], .refused) := by
  change (mem perLen)[n]? ≠ Buffer.preface[n]? at hx
  have hpl : Buffer.preface.length = 24 := by decide
  obtain ⟨b0, i1, i2, i3, i4, i5, i6⟩ := init_good mem hm chainMax perLen (by omega) hc
  refine ⟨b0, i1, ?_⟩
  rw [start_zeros mem max pause b0 (by rw [i2.wf.use, i3]; rfl)]
  change start mem max pause b0 (Buffer.preface ++ stream fs) (n :: ns) = ([], .refused)
  have hb0 : b0 = ⟨[Chunk.fresh (mem perLen)], chainMax, perLen, 0⟩ := by
    simp [Buffer.init, Buffer.init.go, Buffer.addChain] at i1
    exact i1.2.symm
  have hmin : min n (room b0) = n := by rw [i6]; omega
  have htake : (Buffer.preface ++ stream fs).take n = Buffer.preface.take n := List.take_append_of_le_length (by omega)
  have hne : Buffer.preface.take n ≠ [] := by
    intro h
    have := congrArg List.length h
    rw [List.length_take, hpl, List.length_nil] at this
    omega
  have htl : (Buffer.preface.take n).length = n := by rw [List.length_take, hpl]; omega
  let b1 : Buf := ⟨[⟨Buffer.preface.take n ++ (mem perLen).drop n, 0, n, .half⟩], chainMax, perLen, n⟩
  have hrecv : receive mem b0 (Buffer.preface ++ stream fs) n = some (.success b1) := by
    unfold receive
    simp only
    rw [hmin, htake, if_neg hne, hb0]
    unfold Buffer.receive
    simp only [List.getLast?_singleton, Buffer.setLast, List.dropLast_singleton, List.nil_append, Chunk.fresh, Buffer.writeAt, List.take_zero, htl, Nat.zero_add]
    unfold Buffer.updateBuffer
    simp only [List.getLast?_singleton]
    unfold Buffer.updateLoop
    have hun : Chunk.unuseLen ⟨Buffer.preface.take n ++ (mem perLen).drop n, 0, 0, .empty⟩ = perLen := by
      simp only [Chunk.unuseLen, List.length_append, htl, List.length_drop, hm]; omega
    simp only [hun]
    rw [if_neg (by omega), if_neg (by omega)]
    simp only [Buffer.setLast, List.dropLast_singleton, List.nil_append, Nat.zero_add]
    rfl
  obtain ⟨b1', r1, r2, r3, _⟩ | ⟨b1', r1, _⟩ := receive_spec mem hm i2 (Buffer.preface ++ stream fs) n
  · rw [hrecv] at r1
    cases r1
    rw [i3, hmin, htake, List.nil_append] at r3
    obtain ⟨x, hxm⟩ : ∃ x, (mem perLen)[n]? = some x := ⟨_, List.getElem?_eq_getElem (by rw [hm]; exact hp)⟩
    obtain ⟨d, hd⟩ : ∃ d, Buffer.preface[n]? = some d := ⟨_, List.getElem?_eq_getElem (by rw [hpl]; exact hn)⟩
    have hmd : (mem perLen).drop n = x :: (mem perLen).drop (n + 1) := by
      obtain ⟨h, rfl⟩ := List.getElem?_eq_some_iff.1 hxm
      exact List.drop_eq_getElem_cons h
    have hpd : Buffer.preface.drop n = d :: Buffer.preface.drop (n + 1) := by
      obtain ⟨h, rfl⟩ := List.getElem?_eq_some_iff.1 hd
      exact List.drop_eq_getElem_cons h
    have hpre : Buffer.preface = content b1.chunks ++ d :: Buffer.preface.drop (n + 1) := by
      rw [r3, ← hpd, List.take_append_drop]
    have hz : 0 ∉ content b1.chunks := by
      rw [r3]
      intro h
      exact absurd (List.mem_of_mem_take h) (by decide)
    have hcmp := Buffer.memcmpFirst_beyond b1 r2.wf ⟨Buffer.preface.take n ++ (mem perLen).drop n, []⟩ rfl d x (Buffer.preface.drop (n + 1)) ((mem perLen).drop (n + 1)) hz
      (by intro h; rw [hxm, hd, h] at hx; exact hx rfl) (by rw [r3, ← hmd]; simp [Cursor.flat])
    rw [← hpre] at hcmp
    unfold start
    rw [hrecv]
    simp only
    rw [hmin, htake, if_neg (by rintro ⟨h, _⟩; exact hne h)]
    unfold Buffer.initPreface
    rw [hcmp]
  · rw [hrecv] at r1; cases r1

/-! ## To the requests -/

theorem loopAt_fst (max : Nat) (pause : Raw → Bool) : ∀ (n : Nat) (b : Buf), (loopAt max pause n b).map (·.1) = (loop max pause n b).1
  | 0, _ => rfl
  | n + 1, b => by
    unfold loopAt loop
    cases hp : firstPtr b with
    | none =>
      have : turn max b = .wait ∨ turn max b = .undef := by
        unfold turn
        rw [hp]
        split
        · exact Or.inl rfl
        · exact Or.inr rfl
      rcases this with h | h <;> rw [h] <;> rfl
    | some c =>
      cases turn max b with
      | wait => rfl
      | tooLong => rfl
      | undef => rfl
      | frame f left =>
        simp only [List.map_cons]
        split
        · rfl
        · rw [loopAt_fst max pause n left]

theorem feedAt_fst (mem : Nat → Bytes) (max : Nat) (pause : Raw → Bool) : ∀ (ns : List Nat) (b : Buf) (wire : Bytes), (feedAt mem max pause b wire ns).map (·.1) = (feed mem max pause b wire ns).1
  | [], _, _ => rfl
  | n :: ns, b, wire => by
    unfold feedAt feed
    cases receive mem b wire n with
    | none => rfl
    | some u =>
      cases u with
      | limit _ => rfl
      | success b1 =>
        simp only
        rw [List.map_append, loopAt_fst]
        cases loop max pause b1.useLen b1 with
        | mk fs e =>
          cases e with
          | waits b2 => simp only [feedAt_fst mem max pause ns b2]
          | tooLong => simp
          | undef => simp

theorem startAt_fst (mem : Nat → Bytes) (max : Nat) (pause : Raw → Bool) : ∀ (ns : List Nat) (b : Buf) (wire : Bytes), (startAt mem max pause b wire ns).map (·.1) = (start mem max pause b wire ns).1
  | [], _, _ => rfl
  | n :: ns, b, wire => by
    unfold startAt start
    cases receive mem b wire n with
    | none => rfl
    | some u =>
      cases u with
      | limit _ => rfl
      | success b1 =>
        simp only
        split
        · exact startAt_fst mem max pause ns b1 _
        · cases Buffer.initPreface b1 with
          | crash => rfl
          | error => rfl
          | wait =>
            simp only
            split
            · rfl
            · exact startAt_fst mem max pause ns b1 _
          | ok =>
            simp only
            cases Buffer.release b1 24 with
            | none => rfl
            | some b2 =>
              simp only
              rw [List.map_append, loopAt_fst]
              cases loop max pause b2.useLen b2 with
              | mk fs e =>
                cases e with
                | waits b3 => simp only [feedAt_fst mem max pause ns b3]
                | tooLong => simp
                | undef => simp

theorem loopAt_holds {max : Nat} (hmax : max ≤ 16384) (pause : Raw → Bool) : ∀ (n : Nat) (fs : List Raw) (b : Buf), Good b → (∀ f ∈ fs, f.Fits max) →
    content b.chunks <+: stream fs → ∀ q ∈ loopAt max pause n b, H2Wire.Holds q.2 q.1.type q.1.flags q.1.sid q.1.payload
  | 0, _, _, _, _, _ => by simp [loopAt]
  | n + 1, [], b, hb, _, hp => by
    have h0 : content b.chunks = [] := by simpa [stream] using hp
    unfold loopAt
    have : turn max b = .wait := by
      unfold turn
      rw [if_pos (by rw [hb.wf.use, h0]; decide)]
    rw [this]
    simp
  | n + 1, f :: fs, b, hb, hf, hp => by
    have e : stream (f :: fs) = f.bytes ++ stream fs := by simp [stream]
    rw [e] at hp
    obtain ⟨p, p1, p2, p3⟩ := hb.place
    unfold loopAt
    by_cases hl : (content b.chunks).length < f.bytes.length
    · have hpre : content b.chunks <+: f.bytes := List.prefix_of_prefix_length_le hp (List.prefix_append _ _) (by omega)
      rw [turn_of_wait hb p1 p3 (H2Feed.turn_wait p2 (by omega) (hf f (by simp)) hpre hl)]
      simp
    · obtain ⟨more, hm⟩ : f.bytes <+: content b.chunks := List.prefix_of_prefix_length_le (List.prefix_append _ _) hp (by omega)
      have ht := H2Feed.turn_frame p2 (show max < 2 ^ 24 by omega) (hf f (by simp)) more
      rw [hm] at ht
      obtain ⟨b1, t1, t2, t3, t4, t5⟩ := turn_of_frame hb p1 p3 ht
      have hh := H2Feed.lay_holds p2 hmax (hf f (by simp)) more
      rw [hm, p3] at hh
      have hp2 : content b1.chunks <+: stream fs := by
        rw [t3]
        rw [← hm] at hp
        exact (List.prefix_append_right_inj _).1 hp
      rw [t1, p1]
      intro q hq
      simp only [List.mem_cons] at hq
      rcases hq with rfl | hq
      · exact hh
      · split at hq
        · simp at hq
        · exact loopAt_holds hmax pause n fs b1 t2 (fun g hg => hf g (by simp [hg])) hp2 q hq

theorem feedAt_holds (mem : Nat → Bytes) (hm : ∀ n, (mem n).length = n) {max : Nat} (hmax : max ≤ 16384) (pause : Raw → Bool) : ∀ (ns : List Nat) (fs : List Raw) (b : Buf) (wire : Bytes), Good b →
    (∀ f ∈ fs, f.Fits max) → content b.chunks ++ wire <+: stream fs → ∀ q ∈ feedAt mem max pause b wire ns, H2Wire.Holds q.2 q.1.type q.1.flags q.1.sid q.1.payload
  | [], _, _, _, _, _, _ => by simp [feedAt]
  | n :: ns, fs, b, wire, hb, hf, hp => by
    unfold feedAt
    rcases receive_spec mem hm hb wire n with ⟨b1, r1, r2, r3, r4, r5⟩ | ⟨b1, r1, r2⟩
    · have hcut : content b1.chunks ++ wire.drop (min n (room b)) = content b.chunks ++ wire := by
        rw [r3, List.append_assoc, List.take_append_drop]
      have hp1 : content b1.chunks <+: stream fs := (by rw [← hcut]; exact List.prefix_append _ _ : content b1.chunks <+: content b.chunks ++ wire).trans hp
      obtain ⟨done, todo, b2, h1, h2, h3, h4, h5, h6, h7⟩ := loop_spec (show max < 2 ^ 24 by omega) pause b1.useLen fs b1 r2 hf hp1 (Nat.le_refl _)
      have hp2 : content b2.chunks ++ wire.drop (min n (room b)) <+: stream todo := by
        rw [← hcut, h4, List.append_assoc, h1, H2Feed.stream_append] at hp
        exact (List.prefix_append_right_inj _).1 hp
      rw [r1]
      intro q hq
      simp only [List.mem_append] at hq
      rw [h2] at hq
      rcases hq with hq | hq
      · exact loopAt_holds hmax pause _ fs b1 r2 hf hp1 q hq
      · exact feedAt_holds mem hm hmax pause ns todo b2 _ h3 (fun f h => hf f (by rw [h1]; simp [h])) hp2 q hq
    · rw [r1]
      simp

theorem startAt_holds (mem : Nat → Bytes) (hm : ∀ n, (mem n).length = n) {max : Nat} (hmax : max ≤ 16384) (pause : Raw → Bool) (fs : List Raw) (hf : ∀ f ∈ fs, f.Fits max) (b : Buf) (hb : Good b)
    (h0 : content b.chunks = []) (hr : 24 ≤ room b) (n : Nat) (hn : 24 ≤ n) (ns : List Nat) :
    ∀ q ∈ startAt mem max pause b (Buffer.preface ++ stream fs) (n :: ns), H2Wire.Holds q.2 q.1.type q.1.flags q.1.sid q.1.payload := by
  have hpl : Buffer.preface.length = 24 := by decide
  have hk : 24 ≤ min n (room b) := by omega
  unfold startAt
  rcases receive_spec mem hm hb (Buffer.preface ++ stream fs) n with ⟨b1, r1, r2, r3, r4, r5⟩ | ⟨b1, r1, r2⟩
  · rw [r1]
    simp only
    generalize hkk : min n (room b) = k at hk r3 ⊢
    rw [h0, List.nil_append] at r3
    have htake : (Buffer.preface ++ stream fs).take k = Buffer.preface ++ (stream fs).take (k - 24) := by
      rw [List.take_append, hpl, List.take_of_length_le (by rw [hpl]; exact hk)]
    have hc24 : (content b1.chunks).take 24 = Buffer.preface := by rw [r3, htake, List.take_left' hpl]
    have hlen : 24 ≤ (content b1.chunks).length := by rw [r3, htake, List.length_append, hpl]; omega
    have hok : Buffer.initPreface b1 = .ok := by rw [preface_take b1 r2 hlen, if_pos hc24]
    obtain ⟨b2, e1, e2, e3, e4, e5⟩ := r2.release hlen
    have hc2 : content b2.chunks = (stream fs).take (k - 24) := by rw [e3, r3, htake, List.drop_left' hpl]
    have hdrop : (Buffer.preface ++ stream fs).drop k = (stream fs).drop (k - 24) := by
      rw [List.drop_append, hpl, List.drop_of_length_le (by rw [hpl]; exact hk), List.nil_append]
    have hp1 : content b2.chunks <+: stream fs := by rw [hc2]; exact List.take_prefix _ _
    obtain ⟨done, todo, b3, h1, h2, h3, h4, h5, h6, h7⟩ := loop_spec (show max < 2 ^ 24 by omega) pause b2.useLen fs b2 e2 hf hp1 (Nat.le_refl _)
    rw [if_neg (by rintro ⟨hx, _⟩; rw [htake] at hx; have := congrArg List.length hx; rw [List.length_append, hpl] at this; simp at this), hok]
    simp only
    rw [e1]
    intro q hq
    simp only [List.mem_append] at hq
    rw [h2] at hq
    rcases hq with hq | hq
    · exact loopAt_holds hmax pause _ fs b2 e2 hf hp1 q hq
    · refine feedAt_holds mem hm hmax pause ns todo b3 _ h3 (fun f h => hf f (by rw [h1]; simp [h])) ?_ q hq
      have : stream done ++ (content b3.chunks ++ (Buffer.preface ++ stream fs).drop k) = stream done ++ stream todo := by
        rw [← H2Feed.stream_append, ← h1, hdrop, ← List.append_assoc, ← h4, hc2, List.take_append_drop]
      rw [List.append_cancel_left this]
      exact List.prefix_refl _
  · rw [r1]
    simp

theorem startAt_zeros (mem : Nat → Bytes) (max : Nat) (pause : Raw → Bool) (b : Buf) (h : b.useLen = 0) (wire : Bytes) (ns : List Nat) : ∀ (z : Nat),
    startAt mem max pause b wire (List.replicate z 0 ++ ns) = startAt mem max pause b wire ns
  | 0 => rfl
  | z + 1 => by
    rw [List.replicate_succ, List.cons_append]
    conv => lhs; unfold startAt
    simp only [receive, Nat.zero_min, List.take_zero, List.drop_zero, if_true]
    rw [if_pos ⟨trivial, by omega⟩, startAt_zeros mem max pause b h wire ns z]

open H2Wire (Arrival Talk Client Link Starts Setting Calm) in
open H2Refuse (Step) in
open Nego (negotiating) in
open Trip (WrittenPath Each) in
/-- **C208: from the socket to the responses.** A client sends the connection preface, its settings and then frames with requests as in C199, and the preface arrives whole.  However many bytes each event brings
and whatever the chunks of the buffer, if all bytes are read, exactly the frames of the client are handled, in its order, and every request is answered with what it asks for or the refusal it deserves, on its
stream — unless the buffer ran out of room, which it does not if it is large enough and the frames that begin responses do not pile up (`C208_no_overflow_partial`).  The hypothesis `hf` says that the frames
are those of C199, at the places where they lie in the buffer.  A request that meets the hypotheses is in Verif.H2Buf.Example.  Missing: as in C199, and frames that are handled before the responses to those
before them have been sent. -/
theorem C208_requests_answered_partial (s : Site.Site) (hr : ∀ x ∈ s.app.routes, WrittenPath x.1) (k : H2Trip.Conn) (hk : 16384 ≤ k.maxFrame ∧ k.maxFrame < 2 ^ 24)
    (maxBody : Nat) (g : Hpack.DNode) (limit : Nat) (ss : List (Nat × Nat)) (hss : ∀ p ∈ ss, Setting p) (init : Nat) (hinit : Starts ss init)
    (mem : Nat → Bytes) (hm : ∀ n, (mem n).length = n) (chainMax perLen : Nat) (hp : 24 ≤ perLen) (hc : 0 < chainMax) (pause : Raw → Bool)
    (fs : List Raw) (hfit : ∀ f ∈ (⟨4, 0, 0, H2.wireSettings ss⟩ : Raw) :: fs, f.Fits 16384)
    (z n : Nat) (hn : 24 ≤ n) (ns : List Nat) (hns : (stream (⟨4, 0, 0, H2.wireSettings ss⟩ :: fs)).length ≤ (ns.filter (· ≠ 0)).length)
    (m : Nat) (hlt : (((⟨4, 0, 0, H2.wireSettings ss⟩ : Raw) :: fs).filter pause).length < m)
    (first : Arrival) (as : List Arrival) (xs : List Step) (hf : Talk (negotiating s) k limit maxBody (Client.fresh init) as xs) :
    ∃ b0, Buffer.init mem 1 chainMax perLen = some b0 ∧
      ((∃ done, start mem 16384 pause b0 (b!"PRI * HTTP/2.0\r\n\r\nSM\r\n\r\n" ++ stream (⟨4, 0, 0, H2.wireSettings ss⟩ :: fs)) (List.replicate z 0 ++ n :: (ns ++ List.replicate m 0)) = (done, .overflow)) ∨
      ((startAt mem 16384 pause b0 (b!"PRI * HTTP/2.0\r\n\r\nSM\r\n\r\n" ++ stream (⟨4, 0, 0, H2.wireSettings ss⟩ :: fs)) (List.replicate z 0 ++ n :: (ns ++ List.replicate m 0))).map (·.1) =
          ⟨4, 0, 0, H2.wireSettings ss⟩ :: fs ∧
        ((startAt mem 16384 pause b0 (b!"PRI * HTTP/2.0\r\n\r\nSM\r\n\r\n" ++ stream (⟨4, 0, 0, H2.wireSettings ss⟩ :: fs)) (List.replicate z 0 ++ n :: (ns ++ List.replicate m 0))).map (·.2) =
          (first :: as).map (·.place) →
        ∃ l os rs, H2Wire.run (negotiating s) k (Link.init maxBody g limit) (first :: as) = some (l, os, rs) ∧ rs.map (·.1) = xs.map (·.inc.sid) ∧
          Each (Step.Answered (negotiating s) k) xs (rs.map (·.2)) ∧ ∀ o ∈ os, Calm o))) := by
  obtain ⟨b0, i1, i2, i3, i4, i5, i6⟩ := init_good mem hm chainMax perLen (by omega) hc
  obtain ⟨b0', j1, j2⟩ := C208_all_frames_partial mem hm chainMax perLen hp hc 16384 (by decide) pause _ hfit z n hn ns hns m hlt
  obtain rfl : b0 = b0' := Option.some.inj (by rw [← i1, j1])
  refine ⟨b0, i1, ?_⟩
  rcases j2 with ⟨b, j2, _⟩ | j2
  · right
    have h1 := startAt_fst mem 16384 pause (List.replicate z 0 ++ n :: (ns ++ List.replicate m 0)) b0 (b!"PRI * HTTP/2.0\r\n\r\nSM\r\n\r\n" ++ stream (⟨4, 0, 0, H2.wireSettings ss⟩ :: fs))
    rw [j2] at h1
    refine ⟨h1, fun hplaces => H2Wire.C199_frames_answered_partial s hr k hk maxBody g limit first ss ?_ hss init hinit as xs hf⟩
    have hh := startAt_holds mem hm (Nat.le_refl _) pause _ hfit b0 i2 i3 (by omega) n hn (ns ++ List.replicate m 0)
    rw [startAt_zeros mem 16384 pause b0 (by rw [i2.wf.use, i3]; rfl)] at h1 hplaces
    change (startAt mem 16384 pause b0 (Buffer.preface ++ stream (⟨4, 0, 0, H2.wireSettings ss⟩ :: fs)) (n :: (ns ++ List.replicate m 0))).map (·.1) = _ at h1
    change (startAt mem 16384 pause b0 (Buffer.preface ++ stream (⟨4, 0, 0, H2.wireSettings ss⟩ :: fs)) (n :: (ns ++ List.replicate m 0))).map (·.2) = _ at hplaces
    generalize startAt mem 16384 pause b0 (Buffer.preface ++ stream (⟨4, 0, 0, H2.wireSettings ss⟩ :: fs)) (n :: (ns ++ List.replicate m 0)) = l at h1 hplaces hh
    cases l with
    | nil => simp at h1
    | cons q qs =>
      simp only [List.map_cons, List.cons.injEq] at h1 hplaces
      have := hh q (by simp)
      rw [hplaces.1, h1.1] at this
      exact this
  · left; exact j2

/-! ## Examples -/

/-- Memory that was never written. -/
def zeros (n : Nat) : Bytes := List.replicate n 0

theorem zeros_length (n : Nat) : (zeros n).length = n := List.length_replicate

/-- Chunks of 25 bytes: the preface and the first byte of the first frame fill the first one; then byte by byte. -/
example : ∃ b0, Buffer.init zeros 1 4 25 = some b0 ∧ ∃ done todo, H2Feed.sampleFrames = done ++ todo ∧
    ((∃ b rest, start zeros 16384 (fun _ => false) b0 (b!"PRI * HTTP/2.0\r\n\r\nSM\r\n\r\n" ++ stream H2Feed.sampleFrames) (List.replicate 2 0 ++ 100 :: [1, 9, 1]) = (done, .waits b rest) ∧
      (stream done).length + b.useLen + rest.length = (stream H2Feed.sampleFrames).length ∧
      ((∀ f ∈ H2Feed.sampleFrames, (fun _ => false) f = false) → (todo = [] → b.useLen = 0) ∧ ∀ f t, todo = f :: t → b.useLen < 9 + f.payload.length)) ∨
      start zeros 16384 (fun _ => false) b0 (b!"PRI * HTTP/2.0\r\n\r\nSM\r\n\r\n" ++ stream H2Feed.sampleFrames) (List.replicate 2 0 ++ 100 :: [1, 9, 1]) = (done, .overflow)) :=
  C208_frames_in_order_partial zeros zeros_length 4 25 (by decide) (by decide) 16384 (by decide) (fun _ => false) H2Feed.sampleFrames H2Feed.sampleFrames_fit 2 100 (by decide) [1, 9, 1]

/-- All frames, with a response begun by the last one and chunks of 25 bytes: a byte with every event. -/
example : ∃ b0, Buffer.init zeros 1 4 25 = some b0 ∧
    ((∃ b, start zeros 30 H2Feed.sampleBegins b0 (b!"PRI * HTTP/2.0\r\n\r\nSM\r\n\r\n" ++ stream H2Feed.sampleFrames) (List.replicate 1 0 ++ 24 :: (List.replicate 40 1 ++ List.replicate 2 0)) = (H2Feed.sampleFrames, .waits b []) ∧ b.useLen = 0) ∨
      ∃ done, start zeros 30 H2Feed.sampleBegins b0 (b!"PRI * HTTP/2.0\r\n\r\nSM\r\n\r\n" ++ stream H2Feed.sampleFrames) (List.replicate 1 0 ++ 24 :: (List.replicate 40 1 ++ List.replicate 2 0)) = (done, .overflow)) :=
  C208_all_frames_partial zeros zeros_length 4 25 (by decide) (by decide) 30 (by decide) H2Feed.sampleBegins H2Feed.sampleFrames
    (by unfold Raw.Fits; decide) 1 24 (by decide) (List.replicate 40 1) (by decide) 2 (by decide)

example : ∃ b0, Buffer.init zeros 1 4 25 = some b0 ∧
    ∀ done, start zeros 40 (fun _ => false) b0 (b!"PRI * HTTP/2.0\r\n\r\nSM\r\n\r\n" ++ stream H2Feed.sampleFrames) (List.replicate 0 0 ++ 24 :: [7, 100, 3]) ≠ (done, .overflow) :=
  C208_no_overflow_partial zeros zeros_length 4 25 (by decide) (by decide) 40 (by decide) (fun _ => false) H2Feed.sampleFrames (by unfold Raw.Fits; decide) (by decide) (by decide) 0 24 (by decide) [7, 100, 3]

/-- A client that speaks HTTP/1. -/
example : ∃ b0, Buffer.init zeros 1 2 64 = some b0 ∧ start zeros 16384 (fun _ => false) b0 b!"GET / HTTP/1.1\r\nHost: a.example\r\n\r\n" (List.replicate 0 0 ++ 100 :: [1]) = ([], .refused) :=
  C208_wrong_preface_refused_partial zeros zeros_length 2 64 (by decide) (by decide) 16384 (fun _ => false) _ (by decide) (by decide) 0 100 (by decide) [1]

/-- Five bytes where four are allowed, byte by byte. -/
example : ∃ b0, Buffer.init zeros 1 4 25 = some b0 ∧
    start zeros 4 (fun _ => false) b0 (b!"PRI * HTTP/2.0\r\n\r\nSM\r\n\r\n" ++ (stream H2Feed.sampleFrames ++ (⟨0, 1, 5, b!"hello"⟩ : Raw).bytes.take 11)) (List.replicate 0 0 ++ 24 :: List.replicate 50 1) =
      (H2Feed.sampleFrames, .tooLong) :=
  C208_long_frame_refused_partial zeros zeros_length 4 25 (by decide) (by decide) 4 (by decide) (fun _ => false) H2Feed.sampleFrames (by unfold Raw.Fits; decide) ⟨0, 1, 5, b!"hello"⟩ (by decide) (by decide)
    (by decide) 11 (by decide) (by decide) 0 24 (by decide) (List.replicate 50 1) (by decide)

theorem stream_length_const (k : Nat) : ∀ fs : List Raw, (∀ f ∈ fs, f.bytes.length = k) → (stream fs).length = fs.length * k
  | [], _ => by simp [stream]
  | f :: t, h => by
    have ih := stream_length_const k t (fun g hg => h g (by simp [hg]))
    have : stream (f :: t) = f.bytes ++ stream t := by simp [stream]
    rw [this, List.length_append, ih, h f (by simp), List.length_cons, Nat.succ_mul]
    omega

/-- Seven hundred requests for `/` at once, each a HEADERS frame of three bytes on a stream of its own, and two chunks of 64 bytes. -/
example (begins : Raw → Bool) (hbegins : ∀ f, begins f = (f.type == 1)) : ∃ b0, Buffer.init zeros 1 2 64 = some b0 ∧
    ∃ done, start zeros 16384 begins b0 (b!"PRI * HTTP/2.0\r\n\r\nSM\r\n\r\n" ++ stream ((List.range 700).map fun i => ⟨1, 5, 2 * i + 1, [0x82, 0x84, 0x86]⟩)) (List.replicate (2 * 64 + 1) 64) =
      (done, .overflow) := by
  refine C208_pipelined_requests_overflow_refuted zeros zeros_length 2 64 (by decide) 16384 (by decide) begins 12 (by decide) _ ?_ ?_
  · intro f hf
    obtain ⟨i, hi, rfl⟩ := List.mem_map.1 hf
    have := List.mem_range.1 hi
    refine ⟨⟨?_, by simp⟩, by rw [hbegins]; rfl, by rw [H2Feed.bytes_length]; simp⟩
    show 2 * i + 1 < 2 ^ 31
    omega
  · rw [stream_length_const 12, List.length_map, List.length_range]
    · decide
    · intro f hf
      obtain ⟨i, _, rfl⟩ := List.mem_map.1 hf
      rw [H2Feed.bytes_length]; rfl

/-- The first line of the preface, then the rest. -/
example : ∃ b0, Buffer.init zeros 1 4 25 = some b0 ∧
    start zeros 16384 (fun _ => false) b0 (b!"PRI * HTTP/2.0\r\n\r\nSM\r\n\r\n" ++ stream H2Feed.sampleFrames) (List.replicate 1 0 ++ 16 :: [100, 100]) = ([], .refused) :=
  C208_split_preface_refused_refuted zeros zeros_length 4 25 (by decide) 16384 (fun _ => false) H2Feed.sampleFrames 16 (by decide) (by decide) (by decide) (by decide) 1 [100, 100]

/-- A buffer of two chunks of 8196 bytes has room for 16384 bytes, but not for a frame of 16384 bytes and its header. -/
example (N : Nat) (hN : N = 16384) : ∃ b0, Buffer.init zeros 1 2 8196 = some b0 ∧
    start zeros N (fun _ => false) b0 (b!"PRI * HTTP/2.0\r\n\r\nSM\r\n\r\n" ++ stream [⟨0, 1, 1, List.replicate N 7⟩]) (List.replicate 0 0 ++ 24 :: List.replicate (9 + N) 1) = ([], .overflow) := by
  refine C208_allowed_frame_overflows_refuted zeros zeros_length 2 8196 (by decide) (by decide) N (by omega) (fun _ => false) ⟨0, 1, 1, List.replicate N 7⟩ [] ?_ ?_ 0 24 (by decide) (List.replicate (9 + N) 1) ?_
  · intro g hg
    rw [List.mem_singleton.1 hg]
    exact ⟨by show (1 : Nat) < 2 ^ 31; decide, by show (List.replicate N 7).length ≤ N; rw [List.length_replicate]; exact Nat.le_refl _⟩
  · show 2 * 8196 ≤ 9 + (List.replicate N 7).length
    rw [List.length_replicate]; omega
  · rw [List.filter_eq_self.2 (fun x hx => by rw [List.eq_of_mem_replicate hx]; decide), List.length_replicate]
    show ([(⟨0, 1, 1, List.replicate N 7⟩ : Raw).bytes].flatten).length ≤ 9 + N
    rw [List.flatten_singleton, H2Feed.bytes_length]
    show 9 + (List.replicate N 7).length ≤ 9 + N
    rw [List.length_replicate]; exact Nat.le_refl _

end Fly.H2Buf
