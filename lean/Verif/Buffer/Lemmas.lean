import Verif.Buffer.Model

set_option linter.all false

namespace Fly.Buffer

/-- Received and not yet consumed bytes of a chunk. -/
def Chunk.used (c : Chunk) : Bytes := (c.store.take c.filled).drop c.useOff

/-- Received and not yet consumed bytes of the buffer. -/
def content (cs : List Chunk) : Bytes := (cs.map Chunk.used).flatten

structure CWF (L : Nat) (c : Chunk) : Prop where
  len : c.store.length = L
  useLt : c.useOff < L
  useLe : c.useOff ≤ c.filled
  filledLe : c.filled ≤ L

structure WF (b : Buf) : Prop where
  ex : ∃ front last, b.chunks = front ++ [last] ∧ (∀ c ∈ front, c.filled = b.perLen)
  all : ∀ c ∈ b.chunks, CWF b.perLen c
  tail0 : ∀ c ∈ b.chunks.tail, c.useOff = 0
  le : b.chunks.length ≤ b.chainMax
  use : b.useLen = (content b.chunks).length

theorem content_append (a b : List Chunk) : content (a ++ b) = content a ++ content b := by
  simp [content]

theorem content_cons (a : Chunk) (b : List Chunk) : content (a :: b) = a.used ++ content b := by
  simp [content]

@[simp] theorem content_nil : content [] = [] := rfl

theorem used_full {L : Nat} {c : Chunk} (h : CWF L c) (hf : c.filled = L) : c.used = c.region := by
  unfold Chunk.used Chunk.region
  rw [hf, ← h.len, List.take_length]

theorem used_length {L : Nat} {c : Chunk} (h : CWF L c) : c.used.length = c.filled - c.useOff := by
  have := h.len; have := h.filledLe
  simp [Chunk.used]; omega

theorem region_length {L : Nat} {c : Chunk} (h : CWF L c) : c.region.length = L - c.useOff := by
  have := h.len
  simp [Chunk.region]; omega

theorem content_full {L : Nat} (cs : List Chunk) (h : ∀ c ∈ cs, CWF L c) (hf : ∀ c ∈ cs, c.filled = L) :
    content cs = (cs.map Chunk.region).flatten := by
  induction cs with
  | nil => rfl
  | cons c cs ih =>
    rw [content_cons, used_full (h c (by simp)) (hf c (by simp)),
      ih (fun x hx => h x (by simp [hx])) (fun x hx => hf x (by simp [hx]))]
    simp

theorem setLast_append (front : List Chunk) (l c : Chunk) : setLast (front ++ [l]) c = front ++ [c] := by
  simp [setLast]

theorem writeAt_length (s : Bytes) (off : Nat) (bs : Bytes) (h : off + bs.length ≤ s.length) :
    (writeAt s off bs).length = s.length := by
  simp [writeAt]; omega

theorem writeAt_take (s : Bytes) (off : Nat) (bs : Bytes) (h : off + bs.length ≤ s.length) :
    (writeAt s off bs).take (off + bs.length) = s.take off ++ bs := by
  unfold writeAt
  rw [List.take_append_of_le_length (by simp; omega), List.take_of_length_le (by simp; omega)]

theorem mem_tail_append_singleton (front : List Chunk) (l c x : Chunk)
    (h : x ∈ (front ++ [c]).tail) (hne : front ≠ []) : x = c ∨ x ∈ (front ++ [l]).tail := by
  cases front with
  | nil => exact absurd rfl hne
  | cons f fs =>
    simp at h ⊢
    rcases h with h | h <;> simp [h]

/-- Receiving keeps the invariant and appends to the content. -/
theorem receive_wf (mem : Nat → Bytes) (hm : ∀ n, (mem n).length = n) (b : Buf) (hp : 0 < b.perLen)
    (h : WF b) (bs : Bytes) (hr : bs.length ≤ room b) :
    ∃ b' u, receive mem b bs = some u ∧ ((u = .success b' ∧ 0 < room b') ∨ (u = .limit b' ∧ room b' = 0 ∧ b'.chunks.length = b'.chainMax)) ∧ WF b' ∧
      content b'.chunks = content b.chunks ++ bs ∧ b'.perLen = b.perLen ∧ b'.chainMax = b.chainMax := by
  obtain ⟨front, last, hc, hfull⟩ := h.ex
  have hlast : b.chunks.getLast? = some last := by rw [hc]; simp
  have hlw : CWF b.perLen last := h.all last (by rw [hc]; simp)
  have hunuse : last.unuseLen = b.perLen - last.filled := by simp [Chunk.unuseLen, hlw.len]
  simp only [room, hlast, hunuse] at hr
  have hle := hlw.filledLe
  have hwl := writeAt_length last.store last.filled bs (by rw [hlw.len]; omega)
  have hwt := writeAt_take last.store last.filled bs (by rw [hlw.len]; omega)
  generalize hst : writeAt last.store last.filled bs = st at hwl hwt
  have hused : (((st.take (last.filled + bs.length)).drop last.useOff) : Bytes) = last.used ++ bs := by
    have := hlw.useLe
    rw [hwt, List.drop_append_of_le_length (by simp [hlw.len]; omega)]; rfl
  have htail : ∀ (c : Chunk), c.useOff = last.useOff → ∀ x ∈ (front ++ [c]).tail, x.useOff = 0 := by
    intro c hcu x hx
    cases front with
    | nil => simp at hx
    | cons f fs =>
      have ht := h.tail0
      rw [hc] at ht
      simp at hx
      rcases hx with hx | rfl
      · exact ht x (by simp [hx])
      · rw [hcu]; exact ht last (by simp)
  have hfw : ∀ c ∈ front, CWF b.perLen c := fun c hx => h.all c (by rw [hc]; simp [hx])
  have hlen : front.length + 1 ≤ b.chainMax := by have := h.le; rw [hc] at this; simpa using this
  unfold receive
  simp only [hlast, hst, updateBuffer, hc, setLast_append, List.getLast?_append, List.getLast?_singleton,
    Option.some_or]
  have hul : ({ last with store := st } : Chunk).unuseLen = b.perLen - last.filled := by
    simp [Chunk.unuseLen, hwl, hlw.len]
  unfold updateLoop
  rw [hul]
  have huse := h.use
  rw [hc] at huse
  by_cases hge : bs.length ≥ b.perLen - last.filled
  · -- the chunk becomes full
    have heq : last.filled + bs.length = b.perLen := by omega
    rw [if_pos hge]
    have hfl : st.length = b.perLen := by rw [hwl, hlw.len]
    have hnew : CWF b.perLen (⟨st, last.useOff, st.length, .full⟩ : Chunk) :=
      ⟨hfl, hlw.useLt, by simp only; rw [hfl]; exact Nat.le_of_lt hlw.useLt, by simp only; omega⟩
    have hnused : (⟨st, last.useOff, st.length, .full⟩ : Chunk).used = last.used ++ bs := by
      rw [← hused, heq]; simp [Chunk.used, hfl]
    cases hfuel : b.chainMax - (front ++ [({ last with store := st } : Chunk)]).length with
    | zero =>
      simp only [setLast_append]
      refine ⟨_, _, rfl, Or.inr ⟨rfl, ?_, ?_⟩, ?_, ?_, rfl, rfl⟩
      · simp [room, Chunk.unuseLen]
      · simp at hfuel ⊢; omega
      · simp at hfuel
        refine ⟨⟨front, _, rfl, hfull⟩, ?_, htail _ rfl, ?_, ?_⟩
        · intro c hx
          simp only [List.mem_append, List.mem_singleton] at hx
          rcases hx with hx | rfl
          · exact hfw c hx
          · exact hnew
        · simp; omega
        · simp only [content_append, content_cons, content_nil, List.append_nil, hnused] at huse ⊢
          simp only [List.length_append] at huse ⊢
          omega
      · simp only [content_append, content_cons, content_nil, List.append_nil, hnused, List.append_assoc]
    | succ fuel =>
      simp only [setLast_append]
      unfold updateLoop
      have hun : (Chunk.fresh (mem b.perLen)).unuseLen = b.perLen := by simp [Chunk.fresh, Chunk.unuseLen, hm]
      rw [hun]
      have h0 : bs.length - (b.perLen - last.filled) = 0 := by omega
      rw [h0, if_neg (by omega), if_pos rfl]
      have hfr : CWF b.perLen (Chunk.fresh (mem b.perLen)) := ⟨hm _, hp, Nat.le_refl _, Nat.zero_le _⟩
      have hfu : (Chunk.fresh (mem b.perLen)).used = [] := by simp [Chunk.fresh, Chunk.used]
      refine ⟨_, _, rfl, Or.inl ⟨rfl, ?_⟩, ?_, ?_, rfl, rfl⟩
      · simp [room, hun, hp]
      · simp at hfuel
        refine ⟨⟨front ++ [⟨st, last.useOff, st.length, .full⟩], Chunk.fresh (mem b.perLen), rfl, ?_⟩, ?_, ?_, ?_, ?_⟩
        · intro c hx
          simp only [List.mem_append, List.mem_singleton] at hx
          rcases hx with hx | rfl
          · exact hfull c hx
          · exact hfl
        · intro c hx
          simp only [List.mem_append, List.mem_singleton] at hx
          rcases hx with (hx | rfl) | rfl
          · exact hfw c hx
          · exact hnew
          · exact hfr
        · intro c hx
          have : c ∈ (front ++ [(⟨st, last.useOff, st.length, .full⟩ : Chunk)]).tail ∨ c = Chunk.fresh (mem b.perLen) := by
            cases front with
            | nil => simp at hx; simp [hx]
            | cons f fs => simp at hx ⊢; rcases hx with hx | hx | hx <;> simp [hx]
          rcases this with hx | rfl
          · exact htail ⟨st, last.useOff, st.length, .full⟩ rfl c hx
          · rfl
        · simp; omega
        · simp only [content_append, content_cons, content_nil, List.append_nil, hnused, hfu] at huse ⊢
          simp only [List.length_append] at huse ⊢
          omega
      · simp only [content_append, content_cons, content_nil, List.append_nil, hnused, hfu, List.append_assoc]
  · rw [if_neg hge]
    by_cases hz : bs.length = 0
    · rw [if_pos hz]
      have hbs : bs = [] := List.length_eq_zero_iff.1 hz
      have hnused : ({ last with store := st } : Chunk).used = last.used := by
        have := hused; rw [hz, hbs, List.append_nil] at this; exact this
      refine ⟨_, _, rfl, Or.inl ⟨rfl, ?_⟩, ?_, ?_, rfl, rfl⟩
      · simp [room, Chunk.unuseLen, hwl, hlw.len]; omega
      · refine ⟨⟨front, _, rfl, hfull⟩, ?_, htail _ rfl, ?_, ?_⟩
        · intro c hx
          simp only [List.mem_append, List.mem_singleton] at hx
          rcases hx with hx | rfl
          · exact hfw c hx
          · exact ⟨by simp only; rw [hwl, hlw.len], hlw.useLt, hlw.useLe, hlw.filledLe⟩
        · simpa using hlen
        · simp only [content_append, content_cons, content_nil, List.append_nil, hnused] at huse ⊢
          exact huse
      · simp only [content_append, content_cons, content_nil, List.append_nil, hnused, hbs]
    · rw [if_neg hz]
      simp only [setLast_append]
      have hnused : (⟨st, last.useOff, last.filled + bs.length, .half⟩ : Chunk).used = last.used ++ bs := hused
      refine ⟨_, _, rfl, Or.inl ⟨rfl, ?_⟩, ?_, ?_, rfl, rfl⟩
      · simp [room, Chunk.unuseLen, hwl, hlw.len]; omega
      · refine ⟨⟨front, _, rfl, hfull⟩, ?_, htail _ rfl, ?_, ?_⟩
        · intro c hx
          simp only [List.mem_append, List.mem_singleton] at hx
          rcases hx with hx | rfl
          · exact hfw c hx
          · have := hlw.useLe
            exact ⟨by simp only; rw [hwl, hlw.len], hlw.useLt, by simp only; omega, by simp only; omega⟩
        · simpa using hlen
        · simp only [content_append, content_cons, content_nil, List.append_nil, hnused] at huse ⊢
          simp only [List.length_append] at huse ⊢
          omega
      · simp only [content_append, content_cons, content_nil, List.append_nil, hnused, List.append_assoc]

theorem foldl_region (cs : List Chunk) (a : Nat) :
    cs.foldl (fun a x => a + x.region.length) a = a + ((cs.map Chunk.region).flatten).length := by
  induction cs generalizing a with
  | nil => simp
  | cons c cs ih => simp [ih]; omega

/-- Effect of the counting loop on a well-formed chunk list that holds at least `len - total`
bytes (strictly more if the last chunk is full). -/
theorem releaseCount_spec (L : Nat) (front : List Chunk) (last : Chunk) (total len : Nat)
    (hall : ∀ c ∈ front ++ [last], CWF L c) (hfull : ∀ c ∈ front, c.filled = L)
    (hle : len ≤ total + (content (front ++ [last])).length)
    (hlast : last.filled = L → len < total + (content (front ++ [last])).length) :
    ∃ pre n more, front ++ [last] = pre ++ n :: more ∧
      releaseCount (front ++ [last]) total len = (pre.length, total + ((pre.map Chunk.region).flatten).length) ∧
      (∀ c ∈ pre, c ∈ front) ∧ (total ≤ len ∨ pre = []) ∧
      (pre ≠ [] → total + ((pre.map Chunk.region).flatten).length ≤ len) ∧
      len < total + ((pre.map Chunk.region).flatten).length + n.region.length ∧
      len ≤ total + ((pre.map Chunk.region).flatten).length + (content (n :: more)).length := by
  induction front generalizing total with
  | nil =>
    have hw := hall last (by simp)
    have hu := used_length hw
    have hr := region_length hw
    have := hw.filledLe
    have := hw.useLe
    have := hw.useLt
    simp only [List.nil_append, content_cons, content_nil, List.append_nil] at hle hlast
    have hlt : ¬ (total + last.region.length ≤ len) := by
      rw [hr]
      by_cases hf : last.filled = L
      · have := hlast hf; omega
      · omega
    refine ⟨[], last, [], rfl, ?_, by simp, Or.inr rfl, by simp, ?_, ?_⟩
    · simp [releaseCount, hlt]
    · simp; omega
    · simp [content_cons]; omega
  | cons c front ih =>
    have hw := hall c (by simp)
    have hcu := used_full hw (hfull c (by simp))
    simp only [List.cons_append, content_cons, List.length_append, hcu] at hle hlast
    by_cases hcnt : total + c.region.length ≤ len
    · obtain ⟨pre, n, more, h1, h2, h3, h4, h5, h6, h7⟩ := ih (total + c.region.length)
        (fun x hx => hall x (by simp at hx ⊢; exact Or.inr hx)) (fun x hx => hfull x (by simp [hx]))
        (by omega) (fun hx => by have := hlast hx; omega)
      refine ⟨c :: pre, n, more, by simp [h1], ?_, ?_, ?_, ?_, ?_, ?_⟩
      · have hne : ∃ y ys, front ++ [last] = y :: ys := by
          cases front with
          | nil => exact ⟨last, [], rfl⟩
          | cons y ys => exact ⟨y, ys ++ [last], rfl⟩
        obtain ⟨y, ys, hy⟩ := hne
        rw [hy] at h2
        rw [List.cons_append, hy, releaseCount, if_pos hcnt]
        simp only [h2]
        simp; omega
      · intro x hx
        simp only [List.mem_cons] at hx ⊢
        rcases hx with rfl | hx
        · simp
        · exact Or.inr (h3 x hx)
      · left; omega
      · intro _
        simp only [List.map_cons, List.flatten_cons, List.length_append]
        by_cases hp : pre = []
        · subst hp; simp; omega
        · have := h5 hp; omega
      · simp only [List.map_cons, List.flatten_cons, List.length_append]; omega
      · simp only [List.map_cons, List.flatten_cons, List.length_append]; omega
    · refine ⟨[], c, front ++ [last], rfl, ?_, by simp, Or.inr rfl, by simp, ?_, ?_⟩
      · simp only [List.cons_append, releaseCount, if_neg hcnt]; simp
      · simp; omega
      · simp [content_cons, hcu]; omega

theorem append_singleton_suffix {front : List Chunk} {last : Chunk} {pre : List Chunk} {n : Chunk} {more : List Chunk}
    (h : front ++ [last] = pre ++ n :: more) :
    ∃ front', n :: more = front' ++ [last] ∧ front = pre ++ front' := by
  induction pre generalizing front with
  | nil => exact ⟨front, h.symm, rfl⟩
  | cons p pre ih =>
    cases front with
    | nil =>
      simp at h
    | cons f fs =>
      simp only [List.cons_append, List.cons.injEq] at h
      obtain ⟨front', h1, h2⟩ := ih h.2
      exact ⟨front', h1, by simp [h.1, h2]⟩

/-- Moving `use_ptr` forward by `k` inside the first chunk drops `k` bytes. -/
theorem content_skip (L : Nat) (c : Chunk) (rest : List Chunk) (k : Nat) (hw : CWF L c)
    (hk : k ≤ (content (c :: rest)).length) (hr : k < c.region.length)
    (hfull : rest ≠ [] → c.filled = L) :
    content ({ c with useOff := c.useOff + k } :: rest) = (content (c :: rest)).drop k ∧
    CWF L { c with useOff := c.useOff + k } := by
  have hrl := region_length hw
  have hul := used_length hw
  have := hw.useLe
  have := hw.filledLe
  have hku : k ≤ c.used.length := by
    by_cases hne : rest = []
    · subst hne; simpa [content_cons] using hk
    · rw [used_full hw (hfull hne)]; omega
  constructor
  · rw [content_cons, content_cons, List.drop_append_of_le_length hku]
    simp [Chunk.used, List.drop_drop]
  · exact ⟨hw.len, by simp only; omega, by simp only; omega, hw.filledLe⟩

/-- Consuming `n` buffered bytes drops exactly the first `n` bytes and keeps the invariant. -/
theorem release_wf (b : Buf) (h : WF b) (n : Nat) (hn : n ≤ (content b.chunks).length)
    (hroom : room b = 0 → n < (content b.chunks).length) :
    ∃ b', release b n = some b' ∧ WF b' ∧ content b'.chunks = (content b.chunks).drop n ∧
      b'.perLen = b.perLen ∧ b'.chainMax = b.chainMax := by
  obtain ⟨front, last, hc, hfull⟩ := h.ex
  have hlw : CWF b.perLen last := h.all last (by rw [hc]; simp)
  have hroom' : last.filled = b.perLen → n < (content b.chunks).length := by
    intro hf
    apply hroom
    have hlast : b.chunks.getLast? = some last := by rw [hc]; simp
    simp [room, hlast, Chunk.unuseLen, hlw.len, hf]
  have hall := h.all
  have huse := h.use
  have hle := h.le
  have htl := h.tail0
  obtain ⟨cs, cm, pl, ul⟩ := b
  simp only at *
  subst hc
  cases hcs : front ++ [last] with
  | nil => simp at hcs
  | cons c rest =>
    unfold release
    simp only
    rw [hcs] at hall hn hroom' huse hle htl
    have hcw : CWF pl c := hall c (by simp)
    have hfr : rest ≠ [] → c.filled = pl := by
      intro hne
      cases front with
      | nil => simp at hcs; exact absurd hcs.2 hne
      | cons f fs =>
        simp at hcs
        exact hfull c (by simp [hcs.1])
    by_cases hgt : c.region.length > n
    · rw [if_pos hgt]
      obtain ⟨e1, e2⟩ := content_skip pl c rest n hcw hn hgt hfr
      refine ⟨_, rfl, ?_, e1, rfl, rfl⟩
      refine ⟨?_, ?_, ?_, ?_, ?_⟩
      · cases front with
        | nil =>
          simp at hcs
          obtain ⟨rfl, rfl⟩ := hcs
          exact ⟨[], _, rfl, by simp⟩
        | cons f fs =>
          simp at hcs
          obtain ⟨rfl, rfl⟩ := hcs
          refine ⟨{ f with useOff := f.useOff + n } :: fs, last, rfl, ?_⟩
          intro x hx
          simp only [List.mem_cons] at hx
          rcases hx with rfl | hx
          · exact hfull f (by simp)
          · exact hfull x (by simp [hx])
      · intro x hx
        simp only [List.mem_cons] at hx
        rcases hx with rfl | hx
        · exact e2
        · exact hall x (by simp [hx])
      · simpa using htl
      · simpa using hle
      · simp only [e1, List.length_drop]; omega
    · rw [if_neg hgt]
      rw [← hcs] at hall hn hroom' huse hle htl
      obtain ⟨pre, m, more, h1, h2, h3, h4, h5, h6, h7⟩ :=
        releaseCount_spec pl front last 0 n hall hfull (by simpa using hn) (by simpa using hroom')
      rw [← hcs, h2, h1]
      obtain ⟨front', hf1, hf2⟩ := append_singleton_suffix h1
      have hpre : pre ≠ [] := by
        rintro rfl
        simp only [List.nil_append] at h1
        rw [hcs] at h1
        simp only [List.cons.injEq] at h1
        simp at h6
        rw [← h1.1] at h6
        omega
      have h5' := h5 hpre
      simp only [Nat.zero_add] at h5' h6 h7 ⊢
      have hmm : m ∈ front ++ [last] := by rw [h1]; simp
      have hm0 : m.useOff = 0 := by
        apply htl
        rw [h1]
        cases pre with
        | nil => exact absurd rfl hpre
        | cons p ps => simp
      simp only [List.drop_left', List.drop_append_of_le_length (Nat.le_refl _), List.drop_length,
        List.nil_append, List.take_left']
      generalize hP : (List.map Chunk.region pre).flatten = P at *
      have hcp : content pre = P := by
        rw [← hP]
        exact content_full pre (fun x hx => hall x (by simp [h3 x hx])) (fun x hx => hfull x (h3 x hx))
      obtain ⟨e1, e2⟩ := content_skip pl m more (n - P.length) (hall m hmm) (by omega) (by omega) (by
        intro hne
        apply hfull
        rw [hf2]
        cases front' with
        | nil => simp at hf1; exact absurd hf1.2 hne
        | cons g gs => simp at hf1; simp [hf1.1])
      rw [hm0, Nat.zero_add] at e1 e2
      have hcont : (content (pre ++ m :: more)).drop n = (content (m :: more)).drop (n - P.length) := by
        rw [content_append, hcp, List.drop_append, List.drop_of_length_le (by omega), List.nil_append]
      have htot : (content (pre ++ m :: more)).length = P.length + (content (m :: more)).length := by
        rw [content_append, hcp, List.length_append]
      have huse' : ul = P.length + (content (m :: more)).length := by
        rw [huse, h1, htot]
      refine ⟨_, rfl, ?_, by rw [hcont]; exact e1, rfl, rfl⟩
      refine ⟨?_, ?_, ?_, ?_, ?_⟩
      · cases front' with
        | nil =>
          simp at hf1
          obtain ⟨rfl, rfl⟩ := hf1
          exact ⟨[], { m with useOff := n - P.length }, rfl, by simp⟩
        | cons g gs =>
          simp at hf1
          obtain ⟨rfl, rfl⟩ := hf1
          refine ⟨{ m with useOff := n - P.length } :: gs, last, rfl, ?_⟩
          · intro x hx
            simp only [List.mem_cons] at hx
            rcases hx with rfl | hx
            · exact hfull m (by simp [hf2])
            · exact hfull x (by simp [hf2, hx])
      · intro x hx
        simp only [List.mem_cons] at hx
        rcases hx with rfl | hx
        · exact e2
        · exact hall x (by rw [h1]; simp [hx])
      · simp only [List.tail_cons]
        intro x hx
        apply htl
        rw [h1]
        cases pre with
        | nil => exact absurd rfl hpre
        | cons p ps => simp [hx]
      · rw [h1] at hle
        simp at hle ⊢; omega
      · simp only [e1, List.length_drop, foldl_region, Nat.zero_add, hP]; omega

/-! ## Cursors -/

/-- No empty piece: every chunk has at least one byte from `use_ptr` on. -/
structure NE (c : Cursor) : Prop where
  cur : c.cur ≠ []
  rest : ∀ r ∈ c.rest, r ≠ []

theorem NE.flat_pos {c : Cursor} (h : NE c) : 0 < c.flat.length := by
  have := List.length_pos_iff.2 h.cur
  simp [Cursor.flat]; omega

theorem inc_ne {c : Cursor} (h : NE c) : NE c.inc := by
  obtain ⟨cur, rest⟩ := c
  have h1 := h.cur
  have h2 := h.rest
  match cur, rest, h1, h2 with
  | x :: y :: t, rest, _, h2 => exact ⟨by simp [Cursor.inc], h2⟩
  | [x], r :: rs, _, h2 => exact ⟨h2 r (by simp), fun a ha => h2 a (by simp [show a ∈ rs from ha])⟩
  | [x], [], _, _ => exact ⟨by simp [Cursor.inc], by simp [Cursor.inc]⟩

theorem inc_flat {c : Cursor} (h : NE c) (h2 : 2 ≤ c.flat.length) : c.inc.flat = c.flat.tail := by
  obtain ⟨cur, rest⟩ := c
  have h1 := h.cur
  match cur, rest, h1 with
  | x :: y :: t, rest, _ => rfl
  | [x], r :: rs, _ => simp [Cursor.inc, Cursor.flat]
  | [x], [], _ => simp [Cursor.flat] at h2

theorem atEnd_iff {c : Cursor} (h : NE c) : c.atEnd = true ↔ c.flat.length = 1 := by
  obtain ⟨cur, rest⟩ := c
  have h1 := h.cur
  match cur, rest, h1 with
  | [x], [], _ => simp [Cursor.atEnd, Cursor.flat]
  | x :: y :: t, [], _ => simp [Cursor.atEnd, Cursor.flat]
  | x :: t, r :: rs, _ =>
    have := List.length_pos_iff.2 (h.rest r (by simp))
    simp only [Cursor.atEnd, Cursor.flat, List.flatten_cons, List.length_append, List.length_cons]
    simp; omega

/-- Position order of cursors: chunks behind, then bytes behind in the chunk. -/
def Before (a b : Cursor) : Prop :=
  b.rest.length < a.rest.length ∨ (b.rest.length = a.rest.length ∧ b.cur.length < a.cur.length)

theorem Before.trans {a b c : Cursor} (h : Before a b) (h' : Before b c) : Before a c := by
  unfold Before at *; omega

theorem Before.not_same {a b : Cursor} (h : Before a b) : a.same b = false ∧ b.same a = false := by
  unfold Before at h
  simp [Cursor.same]; omega

theorem same_self (a : Cursor) : a.same a = true := by simp [Cursor.same]

theorem before_inc {c : Cursor} (h : NE c) (h2 : 2 ≤ c.flat.length) : Before c c.inc := by
  obtain ⟨cur, rest⟩ := c
  have h1 := h.cur
  match cur, rest, h1 with
  | x :: y :: t, rest, _ => right; simp [Cursor.inc]
  | [x], r :: rs, _ => left; simp [Cursor.inc]
  | [x], [], _ => simp [Cursor.flat] at h2

/-- `k`-fold increment. -/
def incN : Nat → Cursor → Cursor
  | 0, c => c
  | k + 1, c => incN k c.inc

theorem incN_succ (k : Nat) (c : Cursor) : incN (k + 1) c = (incN k c).inc := by
  induction k generalizing c with
  | zero => rfl
  | succ k ih => rw [incN, ih]; rfl

theorem incN_ne {c : Cursor} (h : NE c) (k : Nat) : NE (incN k c) := by
  induction k generalizing c with
  | zero => exact h
  | succ k ih => exact ih (inc_ne h)

theorem incN_flat {c : Cursor} (h : NE c) (k : Nat) (hk : k < c.flat.length) :
    (incN k c).flat = c.flat.drop k := by
  induction k generalizing c with
  | zero => rfl
  | succ k ih =>
    rw [incN, ih (inc_ne h) (by rw [inc_flat h (by omega)]; simp; omega), inc_flat h (by omega)]
    simp

theorem before_incN {c : Cursor} (h : NE c) (k : Nat) (hk : 0 < k) (hk2 : k < c.flat.length) :
    Before c (incN k c) := by
  induction k generalizing c with
  | zero => omega
  | succ k ih =>
    have hb := before_inc h (by omega)
    cases k with
    | zero => exact hb
    | succ k =>
      exact hb.trans (ih (inc_ne h) (by omega) (by rw [inc_flat h (by omega)]; simp; omega))

theorem memcpy_spec (n : Nat) (c : Cursor) (h : NE c) (hn : n < c.flat.length) :
    memcpy n c = some (c.flat.take n) := by
  induction n generalizing c with
  | zero => simp [memcpy]
  | succ n ih =>
    obtain ⟨cur, rest⟩ := c
    have h1 := h.cur
    match cur, rest, h1 with
    | x :: y :: t, rest, _ =>
      have := ih ⟨y :: t, rest⟩ (inc_ne h) (by simp [Cursor.flat] at hn ⊢; omega)
      simp [memcpy, this, Cursor.flat]
    | [x], r :: rs, _ =>
      have := ih ⟨r, rs⟩ (inc_ne h) (by simp [Cursor.flat] at hn ⊢; omega)
      simp [memcpy, this, Cursor.flat]
    | [x], [], _ => simp [Cursor.flat] at hn

theorem ptrLenGo_forward (first : Cursor) (h : NE first) (k : Nat) (hk : k < first.flat.length)
    (i : Nat) (hi : i + 1 ≤ k) (fuel : Nat) (hf : k - (i + 1) ≤ fuel) (len : Int) (p2 : Cursor) :
    ptrLenGo (incN k first) p2 (fuel + 1) (incN (i + 1) first) false true len = len + (k - (i + 1) : Nat) := by
  induction fuel generalizing i len with
  | zero =>
    have he : i + 1 = k := by omega
    unfold ptrLenGo
    rw [he, same_self]; simp
  | succ fuel ih =>
    unfold ptrLenGo
    by_cases he : i + 1 = k
    · rw [he, same_self]; simp
    · have hb : Before (incN (i+1) first) (incN k first) := by
        have hadd : ∀ a b c, incN (a + b) c = incN a (incN b c) := by
          intro a b c
          induction b generalizing c with
          | zero => rfl
          | succ b ih => rw [← Nat.add_assoc, incN, ih]; rfl
        have hk' : incN k first = incN (k - (i + 1)) (incN (i + 1) first) := by
          rw [← hadd]; congr 1; omega
        rw [hk']
        have hfl := incN_flat h (i + 1) (by omega)
        exact before_incN (incN_ne h _) _ (by omega) (by rw [hfl]; simp; omega)
      have hs := hb.not_same.1
      have hend : (incN (i+1) first).atEnd = false := by
        have := atEnd_iff (incN_ne h (i + 1))
        rw [incN_flat h (i + 1) (by omega)] at this
        cases ha : (incN (i+1) first).atEnd with
        | false => rfl
        | true => rw [ha] at this; simp at this; omega
      simp only [hs, hend]
      simp
      rw [← incN_succ, ih (i + 1) (by omega) (by omega)]
      omega

/-- Distance between the first pointer and a pointer `k` bytes further. -/
theorem ptrLen_spec (first : Cursor) (h : NE first) (k : Nat) (h0 : 0 < k) (hk : k < first.flat.length) :
    ptrLen first (incN k first) first = k := by
  unfold ptrLen
  obtain ⟨m, hm⟩ : ∃ m, first.flat.length = m + 2 := ⟨first.flat.length - 2, by omega⟩
  rw [hm]
  unfold ptrLenGo
  have hs := (before_incN h k h0 hk).not_same.1
  have hend : first.atEnd = false := by
    have := atEnd_iff h
    cases ha : first.atEnd with
    | false => rfl
    | true => rw [ha] at this; simp at this; omega
  simp only [hs, same_self, hend]
  simp
  have := ptrLenGo_forward first h k hk 0 (by omega) m (by omega) 1 first
  simp only [incN] at this
  rw [this]; omega

theorem incN_add (a b : Nat) (c : Cursor) : incN (a + b) c = incN a (incN b c) := by
  induction b generalizing c with
  | zero => rfl
  | succ b ih => rw [← Nat.add_assoc, incN, ih]; rfl

theorem incN_before {first : Cursor} (h : NE first) {i k : Nat} (hik : i < k) (hk : k < first.flat.length) : Before (incN i first) (incN k first) := by
  have hk' : incN k first = incN (k - i) (incN i first) := by
    rw [← incN_add]; congr 1; omega
  rw [hk']
  exact before_incN (incN_ne h _) _ (by omega) (by rw [incN_flat h i (by omega)]; simp; omega)

theorem incN_same {first : Cursor} (h : NE first) {i k : Nat} (hi : i < first.flat.length) (hk : k < first.flat.length) :
    (incN i first).same (incN k first) = decide (i = k) := by
  rcases Nat.lt_trichotomy i k with h1 | h1 | h1
  · rw [(incN_before h h1 hk).not_same.1, decide_eq_false (by omega)]
  · rw [h1, same_self, decide_eq_true rfl]
  · rw [(incN_before h h1 hi).not_same.2, decide_eq_false (by omega)]

theorem ptrLenGo_spec (first : Cursor) (h : NE first) (j k : Nat) (hj : j < first.flat.length) (hk : k < first.flat.length) :
    ∀ (fuel i : Nat), fuel + i = first.flat.length → i < first.flat.length → (k = j ∨ i ≤ k ∨ i ≤ j) →
      ptrLenGo (incN k first) (incN j first) fuel (incN i first) (decide (k < i)) (decide (j < i ∧ k ≠ j))
        (if k < i then (k : Int) - i else if j < i then (i : Int) - j else 0) = (k : Int) - j ∨ k = j ∧
      ptrLenGo (incN k first) (incN j first) fuel (incN i first) (decide (k < i)) (decide (j < i ∧ k ≠ j))
        (if k < i then (k : Int) - i else if j < i then (i : Int) - j else 0) = 0 := by
  intro fuel
  induction fuel with
  | zero => intro i he hi; omega
  | succ fuel ih =>
    intro i he hi hlate
    unfold ptrLenGo
    rw [incN_same h hi hk, incN_same h hi hj]
    have hend : (incN i first).atEnd = decide (i + 1 = first.flat.length) := by
      have := atEnd_iff (incN_ne h i)
      rw [incN_flat h i hi, List.length_drop] at this
      by_cases hq : i + 1 = first.flat.length
      · rw [decide_eq_true hq, this]; omega
      · rw [decide_eq_false hq, ← Bool.not_eq_true, this]; omega
    rw [hend]
    have e1 : (decide (k < i) || decide (i = k)) = decide (k < i + 1) := by
      rw [← Bool.decide_or]; congr 1; apply propext; omega
    have e2 : (decide (j < i ∧ k ≠ j) || (!decide (i = k) && decide (i = j))) = decide (j < i + 1 ∧ k ≠ j) := by
      rw [Bool.eq_iff_iff]
      simp only [Bool.or_eq_true, Bool.and_eq_true, Bool.not_eq_true', decide_eq_true_eq, decide_eq_false_iff_not, ne_eq]
      omega
    simp only [e1, e2]
    by_cases hb : (decide (k < i + 1) && decide (j < i + 1 ∧ k ≠ j)) = true
    · rw [if_pos hb]
      rw [Bool.and_eq_true, decide_eq_true_eq, decide_eq_true_eq] at hb
      left
      split
      · omega
      · split <;> omega
    · rw [if_neg hb]
      rw [Bool.and_eq_true, decide_eq_true_eq, decide_eq_true_eq] at hb
      by_cases hq : i + 1 = first.flat.length
      · rw [decide_eq_true hq, if_pos rfl]
        right
        exact ⟨by omega, rfl⟩
      · rw [decide_eq_false hq]
        simp only [Bool.false_eq_true, if_false]
        have hl : (if decide (k < i + 1) = true then (if k < i then (k : Int) - i else if j < i then (i : Int) - j else 0) - 1
            else if decide (j < i + 1 ∧ k ≠ j) = true then (if k < i then (k : Int) - i else if j < i then (i : Int) - j else 0) + 1
            else if k < i then (k : Int) - i else if j < i then (i : Int) - j else 0) =
            (if k < i + 1 then (k : Int) - (i + 1 : Nat) else if j < i + 1 then ((i + 1 : Nat) : Int) - j else 0) := by
          simp only [decide_eq_true_eq]
          repeat' split
          all_goals omega
        rw [hl, ← incN_succ]
        exact ih (i + 1) (by omega) (by omega) (by omega)

/-- Distance between any two positions. -/
theorem ptrLen_distance (first : Cursor) (h : NE first) (j k : Nat) (hj : j < first.flat.length) (hk : k < first.flat.length) :
    ptrLen first (incN k first) (incN j first) = (k : Int) - j := by
  have := ptrLenGo_spec first h j k hj hk first.flat.length 0 (by omega) (by omega) (by omega)
  simp only [Nat.not_lt_zero, decide_false, if_false, false_and, incN] at this
  unfold ptrLen
  rcases this with h1 | ⟨h1, h2⟩
  · exact h1
  · rw [h2]; omega

theorem cur_head {c : Cursor} (h : NE c) : ∃ x t, c.cur = x :: t ∧ c.flat.head? = some x := by
  obtain ⟨cur, rest⟩ := c
  match cur, h.cur with
  | x :: t, _ => exact ⟨x, t, rfl, by simp [Cursor.flat]⟩

theorem strstr_step_hit {c : Cursor} (str : Bytes) (fuel : Nat) (y : Nat) (s' : Bytes) (t : Bytes) (h : NE c)
    (hf : c.flat = y :: t) :
    strstrAfter str (fuel + 1) (y :: s') c =
      (if s' = [] then some c.inc else if c.inc.atEnd then none else strstrAfter str fuel s' c.inc) := by
  obtain ⟨x, t', h1, h2⟩ := cur_head h
  rw [hf] at h2; simp at h2; subst h2
  rw [strstrAfter.eq_def]; simp only [h1]; simp

theorem strstr_step_miss {c : Cursor} (str : Bytes) (fuel : Nat) (x y : Nat) (s' : Bytes) (t : Bytes) (h : NE c)
    (hf : c.flat = x :: t) (hxy : x ≠ y) :
    strstrAfter str (fuel + 1) (y :: s') c =
      (if c.inc.atEnd then none else strstrAfter str fuel str c.inc) := by
  obtain ⟨x', t', h1, h2⟩ := cur_head h
  rw [hf] at h2; simp at h2; subst h2
  rw [strstrAfter.eq_def]; simp only [h1]; simp [hxy]

theorem not_atEnd {c : Cursor} (h : NE c) (h2 : c.flat.length ≠ 1) : c.atEnd = false := by
  cases ha : c.atEnd with
  | false => rfl
  | true => exact absurd ((atEnd_iff h).1 ha) h2

theorem strstr_crlf (line rest : Bytes) (hl : 13 ∉ line) (hr : rest ≠ []) (c : Cursor) (h : NE c)
    (hf : c.flat = line ++ 13 :: 10 :: rest) (fuel : Nat) (hfu : line.length + 2 ≤ fuel) :
    strstrAfter [13, 10] fuel [13, 10] c = some (incN (line.length + 2) c) := by
  have hrl := List.length_pos_iff.2 hr
  induction line generalizing c fuel with
  | nil =>
    obtain ⟨f, rfl⟩ : ∃ f, fuel = f + 2 := ⟨fuel - 2, by simp at hfu; omega⟩
    have e1 : c.inc.flat = 10 :: rest := by rw [inc_flat h (by simp [hf]), hf]; rfl
    have e2 : c.inc.inc.flat = rest := by
      rw [inc_flat (inc_ne h) (by simp [e1]; omega), e1]; rfl
    rw [strstr_step_hit _ _ _ _ _ h hf]
    simp [not_atEnd (inc_ne h) (by simp [e1]; exact hr)]
    rw [strstr_step_hit _ _ _ _ _ (inc_ne h) e1]
    simp [incN]
  | cons a line ih =>
    obtain ⟨f, rfl⟩ : ∃ f, fuel = f + 1 := ⟨fuel - 1, by simp at hfu; omega⟩
    have e1 : c.inc.flat = line ++ 13 :: 10 :: rest := by
      rw [inc_flat h (by simp [hf]; omega), hf]; rfl
    simp at hl
    rw [strstr_step_miss _ _ a _ _ _ h hf (by omega)]
    simp [not_atEnd (inc_ne h) (by simp [e1]; omega)]
    rw [ih hl.2 _ (inc_ne h) e1 f (by simp at hfu; omega)]
    rfl

/-- Without any CR in the whole chain nothing is found. -/
theorem strstr_none (c : Cursor) (h : NE c) (hn : 13 ∉ c.flat) (fuel : Nat) :
    strstrAfter [13, 10] fuel [13, 10] c = none := by
  induction fuel generalizing c with
  | zero => rfl
  | succ fuel ih =>
    obtain ⟨x, t, h1, h2⟩ := cur_head h
    cases hf : c.flat with
    | nil => rw [hf] at h2; simp at h2
    | cons y u =>
      rw [hf] at hn
      simp at hn
      rw [strstr_step_miss _ _ y _ _ _ h hf (by omega)]
      by_cases hu : u = []
      · subst hu
        have : c.inc = c := by
          obtain ⟨cur, rest⟩ := c
          have hc := h.cur
          match cur, rest, hc with
          | x :: y :: t, rest, _ => simp [Cursor.flat] at hf
          | [x], r :: rs, _ =>
            have := h.rest r (by simp)
            simp [Cursor.flat] at hf; exact absurd hf.2.1 this
          | [x], [], _ => rfl
        rw [this, (atEnd_iff h).2 (by simp [hf])]; simp
      · have hul := List.length_pos_iff.2 hu
        have e1 : c.inc.flat = u := by rw [inc_flat h (by simp [hf]; omega), hf]; rfl
        split
        · rfl
        · exact ih _ (inc_ne h) (by rw [e1]; exact hn.2)

/-- The first pointer of a well-formed buffer sees the content followed by the unreceived room. -/
theorem firstPtr_wf (b : Buf) (h : WF b) : ∃ p g, firstPtr b = some p ∧ NE p ∧
    p.flat = content b.chunks ++ g ∧ g.length = room b := by
  obtain ⟨front, last, hc, hfull⟩ := h.ex
  have hall := h.all
  have hlw : CWF b.perLen last := h.all last (by rw [hc]; simp)
  have hlast : b.chunks.getLast? = some last := by rw [hc]; simp
  have hne : ∀ c ∈ b.chunks, c.region ≠ [] := by
    intro c hc' he
    have := region_length (hall c hc')
    have := (hall c hc').useLt
    rw [he] at *
    simp at *; omega
  have hreg : (b.chunks.map Chunk.region).flatten = content b.chunks ++ last.store.drop last.filled := by
    rw [hc, content_append, List.map_append, List.flatten_append, content_cons]
    rw [content_full front (fun c hx => hall c (by rw [hc]; simp [hx])) hfull]
    simp only [List.map_cons, List.map_nil, List.flatten_cons, List.flatten_nil, List.append_nil, content_nil,
      List.append_assoc, List.append_cancel_left_eq]
    unfold Chunk.region Chunk.used
    have h1 := hlw.useLe
    have h2 := hlw.filledLe
    have h3 := hlw.len
    conv => lhs; rw [← List.take_append_drop last.filled last.store]
    rw [List.drop_append_of_le_length (by simp; omega)]
  cases hcs : b.chunks with
  | nil => rw [hc] at hcs; simp at hcs
  | cons c rest =>
    refine ⟨⟨c.region, rest.map Chunk.region⟩, last.store.drop last.filled, by simp [firstPtr, hcs], ?_, ?_, ?_⟩
    · exact ⟨hne c (by simp [hcs]), by
        intro r hr
        simp at hr
        obtain ⟨x, hx, rfl⟩ := hr
        exact hne x (by simp [hcs, hx])⟩
    · rw [← hcs, ← hreg, hcs]; simp [Cursor.flat]
    · simp [room, hlast, Chunk.unuseLen]

/-! ## advance -/

theorem advance_go (rs : List Bytes) (l : Nat) (hl : 1 ≤ l) (h : ∀ r ∈ rs, r ≠ []) (hle : l ≤ rs.flatten.length) :
    ∃ c, advance.go l rs = some c ∧ NE c ∧ c.flat = rs.flatten.drop (l - 1) := by
  induction rs generalizing l with
  | nil => simp at hle; omega
  | cons r rs ih =>
    unfold advance.go
    by_cases hlr : l ≤ r.length
    · rw [if_pos hlr]
      refine ⟨_, rfl, ⟨?_, fun x hx => h x (by simp [hx])⟩, ?_⟩
      · intro he
        have := congrArg List.length he
        simp at this; omega
      · simp only [Cursor.flat, List.flatten_cons]
        rw [List.drop_append_of_le_length (by omega)]
    · rw [if_neg hlr]
      rw [List.flatten_cons, List.length_append] at hle
      obtain ⟨c, h1, h2, h3⟩ := ih (l - r.length) (by omega) (fun x hx => h x (by simp [hx])) (by omega)
      refine ⟨c, h1, h2, ?_⟩
      have e : List.drop (l - 1) r = [] := List.drop_of_length_le (by omega)
      rw [h3, List.flatten_cons, List.drop_append, e, List.nil_append]; congr 1; omega

theorem advance_spec (c : Cursor) (h : NE c) (n : Nat) (hn : n < c.flat.length) :
    ∃ c', advance c n = some c' ∧ NE c' ∧ c'.flat = c.flat.drop n := by
  unfold advance
  by_cases hc : n < c.cur.length
  · rw [if_pos hc]
    refine ⟨_, rfl, ⟨?_, h.rest⟩, ?_⟩
    · intro he
      have := congrArg List.length he
      simp at this; omega
    · simp only [Cursor.flat]
      rw [List.drop_append_of_le_length (by omega)]
  · rw [if_neg hc]
    rw [Cursor.flat, List.length_append] at hn
    obtain ⟨c', h1, h2, h3⟩ := advance_go c.rest (n - c.cur.length + 1) (by omega) h.rest (by omega)
    refine ⟨c', h1, h2, ?_⟩
    rw [h3]
    simp only [Cursor.flat]
    have e : List.drop n c.cur = [] := List.drop_of_length_le (by omega)
    rw [List.drop_append, e, List.nil_append]
    rfl

/-! ## memcmp -/

theorem memcmpGo_spec (L : Nat) (dist : Bytes) (cur : Bytes) (k : Nat) (half : Bool) (rest : List Chunk)
    (hz : 0 ∉ dist) (hcur : cur ≠ []) (hk : k ≤ cur.length) (hkr : rest ≠ [] → k = cur.length)
    (hw : ∀ c ∈ rest, CWF L c)
    (hfull : ∀ pre c post, rest = pre ++ c :: post → post ≠ [] → c.filled = L)
    (h1 : dist.length ≤ (cur.take k ++ content rest).length)
    (h2 : dist.length < cur.length + ((rest.map Chunk.region).flatten).length) :
    memcmpGo dist cur k half rest =
      if (cur.take k ++ content rest).take dist.length = dist then .equal else .differ := by
  induction dist generalizing cur k half rest with
  | nil => simp [memcmpGo]
  | cons d ds ih =>
    simp at hz
    have hk0 : 0 < k := by
      by_cases hr : rest = []
      · subst hr; simp at h1; omega
      · rw [hkr hr]; exact List.length_pos_iff.2 hcur
    obtain ⟨k', rfl⟩ : ∃ k', k = k' + 1 := ⟨k - 1, by omega⟩
    match cur, hcur with
    | x :: xs, _ =>
      unfold memcmpGo
      simp only
      by_cases hdx : d = x
      · subst hdx
        have hd0 : ¬ d = 0 := by omega
        simp only [ne_eq, not_true_eq_false, if_false, hd0]
        simp only [Nat.add_eq_zero_iff, Nat.succ_ne_self, and_false, decide_false, Bool.and_false, if_false,
          Nat.add_sub_cancel]
        have e0 : ((d :: xs).take (k' + 1) ++ content rest).take (d :: ds).length = d :: (xs.take k' ++ content rest).take ds.length := by
          simp
        have e1 : ((d :: xs).take (k' + 1) ++ content rest).take (d :: ds).length = d :: ds ↔
            (xs.take k' ++ content rest).take ds.length = ds := by
          rw [e0]; simp
        simp only [e1]
        match xs, rest with
        | y :: ys, rest =>
          simp only [Bool.false_eq_true, if_false]
          exact ih _ _ _ _ hz.2 (by simp) (by simp at hk ⊢; omega) (fun hr => by have := hkr hr; simp at this ⊢; omega)
            hw hfull (by simp only [List.take_succ_cons, List.cons_append, List.length_cons] at h1; omega)
            (by simp only [List.length_cons] at h2 ⊢; omega)
        | [], c :: cs =>
          simp only [Bool.false_eq_true, if_false]
          have hcw := hw c (by simp)
          have hu := used_length hcw
          have hrl := region_length hcw
          have := hcw.filledLe
          have := hcw.useLt
          have hreg : c.region.take (c.filled - c.useOff) = c.used := by
            unfold Chunk.region Chunk.used
            rw [← List.drop_take]
          rw [ih c.region (c.filled - c.useOff) _ cs hz.2]
          · rw [hreg]; simp [content_cons]
          · intro he; rw [he] at hrl; simp at hrl; omega
          · omega
          · intro hr; rw [hfull [] c cs rfl hr, hrl]
          · exact fun a ha => hw a (by simp [ha])
          · intro pre a post he hp
            exact hfull (c :: pre) a post (by simp [he]) hp
          · rw [hreg]
            have hk1 : k' = 0 := by simp at hk; omega
            subst hk1
            simp [content_cons] at h1 ⊢; omega
          · simp only [List.map_cons, List.flatten_cons, List.length_append, List.length_cons, List.length_nil] at h2
            omega
        | [], [] => simp at h2
      · simp only [ne_eq, hdx, not_false_eq_true, if_true]
        rw [if_neg]
        simp
        intro h; exact absurd h.symm hdx

theorem memcmpFirst_spec (b : Buf) (h : WF b) (dist : Bytes) (hz : 0 ∉ dist)
    (h1 : dist.length ≤ (content b.chunks).length) (h2 : dist.length < (content b.chunks).length + room b) :
    memcmpFirst b dist = if (content b.chunks).take dist.length = dist then .equal else .differ := by
  obtain ⟨p, g, hp, _, hfl, hgl⟩ := firstPtr_wf b h
  obtain ⟨front, last, hc, hfull⟩ := h.ex
  have hall := h.all
  unfold memcmpFirst
  unfold firstPtr at hp
  cases hcs : b.chunks with
  | nil => rw [hc] at hcs; simp at hcs
  | cons c rest =>
    rw [hcs] at hp h1 h2 hfl hall
    simp only [Option.some.injEq] at hp ⊢
    subst hp
    have hcw := hall c (by simp)
    have hu := used_length hcw
    have hrl := region_length hcw
    have := hcw.filledLe
    have := hcw.useLt
    have hreg : c.region.take (c.filled - c.useOff) = c.used := by
      unfold Chunk.region Chunk.used
      rw [← List.drop_take]
    rw [memcmpGo_spec b.perLen dist c.region _ _ rest hz]
    · rw [hreg, content_cons]
    · intro he; rw [he] at hrl; simp at hrl; omega
    · omega
    · intro hr
      have : c.filled = b.perLen := by
        rw [hc] at hcs
        cases front with
        | nil => simp at hcs; exact absurd hcs.2.symm (by simpa using hr)
        | cons f fs => simp at hcs; exact hfull c (by simp [hcs.1])
      rw [this, hrl]
    · exact fun a ha => hall a (by simp [ha])
    · intro pre a post he hp
      apply hfull
      rw [hc, he] at hcs
      have hcs' : front ++ [last] = (c :: pre) ++ a :: post := by simpa using hcs
      obtain ⟨f', hf1, hf2⟩ := append_singleton_suffix hcs'
      rw [hf2]
      cases f' with
      | nil => simp at hf1; exact absurd hf1.2 hp
      | cons q qs => simp at hf1; simp [hf1.1]
    · rw [hreg]; simpa [content_cons] using h1
    · have := congrArg List.length hfl
      simp only [Cursor.flat, List.length_append, hgl] at this
      omega

end Fly.Buffer
