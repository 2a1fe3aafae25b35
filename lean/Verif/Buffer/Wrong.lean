import Verif.Buffer.Lemmas

/-! # Lemmas behind the refutations about the connection buffer -/

set_option linter.all false

namespace Fly.Buffer

/-- Searching for the second byte of CR LF when the next byte is another CR: both CRs are skipped,
and without a further CR nothing is found. -/
theorem strstr_stray (line rest : Bytes) (hl : 13 ∉ line) (hr : 13 ∉ rest) (c : Cursor) (h : NE c)
    (hf : c.flat = line ++ 13 :: 13 :: 10 :: rest) (fuel : Nat) :
    strstrAfter [13, 10] fuel [13, 10] c = none := by
  induction line generalizing c fuel with
  | nil =>
    cases fuel with
    | zero => rfl
    | succ f =>
      have e1 : c.inc.flat = 13 :: 10 :: rest := by rw [inc_flat h (by simp [hf]), hf]; rfl
      have e2 : c.inc.inc.flat = 10 :: rest := by
        rw [inc_flat (inc_ne h) (by simp [e1]), e1]; rfl
      rw [strstr_step_hit _ _ _ _ _ h hf]
      simp only [List.cons_ne_nil, if_false]
      split
      · rfl
      · cases f with
        | zero => rfl
        | succ f =>
          rw [strstr_step_miss _ _ 13 10 _ _ (inc_ne h) e1 (by omega)]
          split
          · rfl
          · exact strstr_none _ (inc_ne (inc_ne h)) (by rw [e2]; simp [hr]) f
  | cons a line ih =>
    cases fuel with
    | zero => rfl
    | succ f =>
      have e1 : c.inc.flat = line ++ 13 :: 13 :: 10 :: rest := by
        rw [inc_flat h (by simp [hf]; omega), hf]; rfl
      simp at hl
      rw [strstr_step_miss _ _ a _ _ _ h hf (by omega)]
      split
      · rfl
      · exact ih hl.2 _ (inc_ne h) e1 f

/-- The comparison with a string whose first bytes were received is decided by the byte of memory
behind them. -/
theorem memcmpGo_beyond (L : Nat) (q : Bytes) (d x : Nat) (ds g : Bytes) (cur : Bytes) (k : Nat) (half : Bool)
    (rest : List Chunk) (hz : 0 ∉ q) (hd : d ≠ x) (hcur : cur ≠ []) (hk : k ≤ cur.length)
    (hkr : rest ≠ [] → k = cur.length) (hw : ∀ c ∈ rest, CWF L c)
    (hfull : ∀ pre c post, rest = pre ++ c :: post → post ≠ [] → c.filled = L)
    (h1 : cur.take k ++ content rest = q)
    (h2 : cur ++ (rest.map Chunk.region).flatten = q ++ x :: g) :
    memcmpGo (q ++ d :: ds) cur k half rest = .differ := by
  induction q generalizing cur k half rest with
  | nil =>
    match cur, hcur with
    | y :: ys, _ =>
      simp only [List.nil_append, List.cons_append, List.cons.injEq] at h2
      rw [List.nil_append]
      unfold memcmpGo
      simp only [h2.1, ne_eq, hd, not_false_eq_true, if_true]
  | cons a q ih =>
    simp at hz
    have hk0 : 0 < k := by
      by_cases hr : rest = []
      · subst hr
        rcases Nat.eq_zero_or_pos k with h | h
        · subst h; simp at h1
        · exact h
      · rw [hkr hr]; exact List.length_pos_iff.2 hcur
    obtain ⟨k', rfl⟩ : ∃ k', k = k' + 1 := ⟨k - 1, by omega⟩
    match cur, hcur with
    | y :: xs, _ =>
      simp only [List.take_succ_cons, List.cons_append, List.cons.injEq] at h1 h2
      obtain ⟨rfl, h1⟩ := h1
      obtain ⟨_, h2⟩ := h2
      have hy0 : ¬ y = 0 := by omega
      rw [List.cons_append]
      unfold memcmpGo
      simp only [ne_eq, not_true_eq_false, if_false, hy0]
      simp only [Nat.add_eq_zero_iff, Nat.succ_ne_self, and_false, decide_false, Bool.and_false, if_false,
        Nat.add_sub_cancel]
      match xs, rest with
      | z :: zs, rest =>
        simp only [Bool.false_eq_true, if_false]
        exact ih _ _ _ _ hz.2 (by simp) (by simp at hk ⊢; omega) (fun hr => by have := hkr hr; simp at this ⊢; omega)
          hw hfull h1 h2
      | [], c :: cs =>
        simp only [Bool.false_eq_true, if_false]
        have hcw := hw c (by simp)
        have hu := used_length hcw
        have hrl := region_length hcw
        have := hcw.filledLe
        have := hcw.useLt
        have hreg : c.region.take (c.filled - c.useOff) = c.used := by
          unfold Chunk.region Chunk.used
          rw [← List.drop_take]
        refine ih c.region (c.filled - c.useOff) _ cs hz.2 ?_ (by omega) ?_ ?_ ?_ ?_ ?_
        · intro he; rw [he] at hrl; simp at hrl; omega
        · intro hr; rw [hfull [] c cs rfl hr, hrl]
        · exact fun a ha => hw a (by simp [ha])
        · intro pre a post he hp
          exact hfull (c :: pre) a post (by simp [he]) hp
        · rw [hreg]; simpa [content_cons] using h1
        · simpa using h2
      | [], [] => simp at h2

theorem memcmpFirst_beyond (b : Buf) (h : WF b) (p : Cursor) (hp : firstPtr b = some p) (d x : Nat) (ds g : Bytes)
    (hz : 0 ∉ content b.chunks) (hd : d ≠ x) (hfl : p.flat = content b.chunks ++ x :: g) :
    memcmpFirst b (content b.chunks ++ d :: ds) = .differ := by
  obtain ⟨front, last, hc, hfull⟩ := h.ex
  have hall := h.all
  unfold memcmpFirst
  unfold firstPtr at hp
  cases hcs : b.chunks with
  | nil => rw [hc] at hcs; simp at hcs
  | cons c rest =>
    rw [hcs] at hp hfl hall hz
    simp only [Option.some.injEq] at hp ⊢
    subst hp
    have hcw := hall c (by simp)
    have hu := used_length hcw
    have hrl := region_length hcw
    have := hcw.filledLe
    have := hcw.useLt
    have hreg : c.region.take (c.filled - c.useOff) = c.used := by
      unfold Chunk.region Chunk.used
      rw [← List.drop_take]
    refine memcmpGo_beyond b.perLen _ d x ds g c.region _ _ rest hz hd ?_ (by omega) ?_ ?_ ?_ ?_ ?_
    · intro he; rw [he] at hrl; simp at hrl; omega
    · intro hr
      have : c.filled = b.perLen := by
        rw [hc] at hcs
        cases front with
        | nil => simp at hcs; exact absurd hcs.2.symm (by simpa using hr)
        | cons f fs => simp at hcs; exact hfull c (by simp [hcs.1])
      rw [this, hrl]
    · exact fun a ha => hall a (by simp [ha])
    · intro pre a post he hp
      apply hfull
      rw [hc, he] at hcs
      have hcs' : front ++ [last] = (c :: pre) ++ a :: post := by simpa using hcs
      obtain ⟨f', hf1, hf2⟩ := append_singleton_suffix hcs'
      rw [hf2]
      cases f' with
      | nil => simp at hf1; exact absurd hf1.2 hp
      | cons q qs => simp at hf1; simp [hf1.1]
    · rw [hreg, content_cons]
    · simpa [Cursor.flat] using hfl

theorem releaseCount_all (cs : List Chunk) (total len : Nat)
    (h : total + ((cs.map Chunk.region).flatten).length ≤ len) : (releaseCount cs total len).1 = cs.length := by
  induction cs generalizing total with
  | nil => rfl
  | cons c rest ih =>
    simp only [List.map_cons, List.flatten_cons, List.length_append] at h
    unfold releaseCount
    rw [if_pos (by omega)]
    cases rest with
    | nil => rfl
    | cons d rest =>
      simp only
      rw [ih (total + c.region.length) (by omega)]
      rfl

/-- Consuming every byte of a buffer without room gives back all its chunks. -/
theorem release_full (b : Buf) (h : WF b) (hr : room b = 0) : release b (content b.chunks).length = none := by
  obtain ⟨p, g, hp, _, hfl, hgl⟩ := firstPtr_wf b h
  have hg : g = [] := List.length_eq_zero_iff.1 (by omega)
  rw [hg, List.append_nil] at hfl
  unfold release
  unfold firstPtr at hp
  cases hcs : b.chunks with
  | nil => rfl
  | cons c rest =>
    rw [hcs] at hp hfl
    simp only [Option.some.injEq] at hp
    subst hp
    have hl := congrArg List.length hfl
    simp only [Cursor.flat, List.length_append] at hl
    have e : (releaseCount (c :: rest) 0 (content (c :: rest)).length).1 = (c :: rest).length := by
      apply releaseCount_all
      simp only [List.map_cons, List.flatten_cons, List.length_append]
      omega
    simp only
    rw [if_neg (by omega), e, List.drop_length]

/-- `k` initial chunks are `k` fresh chunks. -/
theorem init_go (mem : Nat → Bytes) (k : Nat) (b : Buf) (h : b.chunks.length + k ≤ b.chainMax) :
    init.go mem k b = some { b with chunks := b.chunks ++ List.replicate k (Chunk.fresh (mem b.perLen)) } := by
  induction k generalizing b with
  | zero => simp [init.go]
  | succ k ih =>
    unfold init.go
    have : addChain mem b = some { b with chunks := b.chunks ++ [Chunk.fresh (mem b.perLen)] } := by
      unfold addChain; rw [if_neg (by omega)]
    rw [this, Option.bind_some, ih _ (by simp; omega)]
    simp [List.replicate_succ]

/-- Receiving leaves every chunk but the last alone. -/
theorem updateLoop_head (mem : Nat → Bytes) (fuel : Nat) (b : Buf) (last : Chunk) (i : Nat) (c d : Chunk) (cs : List Chunk)
    (hb : b.chunks = c :: d :: cs) :
    ∃ b' cs', (updateLoop mem fuel b last i = .success b' ∨ updateLoop mem fuel b last i = .limit b') ∧
      b'.chunks = c :: cs' := by
  have hset : ∀ x, ∃ e es, setLast b.chunks x = c :: e :: es := by
    intro x
    rw [hb]
    unfold setLast
    cases cs with
    | nil => exact ⟨x, [], rfl⟩
    | cons f fs => exact ⟨d, (f :: fs).dropLast ++ [x], rfl⟩
  induction fuel generalizing b last i d cs with
  | zero =>
    rw [updateLoop.eq_def]
    dsimp only
    split
    · obtain ⟨e, es, he⟩ := hset { last with filled := last.store.length, status := .full }
      exact ⟨_, _, Or.inr rfl, he⟩
    · split
      · exact ⟨b, _, Or.inl rfl, hb⟩
      · obtain ⟨e, es, he⟩ := hset { last with filled := last.filled + i, status := .half }
        exact ⟨_, _, Or.inl rfl, he⟩
  | succ fuel ih =>
    rw [updateLoop.eq_def]
    dsimp only
    split
    · obtain ⟨e, es, he⟩ := hset { last with filled := last.store.length, status := .full }
      refine ih _ _ _ e (es ++ [Chunk.fresh (mem b.perLen)]) (by simp only [he]; rfl) ?_
      intro x
      simp only [he]
      refine ⟨e, es ++ [x], ?_⟩
      unfold setLast
      rw [List.dropLast_append_of_ne_nil (by simp)]
      simp
    · split
      · exact ⟨b, _, Or.inl rfl, hb⟩
      · obtain ⟨e, es, he⟩ := hset { last with filled := last.filled + i, status := .half }
        exact ⟨_, _, Or.inl rfl, he⟩

end Fly.Buffer
