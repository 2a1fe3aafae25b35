import Verif.Buffer.Spec
import Verif.Buffer.Lemmas
import Verif.Buffer.Wrong

/-! # C05, C06, C55 — the connection buffer -/

namespace Fly.Buffer

theorem init_one (mem : Nat → Bytes) (hm : ∀ n, (mem n).length = n) (cm pl : Nat) (hp : 0 < pl) (hcm : 0 < cm) :
    ∃ b, init mem 1 cm pl = some b ∧ WF b ∧ content b.chunks = [] ∧ b.perLen = pl ∧ b.chainMax = cm := by
  refine ⟨⟨[Chunk.fresh (mem pl)], cm, pl, 0⟩, ?_, ?_, ?_, rfl, rfl⟩
  · simp [init, init.go, addChain]; omega
  · refine ⟨⟨[], Chunk.fresh (mem pl), rfl, by simp⟩, ?_, by simp, by simp; omega, ?_⟩
    · intro c hc
      simp at hc
      subst hc
      exact ⟨hm pl, hp, Nat.le_refl _, Nat.zero_le _⟩
    · simp [content, Chunk.used, Chunk.fresh]
  · simp [content, Chunk.used, Chunk.fresh]

theorem run_wf (mem : Nat → Bytes) (hm : ∀ n, (mem n).length = n) (ops : List Op) (b : Buf) (hp : 0 < b.perLen)
    (h : WF b) (hv : Valid mem b (content b.chunks) ops) :
    ∃ b', run mem b ops = some b' ∧ WF b' ∧ content b'.chunks = specRun (content b.chunks) ops ∧
      b'.perLen = b.perLen ∧ b'.chainMax = b.chainMax := by
  induction ops generalizing b with
  | nil => exact ⟨b, rfl, h, rfl, rfl, rfl⟩
  | cons op ops ih =>
    obtain ⟨ho, hn⟩ := hv
    have key : ∃ b1, step mem b op = some b1 ∧ WF b1 ∧ content b1.chunks = specStep (content b.chunks) op ∧
        b1.perLen = b.perLen ∧ b1.chainMax = b.chainMax := by
      cases op with
      | recv bs =>
        obtain ⟨b1, u, h1, h2, h3, h4, h5, h6⟩ := receive_wf mem hm b hp h bs ho
        refine ⟨b1, ?_, h3, h4, h5, h6⟩
        rcases h2 with ⟨rfl, _⟩ | ⟨rfl, _⟩ <;> simp [step, h1]
      | consume n =>
        obtain ⟨b1, h1, h2, h3, h4, h5⟩ := release_wf b h n ho.1 ho.2
        exact ⟨b1, h1, h2, h3, h4, h5⟩
    obtain ⟨b1, h1, h2, h3, h4, h5⟩ := key
    have hv1 := hn b1 h1
    rw [← h3] at hv1
    obtain ⟨b', e1, e2, e3, e4, e5⟩ := ih b1 (by omega) h2 hv1
    refine ⟨b', ?_, e2, ?_, by omega, by omega⟩
    · simp [run, h1, e1]
    · rw [e3, h3]; rfl

/-- **C05.** Whatever the sizes of the pieces the kernel delivers and whatever is consumed in
between, for any chunk size and any content of freshly allocated memory, the server can read every
slice of the unconsumed bytes, and reads exactly those bytes, in order, across chunk boundaries. -/
theorem C05_buffer_is_byte_queue (mem : Nat → Bytes) (hm : ∀ n, (mem n).length = n) (chainMax perLen : Nat)
    (hp : 0 < perLen) (hc : 0 < chainMax) (ops : List Op) :
    ∃ b0, init mem 1 chainMax perLen = some b0 ∧ (Valid mem b0 [] ops →
      ∃ b, run mem b0 ops = some b ∧
        ∀ i n, i + n ≤ (specRun [] ops).length → i + n < (specRun [] ops).length + room b →
          readAt b i n = some (((specRun [] ops).drop i).take n)) := by
  obtain ⟨b0, h0, hw, hcont, hpl, _⟩ := init_one mem hm chainMax perLen hp hc
  refine ⟨b0, h0, fun hv => ?_⟩
  obtain ⟨b, hr, hbw, hbc, _, _⟩ := run_wf mem hm ops b0 (by omega) hw (by rw [hcont]; exact hv)
  rw [hcont] at hbc
  refine ⟨b, hr, fun i n h1 h2 => ?_⟩
  obtain ⟨p, g, hp1, hp2, hp3, hp4⟩ := firstPtr_wf b hbw
  rw [hbc] at hp3
  have hlen : p.flat.length = (specRun [] ops).length + room b := by rw [hp3]; simp [hp4]
  obtain ⟨q, hq1, hq2, hq3⟩ := advance_spec p hp2 i (by omega)
  simp only [readAt, hp1, Option.bind_some, hq1]
  rw [memcpy_spec n q hq2 (by rw [hq3]; simp; omega), hq3, hp3]
  rw [List.drop_append_of_le_length (by omega), List.take_append_of_le_length (by simp; omega)]

/-- **C06.** In every reachable state the byte count is exact, the number of chunks never passes the
configured maximum, and so the memory held never exceeds `chainMax * perLen` bytes. -/
theorem C06_buffer_count_and_capacity (mem : Nat → Bytes) (hm : ∀ n, (mem n).length = n) (chainMax perLen : Nat)
    (hp : 0 < perLen) (hc : 0 < chainMax) (ops : List Op) :
    ∃ b0, init mem 1 chainMax perLen = some b0 ∧ (Valid mem b0 [] ops →
      ∃ b, run mem b0 ops = some b ∧ b.useLen = (specRun [] ops).length ∧ b.chunks.length ≤ chainMax ∧
        (specRun [] ops).length ≤ chainMax * perLen) := by
  obtain ⟨b0, h0, hw, hcont, hpl, hcm⟩ := init_one mem hm chainMax perLen hp hc
  refine ⟨b0, h0, fun hv => ?_⟩
  obtain ⟨b, hr, hbw, hbc, hbp, hbm⟩ := run_wf mem hm ops b0 (by omega) hw (by rw [hcont]; exact hv)
  rw [hcont] at hbc
  have hle := hbw.le
  have hu := hbw.use
  rw [hbc] at hu
  have hbound : (content b.chunks).length ≤ b.chunks.length * perLen := by
    have hall := hbw.all
    rw [hbp, hpl] at hall
    generalize b.chunks = cs at hall
    clear hle hu hbc
    induction cs with
    | nil => simp
    | cons c cs ih =>
      have h1 := used_length (hall c (by simp))
      have h2 := (hall c (by simp)).filledLe
      have h3 := ih (fun a ha => hall a (by simp [ha]))
      rw [content_cons, List.length_append, List.length_cons, Nat.add_mul, Nat.one_mul]
      omega
  rw [hbc] at hbound
  refine ⟨b, hr, hu, by omega, ?_⟩
  exact Nat.le_trans hbound (Nat.mul_le_mul_right _ (by omega))

/-- **C06 (overflow report).** In every reachable state, receiving reports "limit" only if all
`chainMax` chunks are in use and less than one chunk's worth of them is free; otherwise it reports
success and there is room for at least one more byte, so the server never asks the kernel for zero
bytes. -/
theorem C06_overflow_iff_full (mem : Nat → Bytes) (hm : ∀ n, (mem n).length = n) (chainMax perLen : Nat)
    (hp : 0 < perLen) (hc : 0 < chainMax) (ops : List Op) (bs : Bytes) :
    ∃ b0, init mem 1 chainMax perLen = some b0 ∧ (Valid mem b0 [] ops →
      ∃ b, run mem b0 ops = some b ∧ (bs.length ≤ room b →
        (∃ b', receive mem b bs = some (.success b') ∧ 0 < room b') ∨
        (∃ b', receive mem b bs = some (.limit b') ∧
          (chainMax - 1) * perLen < (specRun [] ops ++ bs).length))) := by
  obtain ⟨b0, h0, hw, hcont, hpl, hcm⟩ := init_one mem hm chainMax perLen hp hc
  refine ⟨b0, h0, fun hv => ?_⟩
  obtain ⟨b, hr, hbw, hbc, hbp, hbm⟩ := run_wf mem hm ops b0 (by omega) hw (by rw [hcont]; exact hv)
  rw [hcont] at hbc
  refine ⟨b, hr, fun hroom => ?_⟩
  obtain ⟨b', u, h1, h2, h3, h4, h5, h6⟩ := receive_wf mem hm b (by omega) hbw bs hroom
  rcases h2 with ⟨rfl, hpos⟩ | ⟨rfl, hz, hl⟩
  · exact Or.inl ⟨b', h1, hpos⟩
  · refine Or.inr ⟨b', h1, ?_⟩
    rw [← hbc, ← h4]
    have hpl' : b'.perLen = perLen := by omega
    have hcm' : b'.chunks.length = chainMax := by omega
    obtain ⟨front, last, e1, e2⟩ := h3.ex
    have hall := h3.all
    have htl := h3.tail0
    have hlw := hall last (by rw [e1]; simp)
    have hlf : last.filled = perLen := by
      have hlast : b'.chunks.getLast? = some last := by rw [e1]; simp
      simp only [room, hlast, Chunk.unuseLen, hlw.len] at hz
      have := hlw.filledLe
      omega
    have hfull : ∀ c ∈ b'.chunks, c.filled = perLen := by
      intro c hx; rw [e1] at hx; simp at hx
      rcases hx with hx | rfl
      · rw [e2 c hx, hpl']
      · exact hlf
    rw [hpl'] at hall
    have hrest : ∀ cs : List Chunk, (∀ c ∈ cs, CWF perLen c ∧ c.filled = perLen ∧ c.useOff = 0) →
        (content cs).length = cs.length * perLen := by
      intro cs
      induction cs with
      | nil => simp
      | cons c cs ih =>
        intro hcs
        obtain ⟨g1, g2, g3⟩ := hcs c (by simp)
        rw [content_cons, List.length_append, ih (fun a ha => hcs a (by simp [ha])), used_length g1, g2, g3,
          List.length_cons, Nat.add_mul]
        omega
    cases hcs : b'.chunks with
    | nil => rw [e1] at hcs; simp at hcs
    | cons c cs =>
      rw [hcs] at hall htl hfull hcm'
      have hcw := hall c (by simp)
      have := hcw.useLt
      have hk := hrest cs (fun a ha => ⟨hall a (by simp [ha]), hfull a (by simp [ha]), htl a (by simpa using ha)⟩)
      simp only [List.length_cons] at hcm'
      rw [content_cons, List.length_append, hk, used_length hcw, hfull c (by simp)]
      have : cs.length = chainMax - 1 := by omega
      rw [this]; omega

/-- **C05/C21 (line splitting).** In every reachable state whose data starts with a line free of CR,
followed by CRLF, the request line handed to the parser is exactly that line, wherever the chunk
boundaries fall (or it is refused with 414 when it is 8000 bytes or longer). -/
theorem C05_request_line_split (mem : Nat → Bytes) (hm : ∀ n, (mem n).length = n) (chainMax perLen : Nat)
    (hp : 0 < perLen) (hc : 0 < chainMax) (ops : List Op) (line rest : Bytes)
    (hq : specRun [] ops = line ++ 13 :: 10 :: rest) (hl : 13 ∉ line) :
    ∃ b0, init mem 1 chainMax perLen = some b0 ∧ (Valid mem b0 [] ops →
      ∃ b, run mem b0 ops = some b ∧ (rest ≠ [] ∨ 0 < room b →
        takeLine b = if line.length + 2 ≥ 8000 then .tooLong else .line (line ++ [13, 10]))) := by
  obtain ⟨b0, h0, hw, hcont, hpl, hcm⟩ := init_one mem hm chainMax perLen hp hc
  refine ⟨b0, h0, fun hv => ?_⟩
  obtain ⟨b, hr, hbw, hbc, hbp, hbm⟩ := run_wf mem hm ops b0 (by omega) hw (by rw [hcont]; exact hv)
  rw [hcont, hq] at hbc
  refine ⟨b, hr, fun hroom => ?_⟩
  obtain ⟨p, g, hp1, hp2, hp3, hp4⟩ := firstPtr_wf b hbw
  rw [hbc] at hp3
  have hrg : rest ++ g ≠ [] := by
    intro he
    simp at he
    rcases hroom with h | h
    · exact h he.1
    · rw [← hp4, he.2] at h; simp at h
  have hrl := List.length_pos_iff.2 hrg
  have hflat : p.flat = line ++ 13 :: 10 :: (rest ++ g) := by rw [hp3]; simp
  have hflen : p.flat.length = line.length + 2 + (rest ++ g).length := by rw [hflat]; simp; omega
  have hfind : findAfter p [13, 10] = some (incN (line.length + 2) p) :=
    strstr_crlf line (rest ++ g) hl hrg p hp2 hflat _ (by omega)
  have hdist := ptrLen_spec p hp2 (line.length + 2) (by omega) (by omega)
  simp only [takeLine, hp1, hfind, hdist, requestLineMax]
  simp only [Int.toNat_natCast]
  split
  · rfl
  · rw [memcpy_spec _ p hp2 (by omega), hflat]
    have e : (line ++ 13 :: 10 :: (rest ++ g)).take (line.length + 2) = line ++ [13, 10] := by
      rw [List.take_append, List.take_of_length_le (by omega), show line.length + 2 - line.length = 2 by omega]; rfl
    simp only [e]

/-- **C05 (distance).** For any two positions in a buffer whose chunks are not empty, in whatever order and chunks they are, the distance that is
computed is the number of bytes between them, negative if the first lies before the second. -/
theorem C05_distance (first : Cursor) (h : NE first) (j k : Nat) (hj : j < first.flat.length) (hk : k < first.flat.length) :
    ptrLen first (incN k first) (incN j first) = (k : Int) - j := ptrLen_distance first h j k hj hk

example : ptrLen ⟨b!"abc", [b!"de", b!"f"]⟩ (incN 1 ⟨b!"abc", [b!"de", b!"f"]⟩) (incN 4 ⟨b!"abc", [b!"de", b!"f"]⟩) = -3 := by decide

/-- Why C05_request_line_split asks for a CR-free line: a stray CR before the CRLF hides the line
end.  In every reachable state whose data is a line, CR, CR, LF and anything without a further CR
(as long as the memory behind the received bytes holds no CR either) no line is found, so the request
is never answered. -/
theorem C05_stray_cr_hides_line_end_refuted (mem : Nat → Bytes) (hm : ∀ n, (mem n).length = n) (chainMax perLen : Nat)
    (hp : 0 < perLen) (hc : 0 < chainMax) (ops : List Op) (line rest : Bytes)
    (hq : specRun [] ops = line ++ 13 :: 13 :: 10 :: rest) (hl : 13 ∉ line) (hr : 13 ∉ rest) :
    ∃ b0, init mem 1 chainMax perLen = some b0 ∧ (Valid mem b0 [] ops →
      ∃ b p g, run mem b0 ops = some b ∧ firstPtr b = some p ∧ p.flat = specRun [] ops ++ g ∧ g.length = room b ∧
        (13 ∉ g → takeLine b = .notReady)) := by
  obtain ⟨b0, h0, hw, hcont, hpl, hcm⟩ := init_one mem hm chainMax perLen hp hc
  refine ⟨b0, h0, fun hv => ?_⟩
  obtain ⟨b, hrun, hbw, hbc, hbp, hbm⟩ := run_wf mem hm ops b0 (by omega) hw (by rw [hcont]; exact hv)
  rw [hcont] at hbc
  obtain ⟨p, g, hp1, hp2, hp3, hp4⟩ := firstPtr_wf b hbw
  rw [hbc] at hp3
  refine ⟨b, p, g, hrun, hp1, hp3, hp4, fun hg => ?_⟩
  have hflat : p.flat = line ++ 13 :: 13 :: 10 :: (rest ++ g) := by rw [hp3, hq]; simp
  have hfind : findAfter p [13, 10] = none :=
    strstr_stray line (rest ++ g) hl (by simp [hr, hg]) p hp2 hflat _
  simp only [takeLine, hp1, hfind]

example : takeLine ⟨[⟨b!"abc\r\r\nxyz", 0, 9, .half⟩], 1, 9, 9⟩ = .notReady := by decide

/-- Unreceived memory is searched as well.  In every reachable state in which no CR has been received
but the memory behind the received bytes still holds an old line end, a request line is "found" that
is made of the received bytes and of that memory: the peer never sent it. -/
theorem C05_search_reads_unreceived_memory_refuted (mem : Nat → Bytes) (hm : ∀ n, (mem n).length = n)
    (chainMax perLen : Nat) (hp : 0 < perLen) (hc : 0 < chainMax) (ops : List Op) (hl : 13 ∉ specRun [] ops) :
    ∃ b0, init mem 1 chainMax perLen = some b0 ∧ (Valid mem b0 [] ops →
      ∃ b p g, run mem b0 ops = some b ∧ firstPtr b = some p ∧ p.flat = specRun [] ops ++ g ∧ g.length = room b ∧
        ∀ old more, g = old ++ 13 :: 10 :: more → 13 ∉ old → more ≠ [] →
          (specRun [] ops).length + old.length + 2 < 8000 →
          takeLine b = .line (specRun [] ops ++ old ++ [13, 10])) := by
  obtain ⟨b0, h0, hw, hcont, hpl, hcm⟩ := init_one mem hm chainMax perLen hp hc
  refine ⟨b0, h0, fun hv => ?_⟩
  obtain ⟨b, hrun, hbw, hbc, hbp, hbm⟩ := run_wf mem hm ops b0 (by omega) hw (by rw [hcont]; exact hv)
  rw [hcont] at hbc
  obtain ⟨p, g, hp1, hp2, hp3, hp4⟩ := firstPtr_wf b hbw
  rw [hbc] at hp3
  refine ⟨b, p, g, hrun, hp1, hp3, hp4, fun old more hg ho hmo hlen => ?_⟩
  have hmol := List.length_pos_iff.2 hmo
  have hflat : p.flat = (specRun [] ops ++ old) ++ 13 :: 10 :: more := by rw [hp3, hg]; simp
  generalize hline : specRun [] ops ++ old = line at hflat
  have hll : line.length = (specRun [] ops).length + old.length := by rw [← hline]; simp
  have hcr : 13 ∉ line := by rw [← hline]; simp [hl, ho]
  have hflen : p.flat.length = line.length + 2 + more.length := by rw [hflat]; simp; omega
  have hfind : findAfter p [13, 10] = some (incN (line.length + 2) p) :=
    strstr_crlf line more hcr hmo p hp2 hflat _ (by omega)
  have hdist := ptrLen_spec p hp2 (line.length + 2) (by omega) (by omega)
  simp only [takeLine, hp1, hfind, hdist, requestLineMax]
  simp only [Int.toNat_natCast]
  rw [if_neg (by omega), memcpy_spec _ p hp2 (by omega), hflat]
  have e : (line ++ 13 :: 10 :: more).take (line.length + 2) = line ++ [13, 10] := by
    rw [List.take_append, List.take_of_length_le (by omega), show line.length + 2 - line.length = 2 by omega]; rfl
  simp only [e]

/-- A recycled chunk that still holds an older request: the peer has sent three bytes. -/
example :
    let mem := fun n => (b!"GET / HTTP/1.1\r\nX").take n
    ((init mem 1 1 17).bind fun b => (step mem b (.recv b!"PUT"))).map takeLine =
      some (.line b!"PUT / HTTP/1.1\r\n") := by decide

/-- Consuming everything in a buffer filled to the brim dereferences NULL (the `okOp` exception), in
every reachable state without room, whatever the sizes and the history. -/
theorem C06_release_all_of_full_buffer_crashes_refuted (mem : Nat → Bytes) (hm : ∀ n, (mem n).length = n)
    (chainMax perLen : Nat) (hp : 0 < perLen) (hc : 0 < chainMax) (ops : List Op) :
    ∃ b0, init mem 1 chainMax perLen = some b0 ∧ (Valid mem b0 [] ops →
      ∃ b, run mem b0 ops = some b ∧ (room b = 0 → step mem b (.consume (specRun [] ops).length) = none)) := by
  obtain ⟨b0, h0, hw, hcont, hpl, hcm⟩ := init_one mem hm chainMax perLen hp hc
  refine ⟨b0, h0, fun hv => ?_⟩
  obtain ⟨b, hrun, hbw, hbc, hbp, hbm⟩ := run_wf mem hm ops b0 (by omega) hw (by rw [hcont]; exact hv)
  rw [hcont] at hbc
  refine ⟨b, hrun, fun hroom => ?_⟩
  rw [← hbc]
  exact release_full b hbw hroom

/-- Such a state is reached by sending as many bytes as the only chunk holds. -/
example :
    let mem := fun n => List.replicate n 0
    ∃ b0 b1, init mem 1 1 4 = some b0 ∧ step mem b0 (.recv b!"abcd") = some b1 ∧ room b1 = 0 ∧ release b1 4 = none := by
  exact ⟨_, _, rfl, rfl, rfl, rfl⟩

/-- With more than one initial chunk the received data is not where readers look: `recv` fills the
last chunk while readers start at the first.  Whatever is received, the first bytes read are those the
allocator left in the first chunk. -/
theorem C05_two_initial_chunks_lose_data_refuted (mem : Nat → Bytes) (hm : ∀ n, (mem n).length = n)
    (k chainMax perLen : Nat) (hk : 2 ≤ k) (hc : k ≤ chainMax) (bs : Bytes) (n : Nat) (hn : n < perLen) :
    ∃ b0 b, init mem k chainMax perLen = some b0 ∧ step mem b0 (.recv bs) = some b ∧
      readAt b 0 n = some ((mem perLen).take n) := by
  obtain ⟨j, rfl⟩ : ∃ j, k = j + 2 := ⟨k - 2, by omega⟩
  have h0 : init mem (j + 2) chainMax perLen =
      some ⟨List.replicate (j + 2) (Chunk.fresh (mem perLen)), chainMax, perLen, 0⟩ := by
    unfold init; rw [init_go _ _ _ (by simp; omega)]; simp
  generalize hf : Chunk.fresh (mem perLen) = fr at h0
  have hlast : (List.replicate (j + 2) fr).getLast? = some fr := by simp [List.getLast?_replicate]
  have hset : ∀ x, ∃ e es, setLast (List.replicate (j + 2) fr) x = fr :: e :: es := by
    intro x
    unfold setLast
    cases j with
    | zero => exact ⟨x, [], rfl⟩
    | succ j => exact ⟨fr, (List.replicate (j + 1) fr).dropLast ++ [x], rfl⟩
  have hstep : ∃ b cs, step mem ⟨List.replicate (j + 2) fr, chainMax, perLen, 0⟩ (.recv bs) = some b ∧
      b.chunks = fr :: cs := by
    obtain ⟨e, es, he⟩ := hset { fr with store := writeAt fr.store fr.filled bs }
    simp only [step, receive, hlast, updateBuffer, he]
    cases hgl : (fr :: e :: es).getLast? with
    | none => simp at hgl
    | some l =>
      simp only
      obtain ⟨b', cs', hu, hb'⟩ := updateLoop_head mem (chainMax - (fr :: e :: es).length)
        ⟨fr :: e :: es, chainMax, perLen, 0⟩ l bs.length fr e es rfl
      refine ⟨b', cs', ?_, hb'⟩
      rcases hu with hu | hu <;> rw [hu]
  obtain ⟨b, cs, hs, hb⟩ := hstep
  refine ⟨_, b, h0, hs, ?_⟩
  have hreg : fr.region = mem perLen := by rw [← hf]; rfl
  have hrl : fr.region.length = perLen := by rw [hreg, hm]
  have hfp : firstPtr b = some ⟨fr.region, cs.map Chunk.region⟩ := by unfold firstPtr; rw [hb]
  have hadv : advance ⟨fr.region, cs.map Chunk.region⟩ 0 = some ⟨fr.region, cs.map Chunk.region⟩ := by
    unfold advance; rw [if_pos (by simp only; omega)]; rfl
  have key : ∀ n (l : Bytes) rs, n < l.length → memcpy n ⟨l, rs⟩ = some (l.take n) := by
    intro n
    induction n with
    | zero => intro l rs _; rfl
    | succ n ih =>
      intro l rs hl
      match l, hl with
      | x :: y :: t, hl =>
        unfold memcpy
        simp only
        rw [ih (y :: t) rs (by simp at hl ⊢; omega)]
        rfl
      | [x], hl => simp at hl
  simp only [readAt, hfp, Option.bind_some, hadv]
  rw [key n fr.region _ (by omega), hreg]

example :
    let mem := fun n => List.replicate n 0
    ((init mem 2 4 4).bind fun b => step mem b (.recv b!"ab")).bind (fun b => readAt b 0 2) = some [0, 0] := by
  decide

/-- The hypotheses of C05/C06 are met by a history that crosses chunks of size 4 and consumes in
between. -/
example :
    let mem := fun n => List.replicate n 7
    ∃ b0, init mem 1 3 4 = some b0 ∧ Valid mem b0 [] [.recv b!"GET ", .recv b!"/", .consume 4, .recv b!"x\r\n"] := by
  refine ⟨_, rfl, ?_, ?_⟩
  · decide
  · intro b1 h1; obtain rfl := Option.some.inj h1
    refine ⟨by decide, ?_⟩
    intro b2 h2; obtain rfl := Option.some.inj h2
    refine ⟨by decide, ?_⟩
    intro b3 h3; obtain rfl := Option.some.inj h3
    exact ⟨by decide, fun _ _ => trivial⟩

/-- **C55 (complete preface).** Once at least the 24 preface bytes have been received (with at least
one more byte of room or data), the HTTP/2 connection preface is accepted exactly if those bytes are
the preface, wherever chunk boundaries fall. -/
theorem C55_preface_accepted_iff_partial (mem : Nat → Bytes) (hm : ∀ n, (mem n).length = n) (chainMax perLen : Nat)
    (hp : 0 < perLen) (hc : 0 < chainMax) (ops : List Op) (h24 : 24 ≤ (specRun [] ops).length) :
    ∃ b0, init mem 1 chainMax perLen = some b0 ∧ (Valid mem b0 [] ops →
      ∃ b, run mem b0 ops = some b ∧ (24 < (specRun [] ops).length + room b →
        initPreface b = if (specRun [] ops).take 24 = b!"PRI * HTTP/2.0\r\n\r\nSM\r\n\r\n" then .ok else .error)) := by
  obtain ⟨b0, h0, hw, hcont, hpl, hcm⟩ := init_one mem hm chainMax perLen hp hc
  refine ⟨b0, h0, fun hv => ?_⟩
  obtain ⟨b, hr, hbw, hbc, hbp, hbm⟩ := run_wf mem hm ops b0 (by omega) hw (by rw [hcont]; exact hv)
  rw [hcont] at hbc
  refine ⟨b, hr, fun hroom => ?_⟩
  have hpl : preface.length = 24 := by decide
  have := memcmpFirst_spec b hbw preface (by decide) (by rw [hbc, hpl]; exact h24) (by rw [hbc, hpl]; exact hroom)
  unfold initPreface
  rw [this, hbc, hpl]
  change _ = if (specRun [] ops).take 24 = preface then Preface.ok else Preface.error
  by_cases he : (specRun [] ops).take 24 = preface
  · rw [if_pos he, if_pos he]
  · rw [if_neg he, if_neg he]

/-- A preface that arrives in pieces is refused instead of awaited: the byte after the received ones
is compared before the "not received yet" test.  In every reachable state whose data is a proper
prefix of the preface, the connection is refused as soon as the first byte of memory behind the
received ones differs from the preface byte still to come. -/
theorem C55_split_preface_refused_refuted (mem : Nat → Bytes) (hm : ∀ n, (mem n).length = n) (chainMax perLen : Nat)
    (hp : 0 < perLen) (hc : 0 < chainMax) (ops : List Op) (d : Nat) (ds : Bytes)
    (hq : specRun [] ops ++ d :: ds = b!"PRI * HTTP/2.0\r\n\r\nSM\r\n\r\n") :
    ∃ b0, init mem 1 chainMax perLen = some b0 ∧ (Valid mem b0 [] ops →
      ∃ b p g, run mem b0 ops = some b ∧ firstPtr b = some p ∧ p.flat = specRun [] ops ++ g ∧ g.length = room b ∧
        ∀ x more, g = x :: more → x ≠ d → initPreface b = .error) := by
  obtain ⟨b0, h0, hw, hcont, hpl, hcm⟩ := init_one mem hm chainMax perLen hp hc
  refine ⟨b0, h0, fun hv => ?_⟩
  obtain ⟨b, hrun, hbw, hbc, hbp, hbm⟩ := run_wf mem hm ops b0 (by omega) hw (by rw [hcont]; exact hv)
  rw [hcont] at hbc
  obtain ⟨p, g, hp1, hp2, hp3, hp4⟩ := firstPtr_wf b hbw
  have hp3' := hp3
  rw [hbc] at hp3
  refine ⟨b, p, g, hrun, hp1, hp3, hp4, fun x more hg hx => ?_⟩
  have hpre : preface = content b.chunks ++ d :: ds := by rw [hbc, hq]; rfl
  have hz : 0 ∉ content b.chunks := by
    intro h
    have : 0 ∈ preface := by rw [hpre]; simp [h]
    exact absurd this (by decide)
  have := memcmpFirst_beyond b hbw p hp1 d x ds more hz (fun h => hx h.symm) (by rw [hp3', hg])
  unfold initPreface
  rw [hpre, this]

example :
    let mem := fun n => List.replicate n 0
    ((init mem 1 2 30).bind fun b => step mem b (.recv b!"PRI * HTTP/2.0\r\n")).map initPreface = some .error := by
  decide

example :
    let mem := fun n => List.replicate n 0
    ((init mem 1 2 30).bind fun b => step mem b (.recv b!"PRI * HTTP/2.0\r\n\r\nSM\r\n\r\n")).map initPreface = some .ok := by
  decide

end Fly.Buffer
