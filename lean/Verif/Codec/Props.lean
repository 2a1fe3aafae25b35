import Verif.Codec.Lemmas
import Verif.Codec.Example

/-! # C120–C123 — encoded responses -/

namespace Fly.Codec
open Fly.Buffer (Buf Chunk)

theorem decbuf_len (mem : Nat → Bytes) (hm : ∀ n, (mem n).length = n) (src : Src) (f : Bytes) (o : Nat) (ok : Nat → Bool)
    (h : src = .file f o ok) : ((decbuf mem src).map firstLen).getD 0 = perLen := by
  subst h
  simp [decbuf, Buffer.init, Buffer.init.go, Buffer.addChain, firstLen, Chunk.fresh, hm]

theorem chainMax_big (max : Nat) : max < chainMax max * perLen := by
  unfold chainMax perLen; omega

/-- **C120.** Whatever the compression library does within its manual, for every body made by a handler and every file, and
whatever fresh memory contains: encoding with gzip ends; and either the `Content-Length` is the length of the content and a decoder
makes of that content exactly the body or file, or the answer is 413 and the library had already written more than the
configured maximum without being at the end, or the answer is 500 and reading the file failed. -/
theorem C120_gzip_complete (z : Zlib) (dec : Bytes → Option Bytes) (hz : ZlibOk z dec) (mem : Nat → Bytes)
    (hm : ∀ n, (mem n).length = n) (max : Nat) (src : Src) :
    ∃ N, ∀ fuel, N ≤ fuel →
      Good dec src.content (respondGzip z mem max src fuel) ∨
      (respondGzip z mem max src fuel = .status 413 ∧
        ∃ s i o left, z.Hist s i o left ∧ i <+: src.content ∧ max < o.length) ∨
      (respondGzip z mem max src fuel = .status 500 ∧ ¬ src.Readable) := by
  obtain ⟨b, hb, ho⟩ := init_open mem hm (chainMax max) perLen (by simp [chainMax])
  refine ⟨meas (chainMax max) perLen src [] [] + 1, fun fuel hf => ?_⟩
  have hI := begin_inv z (chainMax max) perLen (by decide) src (mem perLen) b (decbuf mem src) ho
  have := loop_gzip z dec hz mem hm (chainMax max) perLen (by decide) src fuel _ _ _
    (fun f o ok h => by rw [show (begin z.start src b (decbuf mem src)).dec = decbuf mem src from rfl]; exact decbuf_len mem hm src f o ok h) hI (by omega)
  unfold respondGzip answer gzipEncode
  rw [hb]
  simp only
  rcases this with ⟨b', n, h1, h2, h3, _⟩ | ⟨h1, s, i, o, left, h2, h3, h4⟩ | ⟨h1, h2⟩
  · left
    rw [h1]
    exact ⟨h3, h2⟩
  · right; left
    rw [h1]
    exact ⟨rfl, s, i, o, left, h2, h3, by rw [h4]; exact chainMax_big max⟩
  · right; right
    rw [h1]
    exact ⟨rfl, h2⟩

/-- **C120.** In particular: if the library never writes more than the maximum before the end and the file can be read, the client gets
the complete encoding. -/
theorem C120_gzip_always (z : Zlib) (dec : Bytes → Option Bytes) (hz : ZlibOk z dec) (mem : Nat → Bytes)
    (hm : ∀ n, (mem n).length = n) (max : Nat) (src : Src) (hr : src.Readable)
    (hs : ∀ s i o left, z.Hist s i o left → i <+: src.content → o.length ≤ max) :
    ∃ N, ∀ fuel, N ≤ fuel → Good dec src.content (respondGzip z mem max src fuel) := by
  obtain ⟨N, h⟩ := C120_gzip_complete z dec hz mem hm max src
  refine ⟨N, fun fuel hf => ?_⟩
  rcases h fuel hf with h | ⟨_, s, i, o, left, h1, h2, h3⟩ | ⟨_, h⟩
  · exact h
  · exact absurd (hs s i o left h1 h2) (by omega)
  · exact absurd hr h

/-- The length of the content and the `Content-Length` of an answer. -/
def Answer.lengths : Answer → Option (Nat × Nat)
  | .content c n => some (c.length, n)
  | _ => none

/-- The memory of new chunks in the examples. -/
def zeros (n : Nat) : Bytes := List.replicate n 0

/-- A library that keeps the promises exists, a small response goes through it, ... -/
example : ZlibOk Toy.z Toy.dec ∧ respondGzip Toy.z zeros 10 (.body [7, 8]) 5 = .content [1, 7, 1, 8, 0] 5 ∧
    Good Toy.dec [7, 8] (.content [1, 7, 1, 8, 0] 5) :=
  ⟨Toy.z_ok, by decide +kernel, by decide, by decide⟩

/-- ... and a file, from its offset on; a file that cannot be read gives 500. -/
example : respondGzip Toy.z zeros 10 (.file [9, 7, 8] 1 fun _ => true) 5 = .content [1, 7, 1, 8, 0] 5 ∧
    respondGzip Toy.z zeros 10 (.file [9, 7, 8] 1 fun _ => false) 5 = .status 500 :=
  ⟨by decide +kernel, by decide +kernel⟩

/-- A body of 3000 bytes needs two chunks, one of 5000 does not fit into the 4096 bytes that a maximum of 10 allows. -/
example : (respondGzip Toy.z zeros 4096 (.body (List.replicate 3000 5)) 9).lengths = some (6001, 6001) ∧
    respondGzip Toy.z zeros 10 (.body (List.replicate 5000 5)) 9 = .status 413 :=
  ⟨by decide +kernel, by decide +kernel⟩

/-! ## deflate -/

/-- The first call for a body, which is for its whole encoding. -/
def wholeCall (z : Zlib) (b : Bytes) : ZStatus := (z.deflate z.start true b perLen).status

/-- **C121 (partial).** The body of a handler encoded with deflate is complete if its encoding has at most 4096 bytes (the library
is at the end after the first call); otherwise the process crashes.  Missing: longer encodings, files. -/
theorem C121_deflate_body_partial (z : Zlib) (dec : Bytes → Option Bytes) (hz : ZlibOk z dec) (mem : Nat → Bytes)
    (hm : ∀ n, (mem n).length = n) (max : Nat) (b : Bytes) (fuel : Nat) (hf : 0 < fuel) :
    (wholeCall z b = .streamEnd ∧ Good dec b (respondDeflate z mem max (.body b) fuel)) ∨
    (wholeCall z b = .ok ∧ respondDeflate z mem max (.body b) fuel = .crash) := by
  obtain ⟨enc, he, ho⟩ := init_open mem hm (chainMax max) perLen (by simp [chainMax])
  obtain ⟨fuel, rfl⟩ : ∃ k, fuel = k + 1 := ⟨fuel - 1, by omega⟩
  have hA : z.Allowed z.start [] [] true b := ⟨none, Zlib.Hist.start, by simp⟩
  have hroom : (Enc.room { begin z.start (.body b) enc none with inp := b, finish := true }) = perLen := by
    simp [Enc.room, begin, ho.room]
  unfold respondDeflate answer deflateEncode wholeCall
  rw [he]
  simp only [loop, decbuf]
  unfold deflateIter deflateInput
  simp only [begin, Bool.not_false, List.isEmpty_nil, Bool.and_self, if_true, Enc.refill]
  simp only [begin] at hroom
  rw [hroom]
  have hfit := hz.fits hA perLen
  have hpk := ho.poke (z.deflate z.start true b perLen).out (by simpa using hfit)
  cases hst : (z.deflate z.start true b perLen).status with
  | other => exact absurd hst (hz.known hA _)
  | bufError =>
    rcases hz.bufError hA _ hst with h | ⟨h, _⟩
    · exact absurd h (by decide)
    · cases h
  | streamEnd =>
    left
    refine ⟨rfl, ?_⟩
    have hacc := hpk.account mem hm (by decide)
    simp only [List.nil_append, List.flatten_nil] at hacc
    simp only [Enc.done, Enc.absorb, Nat.zero_add]
    simp only [List.length_nil] at hacc
    refine ⟨by rw [hacc], ?_⟩
    rw [hacc]
    simpa using (hz.ends hA _ hst).2
  | ok =>
    right
    refine ⟨rfl, ?_⟩
    have hlen := hz.finishes hA perLen hst
    have h0 : (Enc.absorb { begin z.start (.body b) enc none with inp := b, finish := true }
        (z.deflate z.start true b perLen).state (z.deflate z.start true b perLen).consumed
        (z.deflate z.start true b perLen).out).room = 0 := by
      have hr := hpk.room
      simp only [Enc.room, Enc.absorb, begin]
      simp only [List.length_nil] at hr
      rw [hr, hlen]; decide
    simp only [begin] at h0
    simp only
    rw [if_pos h0]
    rfl

/-- **C121 (refuted).** Every body whose deflate encoding has more than 4096 bytes ends the process. -/
theorem C121_deflate_body_crash_refuted (z : Zlib) (dec : Bytes → Option Bytes) (hz : ZlibOk z dec) (mem : Nat → Bytes)
    (hm : ∀ n, (mem n).length = n) (max : Nat) (b : Bytes) (fuel : Nat) (hf : 0 < fuel) (h : wholeCall z b ≠ .streamEnd) :
    respondDeflate z mem max (.body b) fuel = .crash := by
  rcases C121_deflate_body_partial z dec hz mem hm max b fuel hf with ⟨h1, _⟩ | ⟨_, h1⟩
  · exact absurd h1 h
  · exact h1

example : wholeCall Toy.z [7, 8] = .streamEnd ∧ wholeCall Toy.z (List.replicate 3000 5) = .ok := by
  constructor <;> decide +kernel

/-- The invariant of the loop of `fly_deflate_encode` over a file: before the first chunk of output is full the end of
the file is not noticed; afterwards `contlen` is ahead of the buffer. -/
def DInv (z : Zlib) (cm pl : Nat) (s : Enc z.State) : Prop :=
  (∃ i o left, z.Hist s.lib i o left ∧ ∀ l, left = some l → s.finish = true ∧ s.inp = l) ∧
  (∃ m p, Open cm pl [] m p s.enc ∧ s.off = p.length ∧ p.length < pl) ∧
  ((s.finish = false ∧ (s.dec.map luseLen).getD 0 = 0) ∨ 0 < s.contlen)

theorem dinput {σ : Type} (f : Bytes) (off : Nat) (ok : Nat → Bool) (s s' : Enc σ) (h : deflateInput (.file f off ok) s = some s') :
    s'.lib = s.lib ∧ s'.enc = s.enc ∧ s'.off = s.off ∧ s'.contlen = s.contlen ∧ s'.dec = s.dec ∧
    (s.finish = true → s'.finish = true ∧ s'.inp = s.inp) ∧
    (s.finish = false → (s.dec.map luseLen).getD 0 = 0 → s'.finish = false) := by
  unfold deflateInput at h
  by_cases hc : (!s.finish && s.inp.isEmpty) = true
  · rw [if_pos hc] at h
    simp only [Bool.and_eq_true, Bool.not_eq_true', List.isEmpty_iff] at hc
    unfold Enc.refill at h
    simp only at h
    by_cases hr : ok s.reads = true
    · rw [if_pos hr] at h
      cases h
      refine ⟨rfl, rfl, rfl, rfl, rfl, by simp [hc.1], ?_⟩
      intro _ h0
      simp [h0]
    · rw [if_neg hr] at h; cases h
  · rw [if_neg hc] at h
    cases h
    exact ⟨rfl, rfl, rfl, rfl, rfl, fun h => ⟨h, rfl⟩, fun h _ => h⟩

theorem diter (z : Zlib) (dec : Bytes → Option Bytes) (hz : ZlibOk z dec) (mem : Nat → Bytes) (hm : ∀ n, (mem n).length = n)
    (cm pl : Nat) (hpl : 0 < pl) (f : Bytes) (off : Nat) (ok : Nat → Bool) (s : Enc z.State) (h : DInv z cm pl s) :
    (∀ b n, deflateIter z mem (.file f off ok) s = .stop (.success b n) → n ≠ (bytes b).length) ∧
    (∀ s', deflateIter z mem (.file f off ok) s = .again s' → DInv z cm pl s') := by
  obtain ⟨⟨i, o, left, hh, hleft⟩, ⟨m, p, ho, hoff, hp⟩, hph⟩ := h
  unfold deflateIter
  cases e1 : deflateInput (.file f off ok) s with
  | none => exact ⟨by (intro b n h; cases h), by (intro s' h; cases h)⟩
  | some s1 =>
    obtain ⟨f1, f2, f3, f4, f5, f6, f7⟩ := dinput f off ok s s1 e1
    have hal : ∀ l, left = some l → s1.finish = true ∧ s1.inp = l := by
      intro l h
      obtain ⟨h1, h2⟩ := hleft l h
      exact ⟨(f6 h1).1, by rw [(f6 h1).2, h2]⟩
    rw [← f1] at hh
    have hA : z.Allowed s1.lib i o s1.finish s1.inp := ⟨left, hh, hal⟩
    rw [← f2] at ho
    rw [← f3] at hoff
    have hroom : s1.room = pl - p.length := by rw [Enc.room, ho.room, hoff]
    generalize hrr : s1.room = rm at hroom
    have hph1 : (s1.finish = false ∧ (s1.dec.map luseLen).getD 0 = 0) ∨ 0 < s1.contlen := by
      rcases hph with ⟨a, b⟩ | a
      · exact Or.inl ⟨f7 a b, by rw [f5]; exact b⟩
      · exact Or.inr (by rw [f4]; exact a)
    have hfit := hz.fits hA rm
    have hpk := ho.poke (z.deflate s1.lib s1.finish s1.inp rm).out (by omega)
    simp only [hrr]
    cases hst : (z.deflate s1.lib s1.finish s1.inp rm).status with
    | other => exact absurd hst (hz.known hA _)
    | bufError => exact ⟨by (intro b n h; cases h), by (intro s' h; cases h)⟩
    | streamEnd =>
      refine ⟨?_, by (intro s' h; cases h)⟩
      intro b n hb
      obtain ⟨hfin, _⟩ := hz.ends hA _ hst
      have hc : 0 < s1.contlen := by
        rcases hph1 with ⟨a, _⟩ | a
        · rw [hfin] at a; cases a
        · exact a
      have hacc := hpk.account mem hm hpl
      simp only [Enc.done, Enc.absorb, hoff] at hb
      rw [List.length_append] at hacc
      cases hb
      rw [hacc]
      simp only [List.flatten_nil, List.nil_append, List.length_append]
      omega
    | ok =>
      have hH := hh.call s1.finish s1.inp rm hal hst
      generalize hz' : z.deflate s1.lib s1.finish s1.inp rm = r at *
      have hnew : ∀ l, (if s1.finish then some (s1.inp.drop r.consumed) else none) = some l →
          s1.finish = true ∧ s1.inp.drop r.consumed = l := by
        intro l h
        cases hfc : s1.finish with
        | false => rw [hfc] at h; cases h
        | true => rw [hfc] at h; exact ⟨rfl, Option.some.inj h⟩
      have henc : (s1.absorb r.state r.consumed r.out).enc = poke s1.enc p.length r.out := by simp only [Enc.absorb, hoff]
      have hroom2 : (s1.absorb r.state r.consumed r.out).room = pl - (p ++ r.out).length := by
        simp only [Enc.room, Enc.absorb, hoff, hpk.room, List.length_append]
      simp only
      by_cases h0 : (s1.absorb r.state r.consumed r.out).room = 0
      · rw [if_pos h0]
        unfold Enc.nextDeflate
        have hd : (s1.absorb r.state r.consumed r.out).dec = s1.dec := rfl
        rw [hd]
        cases hdd : s1.dec with
        | none => exact ⟨by (intro b n h; cases h), by (intro s' h; cases h)⟩
        | some d =>
          refine ⟨by (intro b n h; cases h), ?_⟩
          intro s' hs
          cases hs
          refine ⟨⟨_, _, _, hH, hnew⟩, ⟨p ++ r.out ++ m.drop (p ++ r.out).length, [], ?_, rfl, by simpa using hpl⟩, Or.inr ?_⟩
          · show Open cm pl [] _ [] (s1.absorb r.state r.consumed r.out).enc
            rw [henc]
            obtain ⟨h1, h2, h3, h4, h5, h6, h7, h8⟩ := hpk
            refine ⟨by simpa using h1, h2, h3, h4, ?_, by simp, h7, h8⟩
            simp only [List.length_append, List.length_drop] at h6 ⊢
            omega
          · show 0 < (s1.absorb r.state r.consumed r.out).contlen + actLen (s1.absorb r.state r.consumed r.out).enc
            rw [henc, hpk.actLen]; omega
      · rw [if_neg h0]
        refine ⟨by (intro b n h; cases h), ?_⟩
        intro s' hs
        cases hs
        refine ⟨⟨_, _, _, hH, hnew⟩, ⟨m, p ++ r.out, ?_, ?_, by omega⟩, ?_⟩
        · rw [henc]; exact hpk
        · simp only [Enc.absorb, hoff, List.length_append]
        · exact hph1

/-- **C121 (refuted).** No file at all is sent correctly with deflate, whatever the file, its size and the library: there is no number
of steps after which the response has the right `Content-Length` and content. -/
theorem C121_deflate_files_refuted (z : Zlib) (dec : Bytes → Option Bytes) (hz : ZlibOk z dec) (mem : Nat → Bytes)
    (hm : ∀ n, (mem n).length = n) (max : Nat) (f : Bytes) (off : Nat) (ok : Nat → Bool) (fuel : Nat) :
    ¬ Good dec (f.drop off) (respondDeflate z mem max (.file f off ok) fuel) := by
  obtain ⟨enc, he, ho⟩ := init_open mem hm (chainMax max) perLen (by simp [chainMax])
  have key : ∀ fuel (s : Enc z.State), DInv z (chainMax max) perLen s → ∀ b n,
      loop (deflateIter z mem (.file f off ok)) fuel s = .success b n → n ≠ (bytes b).length := by
    intro fuel
    induction fuel with
    | zero => intro s _ b n h; cases h
    | succ fuel ih =>
      intro s hI b n h
      obtain ⟨h1, h2⟩ := diter z dec hz mem hm _ _ (by decide) f off ok s hI
      rw [loop] at h
      cases e : deflateIter z mem (.file f off ok) s with
      | stop r => rw [e] at h; simp only at h; subst h; exact h1 b n e
      | again s' => rw [e] at h; exact ih s' (h2 s' e) b n h
  unfold respondDeflate answer deflateEncode
  rw [he]
  simp only
  intro hg
  cases hr : loop (deflateIter z mem (.file f off ok)) fuel (begin z.start (.file f off ok) enc (decbuf mem (.file f off ok))) with
  | success b n =>
    rw [hr] at hg
    refine key fuel _ ⟨⟨[], [], none, Zlib.Hist.start, by simp⟩, ⟨mem perLen, [], ho, rfl, by decide⟩, Or.inl ⟨rfl, ?_⟩⟩ b n hr hg.1
    simp [begin, decbuf, Buffer.init, Buffer.init.go, Buffer.addChain, luseLen, Chunk.fresh]
  | bufferError => rw [hr] at hg; exact hg
  | error => rw [hr] at hg; exact hg
  | crash => rw [hr] at hg; exact hg
  | running => rw [hr] at hg; exact hg

/-- A file of two bytes: 413.  A file of 3000 bytes: the `Content-Length` of a complete answer, but only the end of the encoding. -/
example : respondDeflate Toy.z zeros 8192 (.file [7, 8] 0 fun _ => true) 9 = .status 413 ∧
    (respondDeflate Toy.z zeros 8192 (.file (List.replicate 3000 5) 0 fun _ => true) 9).lengths = some (1905, 6001) :=
  ⟨by decide +kernel, by decide +kernel⟩

/-- **C121 (refuted).** A file that can be read and whose encoding stays below 4096 bytes is answered 413 (too large). -/
theorem C121_deflate_small_file_413_refuted (z : Zlib) (dec : Bytes → Option Bytes) (hz : ZlibOk z dec) (mem : Nat → Bytes)
    (hm : ∀ n, (mem n).length = n) (max : Nat) (f : Bytes)
    (hs : ∀ s i o, z.Hist s i o none → i <+: f → o.length < perLen) :
    ∃ N, ∀ fuel, N ≤ fuel → respondDeflate z mem max (.file f 0 fun _ => true) fuel = .status 413 := by
  obtain ⟨enc, he, ho⟩ := init_open mem hm (chainMax max) perLen (by simp [chainMax])
  have hpos : 0 < perLen := by decide
  have key : ∀ fuel (s : Enc z.State) (i : Bytes) (k : Nat),
      (k = 0 → ∀ room, (z.deflate s.lib false [] room).status = .bufError) →
      (∃ m p, Open (chainMax max) perLen [] m p s.enc ∧ s.off = p.length ∧ z.Hist s.lib i p none) →
      s.inp = [] → s.finish = false → (s.dec.map luseLen).getD 0 = 0 → (s.dec.map firstLen).getD 0 = perLen →
      i ++ f.drop s.pos = f → (f.length - s.pos) + k < fuel →
      loop (deflateIter z mem (.file f 0 fun _ => true)) fuel s = .bufferError := by
    intro fuel
    induction fuel with
    | zero => intro s i k _ _ _ _ _ _ _ h; omega
    | succ fuel ih =>
      intro s i k hk hex hinp hfin hlu hfl hsplit hfuel
      obtain ⟨m, p, hop, hoff, hh⟩ := hex
      rw [loop]
      have hsm := hs s.lib i p hh ⟨f.drop s.pos, hsplit⟩
      generalize hd : (f.drop s.pos).take perLen = d
      have hin : ∃ s1, deflateInput (.file f 0 fun _ => true) s = some s1 ∧ s1.lib = s.lib ∧ s1.enc = s.enc ∧ s1.off = s.off ∧
          s1.dec = s.dec ∧ s1.inp = d ∧ s1.finish = false ∧ s1.pos = s.pos + d.length := by
        unfold deflateInput
        rw [if_pos (by simp [hinp, hfin])]
        simp only [Enc.refill, if_true, hfl, hlu, hd, Nat.not_lt_zero, decide_false]
        exact ⟨_, rfl, rfl, rfl, rfl, rfl, rfl, rfl, rfl⟩
      obtain ⟨s1, e1, g1, g2, g3, g4, g5, g6, g7⟩ := hin
      have hroom : s1.room = perLen - p.length := by rw [Enc.room, g2, g3, hop.room, hoff]
      unfold deflateIter
      rw [e1]
      simp only [hroom, g1, g5, g6]
      have hA : z.Allowed s.lib i p false d := ⟨none, hh, by simp⟩
      have hfit := hz.fits hA (perLen - p.length)
      have hpk := hop.poke (z.deflate s.lib false d (perLen - p.length)).out (by omega)
      have hrest : d ++ f.drop (s.pos + d.length) = f.drop s.pos := by
        rw [← List.drop_drop, ← hd, List.length_take]
        by_cases hle : perLen ≤ (f.drop s.pos).length
        · rw [Nat.min_eq_left hle, List.take_append_drop]
        · rw [Nat.min_eq_right (by omega), List.take_of_length_le (by omega), List.drop_of_length_le (Nat.le_refl _), List.append_nil]
      cases hst : (z.deflate s.lib false d (perLen - p.length)).status with
      | other => exact absurd hst (hz.known hA _)
      | bufError => rfl
      | streamEnd => exact absurd (hz.ends hA _ hst).1 (by decide)
      | ok =>
        simp only
        have hH := hh.call false d (perLen - p.length) (by simp) hst
        simp only [Bool.false_eq_true, if_false] at hH
        have hpre : i ++ d.take (z.deflate s.lib false d (perLen - p.length)).consumed <+: f := by
          refine List.IsPrefix.trans (l₂ := i ++ d) ?_ ⟨f.drop (s.pos + d.length), ?_⟩
          · exact (List.prefix_append_right_inj i).mpr (List.take_prefix _ _)
          · rw [List.append_assoc, hrest, hsplit]
        have hsm2 := hs _ _ _ hH hpre
        have hltr : (z.deflate s.lib false d (perLen - p.length)).out.length < perLen - p.length := by
          rw [List.length_append] at hsm2; omega
        have hidle := hz.idle hA _ hst hltr
        have hall : d.length ≤ (z.deflate s.lib false d (perLen - p.length)).consumed := by
          rcases hz.proceeds hA _ hst with h | h
          · exact h
          · omega
        rw [List.take_of_length_le hall] at hH
        have hdl : d.length ≤ f.length - s.pos := by rw [← hd]; simp; omega
        have hk1 : d = [] → 0 < k := by
          intro hdn
          rcases Nat.eq_zero_or_pos k with h | h
          · exfalso
            have := hk h (perLen - p.length)
            rw [hdn] at hst
            rw [hst] at this; cases this
          · exact h
        generalize z.deflate s.lib false d (perLen - p.length) = r at *
        have hne : ¬ (s1.absorb r.state r.consumed r.out).room = 0 := by
          simp only [Enc.room, Enc.absorb, g2, g3, hoff, hpk.room]
          omega
        rw [if_neg hne]
        refine ih _ (i ++ d) 0 (fun _ => hidle) ⟨m, p ++ r.out, ?_, ?_, hH⟩ ?_ g6 ?_ ?_ ?_ ?_
        · simp only [Enc.absorb, g2, g3, hoff]; exact hpk
        · simp only [Enc.absorb, g3, hoff, List.length_append]
        · simp only [Enc.absorb, g5]; exact List.drop_of_length_le hall
        · simp only [Enc.absorb, g4]; exact hlu
        · simp only [Enc.absorb, g4]; exact hfl
        · simp only [Enc.absorb, g7]
          rw [List.append_assoc, hrest, hsplit]
        · simp only [Enc.absorb, g7]
          by_cases hdn : d = []
          · have := hk1 hdn; omega
          · have : 0 < d.length := List.length_pos_iff.mpr hdn
            omega
  refine ⟨f.length + 2, fun fuel hf => ?_⟩
  unfold respondDeflate answer deflateEncode
  rw [he]
  simp only
  rw [key fuel (begin z.start (.file f 0 fun _ => true) enc (decbuf mem (.file f 0 fun _ => true))) [] 1 (by intro h; cases h)
    ⟨mem perLen, [], ho, rfl, Zlib.Hist.start⟩ rfl rfl
    (by simp [begin, decbuf, Buffer.init, Buffer.init.go, Buffer.addChain, luseLen, Chunk.fresh])
    (decbuf_len mem hm _ f 0 (fun _ => true) rfl) (by simp [begin]) (by simp [begin]; omega)]

/-- The hypothesis holds for the toy library and a file of 100 bytes. -/
example : ∀ s i o, Toy.z.Hist s i o none → i <+: List.replicate 100 5 → o.length < perLen := by
  intro s i o h hp
  have h1 := ((Toy.z_inv h).1 rfl).2
  have h2 := congrArg List.length h1
  have h3 := hp.length_le
  have h4 : ∀ i, (Toy.esc i).length = 2 * i.length := by
    intro i
    induction i with
    | nil => rfl
    | cons a i ih => simp only [Toy.esc, List.flatMap_cons, List.length_append, List.length_cons, List.length_nil] at ih ⊢; omega
  rw [List.length_append, h4] at h2
  simp at h3
  unfold perLen
  omega

/-! ## brotli -/

/-- A chunk that was filled is accounted for, and nothing more. -/
theorem twice (mem : Nat → Bytes) (hm : ∀ n, (mem n).length = n) (cm : Nat) (m w : Bytes) (b : Buf)
    (h : Open cm perLen [] m w b) (hw : w.length = perLen) : bytes (account mem (account mem b perLen) 0) = w := by
  rcases h.account_full mem hm (by decide) hw with ha | ha
  · have := ha.account mem hm (by decide)
    simp only [List.length_nil] at this
    rw [this]; simp
  · obtain ⟨c1, c2, c3, c4, c5, c6⟩ := ha
    generalize account mem b perLen = B at *
    simp only [List.nil_append, List.map_cons, List.map_nil] at c1
    have e : account mem B 0 = { B with useLen := B.useLen + 0 } := by
      unfold account Buffer.updateBuffer
      rw [c1]
      simp only [List.getLast?_singleton, List.length_singleton]
      rw [c2, ← c5]
      simp only [List.nil_append, List.length_singleton, Nat.sub_self]
      rw [Buffer.updateLoop]
      simp only [Chunk.unuseLen, fullChunk, Nat.sub_self, ge_iff_le, Nat.le_refl, if_true, c1]
      simp [Buffer.setLast, c1, fullChunk, c2, c3, ← c5]
    rw [e]
    simp [bytes, c1, fullChunk]

/-- Is the library finished after the only call for the end. -/
def brWhole (b : Brotli) (body : Bytes) : Bool := b.finished (b.compress b.start true body perLen).state

/-- **C122 (partial).** The body of a handler encoded with brotli is complete if its encoding has at most 4096 bytes; otherwise it is cut
after 4096 bytes, with a `Content-Length` of 4096, and no decoder can use it.  Missing: longer encodings, files. -/
theorem C122_br_body_partial (b : Brotli) (dec : Bytes → Option Bytes) (hb : BrotliOk b dec) (mem : Nat → Bytes)
    (hm : ∀ n, (mem n).length = n) (max : Nat) (body : Bytes) (fuel : Nat) (hf : 0 < fuel) :
    (brWhole b body = true ∧ Good dec body (respondBr b mem max (.body body) fuel)) ∨
    (brWhole b body = false ∧ ∃ c, respondBr b mem max (.body body) fuel = .content c 4096 ∧ c.length = 4096 ∧ dec c = none) := by
  obtain ⟨enc, he, ho⟩ := init_open mem hm (chainMax max) perLen (by simp [chainMax])
  obtain ⟨fuel, rfl⟩ : ∃ k, fuel = k + 1 := ⟨fuel - 1, by omega⟩
  have hroom : Buffer.room enc - 0 = perLen := by rw [ho.room]; rfl
  unfold respondBr answer brEncode brWhole
  rw [he]
  simp only [loop, decbuf]
  unfold brIter brInput
  simp only [begin, List.isEmpty_nil, if_true, Enc.refill, Enc.room, hroom, hb.works Brotli.Hist.start, Bool.not_true, Bool.false_eq_true, if_false]
  have hfit := hb.fits Brotli.Hist.start true body perLen
  have hpk := ho.poke (b.compress b.start true body perLen).out (by simpa using hfit)
  have hacc := hpk.account mem hm (by decide)
  simp only [List.nil_append, List.flatten_nil, List.length_nil] at hacc
  rcases hb.ends Brotli.Hist.start body perLen with ⟨h1, h2⟩ | ⟨h1, h2, h3⟩
  · left
    simp only [h1, if_true]
    refine ⟨trivial, ?_⟩
    simp only [Enc.done, Enc.absorb, Nat.zero_add]
    refine ⟨by rw [hacc], ?_⟩
    rw [hacc]; simpa using h2
  · right
    simp only [h1, Bool.false_eq_true, if_false]
    refine ⟨trivial, (b.compress b.start true body perLen).out, ?_, h2, by simpa using h3⟩
    have hr2 := hpk.room
    simp only [List.length_nil] at hr2
    have hact := hpk.actLen
    simp only [List.length_nil] at hact
    have h0 : Buffer.room (poke enc 0 (b.compress b.start true body perLen).out) - (b.compress b.start true body perLen).out.length = 0 := by
      rw [hr2, h2]; decide
    simp only [List.nil_append, List.length_nil] at hpk
    have hfull : (b.compress b.start true body perLen).out.length = perLen := h2
    simp only [Enc.absorb, Nat.zero_add, Enc.next, hact, Enc.done]
    generalize (b.compress b.start true body perLen).out = w at *
    rw [if_pos h0]
    simp only [if_true, Nat.add_zero]
    have hb2 := twice mem hm _ _ w _ hpk hfull
    rw [hb2]; rfl

/-- **C122 (refuted).** Every body whose brotli encoding has more than 4096 bytes is sent cut off, as a complete response. -/
theorem C122_br_body_cut_refuted (b : Brotli) (dec : Bytes → Option Bytes) (hb : BrotliOk b dec) (mem : Nat → Bytes)
    (hm : ∀ n, (mem n).length = n) (max : Nat) (body : Bytes) (fuel : Nat) (hf : 0 < fuel) (h : brWhole b body = false) :
    ∃ c, respondBr b mem max (.body body) fuel = .content c c.length ∧ dec c = none := by
  rcases C122_br_body_partial b dec hb mem hm max body fuel hf with ⟨h1, _⟩ | ⟨_, c, h1, h2, h3⟩
  · rw [h] at h1; cases h1
  · exact ⟨c, by rw [h1, h2], h3⟩

example : BrotliOk Toy.br Toy.dec ∧ brWhole Toy.br [7, 8] = true ∧ brWhole Toy.br (List.replicate 3000 5) = false ∧
    respondBr Toy.br zeros 10 (.body [7, 8]) 5 = .content [1, 7, 1, 8, 0] 5 :=
  ⟨Toy.br_ok, by decide +kernel, by decide +kernel, by decide +kernel⟩

/-- **C122 (refuted).** So is a file that does not fit: if the library writes nothing before it is asked for the end (as brotli does with
files that fit into its window) and then writes more than 4096 bytes, the client gets the first 4096 of them as a complete
response. -/
theorem C122_br_file_cut_refuted (b : Brotli) (dec : Bytes → Option Bytes) (hb : BrotliOk b dec) (mem : Nat → Bytes)
    (hm : ∀ n, (mem n).length = n) (max : Nat) (f : Bytes)
    (hq : ∀ s i o inp room, b.Hist s i o → (b.compress s false inp room).out = [] ∧ inp.length ≤ (b.compress s false inp room).consumed)
    (hlong : ∀ s i inp, b.Hist s i [] → i ++ inp = f → b.finished (b.compress s true inp perLen).state = false) :
    ∃ N, ∀ fuel, N ≤ fuel → ∃ c, respondBr b mem max (.file f 0 fun _ => true) fuel = .content c 4096 ∧ c.length = 4096 ∧
      dec c = none := by
  obtain ⟨enc, he, ho⟩ := init_open mem hm (chainMax max) perLen (by simp [chainMax])
  have hpos : 0 < perLen := by decide
  have key : ∀ fuel (s : Enc b.State) (i : Bytes), b.Hist s.lib i [] → s.enc = enc → s.off = 0 → s.contlen = 0 → s.inp = [] →
      s.finish = false → (s.dec.map firstLen).getD 0 = perLen → i ++ f.drop s.pos = f → f.length - s.pos < fuel →
      ∃ B, loop (brIter b mem (.file f 0 fun _ => true)) fuel s = .success B 4096 ∧ (bytes B).length = 4096 ∧ dec (bytes B) = none := by
    intro fuel
    induction fuel with
    | zero => intro s i _ _ _ _ _ _ _ _ h; omega
    | succ fuel ih =>
      intro s i hh henc hoff hcl hinp hfin hfl hsplit hfuel
      generalize hd : (f.drop s.pos).take perLen = d
      have hin : ∃ s1, brInput (.file f 0 fun _ => true) s = some s1 ∧ s1.lib = s.lib ∧ s1.enc = s.enc ∧ s1.off = s.off ∧
          s1.dec = s.dec ∧ s1.inp = d ∧ s1.finish = decide (d.length < perLen) ∧ s1.pos = s.pos + d.length ∧ s1.contlen = s.contlen := by
        unfold brInput
        rw [if_pos (by simp [hinp])]
        simp only [Enc.refill, if_true, hfl, hd]
        exact ⟨_, rfl, rfl, rfl, rfl, rfl, rfl, rfl, rfl, rfl⟩
      obtain ⟨s1, e1, g1, g2, g3, g4, g5, g6, g7, g8⟩ := hin
      have hroom : s1.room = perLen := by rw [Enc.room, g2, g3, henc, ho.room, hoff]; rfl
      have hrest : d ++ f.drop (s.pos + d.length) = f.drop s.pos := by
        rw [← List.drop_drop, ← hd, List.length_take]
        by_cases hle : perLen ≤ (f.drop s.pos).length
        · rw [Nat.min_eq_left hle, List.take_append_drop]
        · rw [Nat.min_eq_right (by omega), List.take_of_length_le (by omega), List.drop_of_length_le (Nat.le_refl _), List.append_nil]
      rw [loop]
      unfold brIter
      rw [e1]
      simp only [hroom, g1, g5, hb.works hh, Bool.not_true, Bool.false_eq_true, if_false]
      by_cases hlt : d.length < perLen
      · have hfin1 : s1.finish = true := by rw [g6]; exact decide_eq_true hlt
        have hlast : i ++ d = f := by
          have : f.drop s.pos = d := by
            rw [← hd, List.length_take] at hlt
            rw [← hd, List.take_of_length_le (by omega)]
          rw [← this]; exact hsplit
        rw [hfin1]
        rcases hb.ends hh d perLen with ⟨h1, _⟩ | ⟨h1, h2, h3⟩
        · rw [hlong s.lib i d hh hlast] at h1; cases h1
        · rw [if_neg (by rw [h1]; decide)]
          generalize b.compress s.lib true d perLen = r at *
          have hpk := ho.poke r.out (by simpa using Nat.le_of_eq h2)
          simp only [List.nil_append, List.length_nil] at hpk
          have h0 : (s1.absorb r.state r.consumed r.out).room = 0 := by
            simp only [Enc.room, Enc.absorb, g2, g3, henc, hoff, hpk.room, Nat.zero_add]; omega
          have hact : actLen (s1.absorb r.state r.consumed r.out).enc = perLen := by
            simp only [Enc.absorb, g2, g3, henc, hoff]; exact hpk.actLen
          rw [if_pos h0]
          have hf2 : ((s1.absorb r.state r.consumed r.out).next mem).finish = true := hfin1
          rw [if_pos hf2]
          simp only [Enc.done, Enc.next]
          rw [hact]
          have hen : (s1.absorb r.state r.consumed r.out).enc = poke enc 0 r.out := by simp only [Enc.absorb, g2, g3, henc, hoff]
          have hco : (s1.absorb r.state r.consumed r.out).contlen = 0 := by simp only [Enc.absorb, g8, hcl]
          have hb2 := twice mem hm _ _ r.out _ hpk h2
          refine ⟨account mem (account mem (poke enc 0 r.out) perLen) 0, ?_, ?_, ?_⟩
          · rw [hen, hco]; rfl
          · rw [hb2]; exact h2
          · rw [hb2]; simpa using h3
      · have hfin1 : s1.finish = false := by rw [g6]; exact decide_eq_false hlt
        rw [hfin1, if_neg (by rw [hb.asked hh]; decide)]
        obtain ⟨hq1, hq2⟩ := hq s.lib i [] d perLen hh
        have hH := hh.call d perLen
        generalize b.compress s.lib false d perLen = r at *
        have hpe : poke enc 0 [] = enc := by
          unfold poke
          cases hl : enc.chunks.getLast? with
          | none => rfl
          | some c =>
            simp only
            obtain ⟨c1, c2⟩ := ho
            rw [c1] at hl
            simp at hl
            subst hl
            have : Buffer.setLast enc.chunks ⟨Buffer.writeAt (mem perLen) (0 + 0) [], 0, 0, .empty⟩ = enc.chunks := by
              rw [c1]; simp [Buffer.setLast, Buffer.writeAt]
            simp only [this]
        have h0 : ¬ (s1.absorb r.state r.consumed r.out).room = 0 := by
          simp only [Enc.room, Enc.absorb, g2, g3, henc, hoff, hq1, hpe, ho.room, List.length_nil]; decide
        rw [if_neg h0]
        have hf2 : (s1.absorb r.state r.consumed r.out).finish = false := hfin1
        rw [if_neg (by rw [hf2]; decide)]
        rw [hq1, List.append_nil, List.take_of_length_le hq2] at hH
        have hdl : d.length ≤ f.length - s.pos := by rw [← hd]; simp; omega
        refine ih _ (i ++ d) hH ?_ ?_ ?_ ?_ hfin1 ?_ ?_ ?_
        · simp only [Enc.absorb, g2, g3, henc, hoff, hq1, hpe]
        · simp only [Enc.absorb, g3, hoff, hq1, List.length_nil]
        · simp only [Enc.absorb, g8, hcl]
        · simp only [Enc.absorb, g5]; exact List.drop_of_length_le hq2
        · simp only [Enc.absorb, g4]; exact hfl
        · simp only [Enc.absorb, g7]; rw [List.append_assoc, hrest, hsplit]
        · simp only [Enc.absorb, g7]; omega
  refine ⟨f.length + 1, fun fuel hf => ?_⟩
  obtain ⟨B, h1, h2, h3⟩ := key fuel (begin b.start (.file f 0 fun _ => true) enc (decbuf mem (.file f 0 fun _ => true))) []
    Brotli.Hist.start rfl rfl rfl rfl rfl (decbuf_len mem hm _ f 0 (fun _ => true) rfl) (by simp [begin]) (by simp [begin]; omega)
  refine ⟨bytes B, ?_, h2, h3⟩
  unfold respondBr answer brEncode
  rw [he]
  simp only
  rw [h1]

/-- The toy library is one of those: it writes nothing before it is asked for the end. -/
example : (∀ s i o inp room, Toy.br.Hist s i o → (Toy.br.compress s false inp room).out = [] ∧
      inp.length ≤ (Toy.br.compress s false inp room).consumed) ∧
    (∀ s i inp, Toy.br.Hist s i [] → i ++ inp = List.replicate 5000 5 → Toy.br.finished (Toy.br.compress s true inp perLen).state = false) := by
  refine ⟨fun s i o inp room _ => ⟨rfl, Nat.le_refl _⟩, ?_⟩
  intro s i inp h he
  have h1 := (Toy.br_inv h).2
  have h4 : ∀ i, (Toy.esc i).length = 2 * i.length := by
    intro i
    induction i with
    | nil => rfl
    | cons a i ih => simp only [Toy.esc, List.flatMap_cons, List.length_append, List.length_cons, List.length_nil] at ih ⊢; omega
  show decide ((s.1 ++ Toy.esc inp ++ [0]).length ≤ perLen) = false
  apply decide_eq_false
  have h5 := congrArg List.length he
  simp only [List.length_append, List.length_replicate] at h5
  rw [h1, List.length_append, List.length_append, h4, h4]
  unfold perLen
  simp only [List.length_singleton]
  omega

/-! ## Files encoded in advance -/

/-- **C123.** A file encoded in advance with gzip: the scan of the worker fails only if the file cannot be read; the stored encoding is the
encoding of the whole file and its length is right; the file is answered 413 only if it, or what the library had written
before the end, is longer than the maximum. -/
theorem C123_preencode_gzip (z : Zlib) (dec : Bytes → Option Bytes) (hz : ZlibOk z dec) (mem : Nat → Bytes)
    (hm : ∀ n, (mem n).length = n) (max : Nat) (f : Bytes) (ok : Nat → Bool) :
    ∃ N, ∀ fuel, N ≤ fuel →
      match preencode (fun enc => gzipEncode z mem (.file f 0 ok) enc (decbuf mem (.file f 0 ok)) fuel) mem max f.length with
      | none => ∃ k, ok k = false
      | some none => max < f.length ∨ ∃ s i o left, z.Hist s i o left ∧ i <+: f ∧ max < o.length
      | some (some (c, n)) => n = c.length ∧ dec c = some f ∧ f.length ≤ max := by
  obtain ⟨N, h⟩ := C120_gzip_complete z dec hz mem hm max (.file f 0 ok)
  refine ⟨N, fun fuel hf => ?_⟩
  have := h fuel hf
  unfold preencode
  by_cases hb : max < f.length
  · rw [if_pos hb]
    exact Or.inl hb
  · rw [if_neg hb]
    unfold respondGzip at this
    rcases this with hg | ⟨h1, h2⟩ | ⟨h1, h2⟩
    · cases ha : answer (fun enc => gzipEncode z mem (.file f 0 ok) enc (decbuf mem (.file f 0 ok)) fuel) mem max with
      | content c n =>
        rw [ha] at hg
        exact ⟨hg.1, hg.2, by omega⟩
      | status n => rw [ha] at hg; exact absurd hg (by simp [Good])
      | crash => rw [ha] at hg; exact absurd hg (by simp [Good])
      | running => rw [ha] at hg; exact absurd hg (by simp [Good])
    · rw [h1]
      obtain ⟨s, i, o, left, h3, h4, h5⟩ := h2
      exact Or.inr ⟨s, i, o, left, h3, h4, h5⟩
    · rw [h1]
      simp only
      refine Classical.byContradiction fun hn => h2 fun k => ?_
      cases hk : ok k with
      | true => rfl
      | false => exact absurd ⟨k, hk⟩ hn

example : preencode (fun enc => gzipEncode Toy.z zeros (.file [7, 8] 0 fun _ => true) enc (decbuf zeros (.file [7, 8] 0 fun _ => true)) 9)
      zeros 100 2 = some (some ([1, 7, 1, 8, 0], 5)) ∧
    preencode (fun enc => gzipEncode Toy.z zeros (.file [7, 8] 0 fun _ => true) enc (decbuf zeros (.file [7, 8] 0 fun _ => true)) 9)
      zeros 1 2 = some none :=
  ⟨by decide +kernel, by decide +kernel⟩

end Fly.Codec
