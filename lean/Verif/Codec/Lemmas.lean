import Verif.Codec.Spec
import Verif.Buffer.Lemmas

set_option linter.all false

namespace Fly.Codec
open Fly.Buffer (Buf Chunk)

theorem writeAt_zero (m : Bytes) (bs : Bytes) : Buffer.writeAt m 0 bs = bs ++ m.drop bs.length := by
  simp [Buffer.writeAt]

theorem writeAt_more (m p w : Bytes) (h : p.length + w.length ≤ m.length) :
    Buffer.writeAt (p ++ m.drop p.length) p.length w = (p ++ w) ++ m.drop (p ++ w).length := by
  unfold Buffer.writeAt
  rw [List.take_append_of_le_length (Nat.le_refl _), List.take_length, List.drop_append, List.drop_of_length_le (by omega)]
  simp [List.drop_drop]

/-- A chunk that is used up. -/
def fullChunk (st : Bytes) : Chunk := ⟨st, 0, st.length, .full⟩

/-- The encoder's buffer: `ss` in full chunks, then a chunk nothing is accounted in, whose memory begins with `p`. -/
def Open (cm pl : Nat) (ss : List Bytes) (m p : Bytes) (b : Buf) : Prop :=
  b.chunks = ss.map fullChunk ++ [⟨p ++ m.drop p.length, 0, 0, .empty⟩] ∧ b.chainMax = cm ∧ b.perLen = pl ∧
    b.useLen = ss.length * pl ∧ m.length = pl ∧ p.length ≤ pl ∧ (∀ st ∈ ss, st.length = pl) ∧ ss.length + 1 ≤ cm

/-- All chunks used up. -/
def Closed (cm pl : Nat) (ss : List Bytes) (b : Buf) : Prop :=
  b.chunks = ss.map fullChunk ∧ b.chainMax = cm ∧ b.perLen = pl ∧ (∀ st ∈ ss, st.length = pl) ∧ ss.length = cm ∧ ss ≠ []

theorem flatten_length (pl : Nat) : ∀ (ss : List Bytes), (∀ st ∈ ss, st.length = pl) → ss.flatten.length = ss.length * pl
  | [], _ => by simp
  | x :: xs, h => by
    rw [List.flatten_cons, List.length_append, flatten_length pl xs (fun y hy => h y (by simp [hy])), h x (by simp),
      List.length_cons, Nat.succ_mul]; omega

theorem bytes_full (ss : List Bytes) : ((ss.map fullChunk).map fun c => (c.store.take c.filled).drop c.useOff).flatten = ss.flatten := by
  induction ss with
  | nil => rfl
  | cons x xs ih => simp only [List.map_cons, List.flatten_cons, ih]; simp [fullChunk]

theorem Open.room {cm pl ss m p b} (h : Open cm pl ss m p b) : Buffer.room b = pl := by
  obtain ⟨h1, _, _, _, h5, h6, _⟩ := h
  rw [Buffer.room, h1]
  simp [Chunk.unuseLen]; omega

theorem Open.actLen {cm pl ss m p b} (h : Open cm pl ss m p b) : actLen b = pl := by
  obtain ⟨h1, _, _, _, h5, h6, _⟩ := h
  rw [Codec.actLen, h1]
  simp; omega

theorem Closed.room {cm pl ss b} (h : Closed cm pl ss b) : Buffer.room b = 0 := by
  obtain ⟨h1, _, _, h4, h5, h6⟩ := h
  rw [Buffer.room, h1]
  obtain ⟨xs, x, rfl⟩ : ∃ xs x, ss = xs ++ [x] := ⟨ss.dropLast, ss.getLast h6, (List.dropLast_concat_getLast h6).symm⟩
  simp [Chunk.unuseLen, fullChunk]

theorem Open.poke {cm pl ss m p b} (h : Open cm pl ss m p b) (w : Bytes) (hw : p.length + w.length ≤ pl) :
    Open cm pl ss m (p ++ w) (poke b p.length w) := by
  obtain ⟨h1, h2, h3, h4, h5, h6, h7, h8⟩ := h
  refine ⟨?_, ?_, ?_, ?_, h5, by simp; omega, h7, h8⟩
  all_goals unfold Codec.poke; rw [h1]; simp only [List.getLast?_append, List.getLast?_singleton, Option.some_or]
  · rw [Buffer.setLast_append, Nat.zero_add, writeAt_more m p w (by omega)]
  · exact h2
  · exact h3
  · exact h4

theorem drop_full {m p : Bytes} {pl : Nat} (hm : m.length = pl) (hp : p.length = pl) : p ++ m.drop p.length = p := by
  rw [List.drop_of_length_le (by omega), List.append_nil]

theorem Open.account_full {cm pl ss m p b} (mem : Nat → Bytes) (hm : ∀ n, (mem n).length = n) (h : Open cm pl ss m p b)
    (hpl : 0 < pl) (hp : p.length = pl) :
    Open cm pl (ss ++ [p]) (mem pl) [] (account mem b pl) ∨ Closed cm pl (ss ++ [p]) (account mem b pl) := by
  obtain ⟨h1, h2, h3, h4, h5, h6, h7, h8⟩ := h
  have hl : b.chunks.getLast? = some ⟨p, 0, 0, .empty⟩ := by
    rw [h1, drop_full h5 hp]; simp
  have hu : Chunk.unuseLen ⟨p, 0, 0, .empty⟩ = pl := by simp [Chunk.unuseLen, hp]
  have hset : Buffer.setLast b.chunks { (⟨p, 0, 0, .empty⟩ : Chunk) with filled := p.length, status := .full } = (ss ++ [p]).map fullChunk := by
    rw [h1, Buffer.setLast_append]; simp [fullChunk]
  have hn : b.chunks.length = ss.length + 1 := by rw [h1]; simp
  have hss : ∀ st ∈ ss ++ [p], st.length = pl := by
    intro st hst
    rcases List.mem_append.mp hst with hst | hst
    · exact h7 st hst
    · rw [List.mem_singleton.mp hst]; exact hp
  unfold Codec.account Buffer.updateBuffer
  rw [hl]
  simp only
  cases hf : b.chainMax - b.chunks.length with
  | zero =>
    right
    rw [Buffer.updateLoop]
    simp only [hu, ge_iff_le, Nat.le_refl, if_true, hset]
    exact ⟨rfl, h2, h3, hss, by simp; omega, by simp⟩
  | succ f =>
    left
    rw [Buffer.updateLoop]
    simp only [hu, ge_iff_le, Nat.le_refl, if_true, hset, Nat.sub_self]
    rw [Buffer.updateLoop]
    have hu2 : (Chunk.fresh (mem b.perLen)).unuseLen = pl := by simp [Chunk.unuseLen, Chunk.fresh, hm, h3]
    rw [if_neg (by rw [hu2]; omega), if_pos rfl]
    refine ⟨?_, h2, h3, ?_, hm pl, by simp, hss, by simp; omega⟩
    · simp [Chunk.fresh, h3]
    · simp only [h4, List.length_append, List.length_singleton, Nat.succ_mul]

theorem Open.account_part {cm pl ss m p b} (mem : Nat → Bytes) (h : Open cm pl ss m p b) (hp : p.length < pl) :
    bytes (account mem b p.length) = ss.flatten ++ p := by
  obtain ⟨h1, h2, h3, h4, h5, h6, h7, h8⟩ := h
  have hl : b.chunks.getLast? = some ⟨p ++ m.drop p.length, 0, 0, .empty⟩ := by rw [h1]; simp
  have hu : Chunk.unuseLen ⟨p ++ m.drop p.length, 0, 0, .empty⟩ = pl := by simp [Chunk.unuseLen]; omega
  unfold Codec.account Buffer.updateBuffer
  rw [hl]
  simp only
  rw [Buffer.updateLoop.eq_def]
  simp only
  rw [if_neg (by rw [hu]; omega)]
  by_cases h0 : p.length = 0
  · rw [if_pos h0]
    have : p = [] := List.length_eq_zero_iff.mp h0
    subst this
    simp only [bytes, h1, List.map_append, List.flatten_append, bytes_full]
    simp
  · rw [if_neg h0]
    simp only [bytes, h1, Buffer.setLast_append, List.map_append, List.flatten_append, bytes_full]
    simp

theorem Open.bytes {cm pl ss m p b} (h : Open cm pl ss m p b) : bytes b = ss.flatten := by
  rw [Codec.bytes, h.1, List.map_append, List.flatten_append, bytes_full]; simp

theorem Closed.bytes {cm pl ss b} (h : Closed cm pl ss b) : bytes b = ss.flatten := by
  rw [Codec.bytes, h.1, bytes_full]

/-- Accounting for the last output gives all of it. -/
theorem Open.account {cm pl ss m p b} (mem : Nat → Bytes) (hm : ∀ n, (mem n).length = n) (h : Open cm pl ss m p b)
    (hpl : 0 < pl) : Codec.bytes (account mem b p.length) = ss.flatten ++ p := by
  have hle : p.length ≤ pl := h.2.2.2.2.2.1
  rcases Nat.lt_or_ge p.length pl with hp | hp
  · exact h.account_part mem hp
  · have hp : p.length = pl := by omega
    rw [hp]
    rcases h.account_full mem hm hpl hp with h' | h'
    · rw [h'.bytes]; simp
    · rw [h'.bytes]; simp

theorem init_open (mem : Nat → Bytes) (hm : ∀ n, (mem n).length = n) (cm pl : Nat) (hcm : 0 < cm) :
    ∃ b, Buffer.init mem 1 cm pl = some b ∧ Open cm pl [] (mem pl) [] b := by
  refine ⟨⟨[Chunk.fresh (mem pl)], cm, pl, 0⟩, ?_, ?_⟩
  · simp [Buffer.init, Buffer.init.go, Buffer.addChain]; omega
  · exact ⟨by simp [Chunk.fresh], rfl, rfl, by simp, hm pl, by simp, by simp, by simp; omega⟩

/-- What is left to be read, given what was taken and is at hand. -/
def Left {σ : Type} (src : Src) (s : Enc σ) (i : Bytes) : Prop :=
  if s.finish then i ++ s.inp = src.content
  else
    match src with
    | .body _ => i = [] ∧ s.inp = []
    | .file f o _ => i ++ s.inp ++ f.drop s.pos = f.drop o

/-- The invariant of the loop of `fly_gzip_encode`. -/
def Inv (z : Zlib) (cm pl : Nat) (src : Src) (s : Enc z.State) (i : Bytes) (o : Bytes) : Prop :=
  (∃ left, z.Hist s.lib i o left ∧ (∀ l, left = some l → s.finish = true ∧ s.inp = l)) ∧ Left src s i ∧
  ((∃ ss m p, Open cm pl ss m p s.enc ∧ s.off = p.length ∧ p.length < pl ∧ s.contlen = ss.length * pl ∧ o = ss.flatten ++ p) ∨
   (∃ ss, Closed cm pl ss s.enc ∧ s.off = 0 ∧ o = ss.flatten))

theorem left_input {σ : Type} (src : Src) (pl : Nat) (s : Enc σ) (i : Bytes) (hpl : 0 < pl)
    (hdec : ∀ f o ok, src = .file f o ok → (s.dec.map firstLen).getD 0 = pl) (h : Left src s i) :
    (gzipInput src s = none ∧ ¬ src.Readable) ∨
    ∃ s', gzipInput src s = some s' ∧ Left src s' i ∧ (s'.finish = false → s'.inp ≠ []) ∧ s'.lib = s.lib ∧ s'.enc = s.enc ∧
      s'.off = s.off ∧ s'.contlen = s.contlen ∧ s'.dec = s.dec ∧ (s.finish = true → s'.finish = true ∧ s'.inp = s.inp) := by
  unfold gzipInput
  by_cases hc : (!s.finish && s.inp.isEmpty) = true
  · rw [if_pos hc]
    simp only [Bool.and_eq_true, Bool.not_eq_true', List.isEmpty_iff] at hc
    obtain ⟨hf, hi⟩ := hc
    unfold Left at h
    rw [if_neg (by simp [hf])] at h
    cases src with
    | body b =>
      simp only at h
      refine Or.inr ⟨_, rfl, ?_, by simp, rfl, rfl, rfl, rfl, rfl, by simp [hf]⟩
      unfold Left; simp [h.1, Src.content]
    | file f o ok =>
      simp only at h
      have hd := hdec f o ok rfl
      by_cases hr : ok s.reads = true
      case neg =>
        left
        refine ⟨by simp only [Enc.refill, if_neg hr], fun h => hr (h s.reads)⟩
      simp only [Enc.refill, hr, if_true, hd]
      refine Or.inr ⟨_, rfl, ?_, ?_, rfl, rfl, rfl, rfl, rfl, by simp [hf]⟩
      · unfold Left
        rw [hi, List.append_nil] at h
        by_cases hlt : ((f.drop s.pos).take pl).length < pl
        · simp only [hlt, decide_true, if_true, Src.content]
          rw [List.length_take] at hlt
          rw [List.take_of_length_le (by omega), h]
        · simp only [hlt, decide_false, Bool.false_eq_true, if_false]
          have hlen : ((f.drop s.pos).take pl).length = pl := by
            rw [List.length_take] at hlt ⊢; omega
          rw [hlen, ← List.drop_drop, List.append_assoc, List.take_append_drop, h]
      · intro hfin he
        simp only [decide_eq_false_iff_not] at hfin
        simp only at he
        rw [he] at hfin; simp at hfin; omega
  · rw [if_neg hc]
    refine Or.inr ⟨s, rfl, h, ?_, rfl, rfl, rfl, rfl, rfl, fun h => ⟨h, rfl⟩⟩
    intro hf hi
    simp [hf, hi] at hc

theorem left_call {σ : Type} (src : Src) (s : Enc σ) (i : Bytes) (h : Left src s i) (hne : s.finish = false → s.inp ≠ [])
    (lib : σ) (k : Nat) (out : Bytes) : Left src (s.absorb lib k out) (i ++ s.inp.take k) := by
  unfold Left at h ⊢
  by_cases hf : s.finish = true
  · rw [if_pos hf] at h
    rw [if_pos (by simpa [Enc.absorb] using hf)]
    simp only [Enc.absorb]
    rw [List.append_assoc, List.take_append_drop, h]
  · rw [if_neg hf] at h
    rw [if_neg (by simpa [Enc.absorb] using hf)]
    cases src with
    | body b => exact absurd h.2 (hne (by simpa using hf))
    | file f o ok =>
      simp only at h
      simp only [Enc.absorb]
      rw [List.append_assoc i, List.take_append_drop, h]

theorem left_le {σ : Type} {src : Src} {s : Enc σ} {i : Bytes} (h : Left src s i) : i.length + (if s.finish then s.inp.length else 0) ≤ src.content.length ∧ i <+: src.content := by
  unfold Left at h
  by_cases hf : s.finish = true
  · rw [if_pos hf] at h
    rw [← h, if_pos hf]; simp
  · rw [if_neg hf] at h
    rw [if_neg hf]
    cases src with
    | body b => simp [h.1]
    | file f o ok =>
      simp only at h
      have e : (Src.file f o ok).content = f.drop o := rfl
      rw [e, ← h]; simp

/-- The measure that gets smaller: room in the buffer and input not yet taken. -/
def meas (cm pl : Nat) (src : Src) (i o : Bytes) : Nat := (cm * pl - o.length) + (src.content.length - i.length)

theorem cap {cm pl ss m p b} (h : Open cm pl ss m p b) : (ss.flatten ++ p).length ≤ cm * pl := by
  obtain ⟨_, _, _, _, _, h6, h7, h8⟩ := h
  rw [List.length_append, flatten_length pl ss h7]
  have := Nat.mul_le_mul_right pl h8
  rw [Nat.succ_mul] at this
  omega

theorem iter_gzip (z : Zlib) (dec : Bytes → Option Bytes) (hz : ZlibOk z dec) (mem : Nat → Bytes) (hm : ∀ n, (mem n).length = n)
    (cm pl : Nat) (hpl : 0 < pl) (src : Src) (s : Enc z.State) (i o : Bytes)
    (hdec : ∀ f o ok, src = .file f o ok → (s.dec.map firstLen).getD 0 = pl) (h : Inv z cm pl src s i o) :
    (∃ b n, gzipIter z mem src s = .stop (.success b n) ∧ dec (bytes b) = some src.content ∧ n = (bytes b).length ∧ n ≤ cm * pl) ∨
    (gzipIter z mem src s = .stop .bufferError ∧ o.length = cm * pl ∧ i <+: src.content) ∨
    (gzipIter z mem src s = .stop .error ∧ ¬ src.Readable) ∨
    (∃ s' i' o', gzipIter z mem src s = .again s' ∧ Inv z cm pl src s' i' o' ∧ s'.dec = s.dec ∧
      meas cm pl src i' o' < meas cm pl src i o) := by
  obtain ⟨⟨left, hh, hleft⟩, hl, hb⟩ := h
  rcases left_input src pl s i hpl hdec hl with ⟨e0, hr⟩ | ⟨s1, e1, hl1, hne, f1, f2, f3, f4, f5, f6⟩
  · right; right; left
    unfold gzipIter
    rw [e0]
    exact ⟨rfl, hr⟩
  have hal : ∀ l, left = some l → s1.finish = true ∧ s1.inp = l := by
    intro l h
    obtain ⟨h1, h2⟩ := hleft l h
    exact ⟨(f6 h1).1, by rw [(f6 h1).2, h2]⟩
  rw [← f1] at hh
  have hA : z.Allowed s1.lib i o s1.finish s1.inp := ⟨left, hh, hal⟩
  unfold gzipIter
  rw [e1]
  simp only
  rcases hb with ⟨ss, m, p, ho, hoff, hp, hc, rfl⟩ | ⟨ss, hcl, hoff, rfl⟩
  · -- room
    rw [← f2] at ho
    rw [← f3] at hoff
    rw [← f4] at hc
    have hroom : s1.room = pl - p.length := by rw [Enc.room, ho.room, hoff]
    generalize hrr : s1.room = rm at *
    have hfit := hz.fits hA rm
    have hpk := ho.poke (z.deflate s1.lib s1.finish s1.inp rm).out (by omega)
    cases hst : (z.deflate s1.lib s1.finish s1.inp rm).status with
    | other => exact absurd hst (hz.known hA _)
    | bufError =>
      exfalso
      rcases hz.bufError hA _ hst with h0 | ⟨h1, h2⟩
      · omega
      · exact hne h1 h2
    | streamEnd =>
      left
      obtain ⟨hfin, hd⟩ := hz.ends hA _ hst
      have hacc := hpk.account mem hm hpl
      have hlen : (ss.flatten ++ (p ++ (z.deflate s1.lib s1.finish s1.inp rm).out)).length =
          ss.length * pl + (p.length + (z.deflate s1.lib s1.finish s1.inp rm).out.length) := by
        rw [List.length_append, flatten_length pl ss ho.2.2.2.2.2.2.1, List.length_append]
      refine ⟨_, _, rfl, ?_, ?_, ?_⟩
      · simp only [Enc.absorb, hoff]
        rw [List.length_append] at hacc
        rw [hacc, ← List.append_assoc, hd]
        unfold Left at hl1
        rw [if_pos hfin] at hl1
        rw [hl1]
      · simp only [Enc.absorb, hoff, hc]
        rw [List.length_append] at hacc
        rw [hacc, hlen]
      · simp only [Enc.absorb, hoff, hc]
        have := cap hpk
        rw [hlen] at this
        exact this
    | ok =>
      right; right; right
      have hH := hh.call s1.finish s1.inp rm hal hst
      have hL := left_call src s1 i hl1 hne (z.deflate s1.lib s1.finish s1.inp rm).state
        (z.deflate s1.lib s1.finish s1.inp rm).consumed (z.deflate s1.lib s1.finish s1.inp rm).out
      have hLe := left_le hL
      simp only
      generalize hz' : z.deflate s1.lib s1.finish s1.inp rm = r at *
      have hnew : ∀ l, (if s1.finish then some (s1.inp.drop r.consumed) else none) = some l →
          s1.finish = true ∧ s1.inp.drop r.consumed = l := by
        intro l h
        cases hfc : s1.finish with
        | false => rw [hfc] at h; cases h
        | true => rw [hfc] at h; exact ⟨rfl, Option.some.inj h⟩
      have hroom2 : (s1.absorb r.state r.consumed r.out).room = pl - (p ++ r.out).length := by
        simp only [Enc.room, Enc.absorb, hoff, hpk.room, List.length_append]
      by_cases h0 : (s1.absorb r.state r.consumed r.out).room = 0
      · rw [if_pos h0]
        have hfull : (p ++ r.out).length = pl := by
          have := hpk.2.2.2.2.2.1
          omega
        have hac : Codec.actLen (s1.absorb r.state r.consumed r.out).enc = pl := by
          simp only [Enc.absorb, hoff]; exact hpk.actLen
        have henc : (s1.absorb r.state r.consumed r.out).enc = poke s1.enc p.length r.out := by simp only [Enc.absorb, hoff]
        refine ⟨_, i ++ s1.inp.take r.consumed, ss.flatten ++ p ++ r.out, rfl, ⟨⟨_, hH, hnew⟩, hL, ?_⟩, f5, ?_⟩
        · rcases hpk.account_full mem hm hpl hfull with ha | ha
          · left
            refine ⟨ss ++ [p ++ r.out], mem pl, [], ?_, rfl, by simpa using hpl, ?_, by simp⟩
            · simp only [Enc.next]; rw [hac, henc]; exact ha
            · simp only [Enc.next, hac, List.length_append, List.length_singleton, Nat.succ_mul]
              rw [← hc]; rfl
          · right
            refine ⟨ss ++ [p ++ r.out], ?_, rfl, by simp⟩
            simp only [Enc.next]; rw [hac, henc]; exact ha
        · have := cap hpk
          rw [← List.append_assoc] at this
          have h2 : (ss.flatten ++ p).length < (ss.flatten ++ p ++ r.out).length := by
            simp only [List.length_append] at hfull ⊢; omega
          have h3 : i.length ≤ (i ++ s1.inp.take r.consumed).length := by simp
          unfold meas
          omega
      · rw [if_neg h0]
        have hlt : (p ++ r.out).length < pl := by omega
        have hout : r.out.length ≠ rm := by
          intro he
          simp only [List.length_append] at hlt
          omega
        have hnf : s1.finish = false := by
          cases hfc : s1.finish with
          | false => rfl
          | true =>
            exfalso
            rw [hfc] at hA
            have := hz.finishes hA rm
            rw [hfc] at hz'
            rw [hz'] at this
            exact hout (this hst)
        have hcons : s1.inp.length ≤ r.consumed := by
          rw [hnf] at hA
          have := hz.proceeds hA rm
          rw [hnf] at hz'
          rw [hz'] at this
          rcases this hst with h | h
          · exact h
          · exact absurd h hout
        refine ⟨_, i ++ s1.inp.take r.consumed, ss.flatten ++ p ++ r.out, rfl, ⟨⟨_, hH, hnew⟩, hL, ?_⟩, f5, ?_⟩
        · left
          refine ⟨ss, m, p ++ r.out, ?_, ?_, hlt, hc, by simp⟩
          · simp only [Enc.absorb, hoff]; exact hpk
          · simp only [Enc.absorb, hoff, List.length_append]
        · have h2 : (ss.flatten ++ p).length ≤ (ss.flatten ++ p ++ r.out).length := by simp
          have h3 : i.length < (i ++ s1.inp.take r.consumed).length := by
            have := hne hnf
            rw [List.length_append, List.length_take]
            have : 0 < s1.inp.length := List.length_pos_iff.mpr this
            omega
          have h4 := hLe.1
          unfold meas
          omega
  · -- no room
    right; left
    rw [← f2] at hcl
    have hroom : s1.room = 0 := by rw [Enc.room, hcl.room]; omega
    rw [hroom]
    have := hz.noRoom hA
    rw [this]
    refine ⟨rfl, ?_, (left_le hl).2⟩
    rw [flatten_length pl ss hcl.2.2.2.1, hcl.2.2.2.2.1]

theorem loop_gzip (z : Zlib) (dec : Bytes → Option Bytes) (hz : ZlibOk z dec) (mem : Nat → Bytes) (hm : ∀ n, (mem n).length = n)
    (cm pl : Nat) (hpl : 0 < pl) (src : Src) : ∀ (fuel : Nat) (s : Enc z.State) (i o : Bytes),
    (∀ f o ok, src = .file f o ok → (s.dec.map firstLen).getD 0 = pl) → Inv z cm pl src s i o → meas cm pl src i o < fuel →
    (∃ b n, loop (gzipIter z mem src) fuel s = .success b n ∧ dec (bytes b) = some src.content ∧ n = (bytes b).length ∧ n ≤ cm * pl) ∨
    (loop (gzipIter z mem src) fuel s = .bufferError ∧ ∃ s' i' o' left, z.Hist s' i' o' left ∧ i' <+: src.content ∧ o'.length = cm * pl) ∨
    (loop (gzipIter z mem src) fuel s = .error ∧ ¬ src.Readable) := by
  intro fuel
  induction fuel with
  | zero => intro s i o _ _ h; omega
  | succ fuel ih =>
    intro s i o hdec hI hM
    rcases iter_gzip z dec hz mem hm cm pl hpl src s i o hdec hI with ⟨b, n, h1, h2⟩ | ⟨h1, h2, h3⟩ | ⟨h1, h2⟩ | ⟨s', i', o', h1, h2, h3, h4⟩
    · left
      exact ⟨b, n, by rw [loop, h1], h2⟩
    · right; left
      obtain ⟨left, hH, _⟩ := hI.1
      exact ⟨by rw [loop, h1], s.lib, i, o, left, hH, h3, h2⟩
    · right; right
      exact ⟨by rw [loop, h1], h2⟩
    · rw [loop, h1]
      exact ih s' i' o' (by rw [h3]; exact hdec) h2 (by omega)

/-- The beginning. -/
theorem begin_inv (z : Zlib) (cm pl : Nat) (hpl : 0 < pl) (src : Src) (m : Bytes) (b : Buf) (dec : Option Buf)
    (h : Open cm pl [] m [] b) : Inv z cm pl src (begin z.start src b dec) [] [] := by
  refine ⟨⟨none, Zlib.Hist.start, by simp⟩, ?_, Or.inl ⟨[], m, [], h, rfl, by simpa using hpl, by simp [begin], rfl⟩⟩
  unfold Left
  cases src <;> simp [begin]

end Fly.Codec
