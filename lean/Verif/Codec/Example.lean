import Verif.Codec.Spec

set_option linter.all false

/-! # Libraries that keep their promises

A toy format: every byte is preceded by a 1, and a 0 ends the stream. -/

namespace Fly.Codec.Toy

def esc (i : Bytes) : Bytes := i.flatMap fun b => [1, b]

/-- The client's decoder. -/
def dec : Bytes → Option Bytes
  | [0] => some []
  | 1 :: b :: r => (dec r).map (b :: ·)
  | _ => none

theorem dec_esc : ∀ i, dec (esc i ++ [0]) = some i
  | [] => rfl
  | b :: i => by
    have := dec_esc i
    simp only [esc, List.flatMap_cons, List.cons_append, List.nil_append, dec] at this ⊢
    rw [this]; rfl

theorem dec_cut : ∀ (i : Bytes) (n : Nat), n < (esc i ++ [0]).length → dec ((esc i ++ [0]).take n) = none
  | [], n, h => by
    have : n = 0 := by simp [esc] at h; exact h
    subst this; rfl
  | b :: i, 0, _ => rfl
  | b :: i, 1, _ => rfl
  | b :: i, n + 2, h => by
    have := dec_cut i n (by simp [esc] at h ⊢; omega)
    simp only [esc, List.flatMap_cons, List.cons_append, List.nil_append, List.take_succ_cons, dec] at this ⊢
    rw [this]; rfl

theorem esc_append (a b : Bytes) : esc (a ++ b) = esc a ++ esc b := by simp [esc]

/-- What is to be written after a call. -/
def queue (pend : Bytes) (closed fin : Bool) (inp : Bytes) : Bytes := pend ++ esc inp ++ (if fin && !closed then [0] else [])

def z : Zlib where
  State := Bytes × Bool
  start := ([], false)
  deflate := fun s fin inp room =>
    { status := if room = 0 then .bufError
        else if fin then (if (queue s.1 s.2 fin inp).length ≤ room then .streamEnd else .ok)
        else if queue s.1 s.2 fin inp = [] then .bufError else .ok
      state := ((queue s.1 s.2 fin inp).drop room, s.2 || fin)
      consumed := inp.length
      out := (queue s.1 s.2 fin inp).take room }

theorem z_inv {s i o left} (h : z.Hist s i o left) : (left = none → s.2 = false ∧ o ++ s.1 = esc i) ∧
    (∀ l, left = some l → l = [] ∧ s.2 = true ∧ o ++ s.1 = esc i ++ [0]) := by
  induction h with
  | start => simp [z, esc]
  | @call s i o left fin inp room h hal hst ih =>
    have hcons : inp.take (z.deflate s fin inp room).consumed = inp := by simp [z]
    have hdrop : inp.drop (z.deflate s fin inp room).consumed = [] := by simp [z]
    have hout : o ++ (z.deflate s fin inp room).out ++ (z.deflate s fin inp room).state.1 = o ++ queue s.1 s.2 fin inp := by
      simp [z, List.append_assoc]
    have hs2 : (z.deflate s fin inp room).state.2 = (s.2 || fin) := rfl
    rw [hcons, hdrop, hout, hs2]
    cases left with
    | none =>
      obtain ⟨h1, h2⟩ := ih.1 rfl
      cases fin with
      | false =>
        refine ⟨fun _ => ⟨by simp [h1], ?_⟩, by simp⟩
        simp [queue, ← h2, esc_append]
      | true =>
        refine ⟨by simp, fun l hl => ⟨by simpa using hl.symm, by simp, ?_⟩⟩
        simp [queue, h1, ← h2, esc_append]
    | some l =>
      obtain ⟨h1, h2, h3⟩ := ih.2 l rfl
      obtain ⟨hf, hi⟩ := hal l rfl
      subst hf; subst hi; subst h1
      refine ⟨by simp, fun l hl => ⟨by simpa using hl.symm, by simp, ?_⟩⟩
      have e0 : esc [] = [] := rfl
      simp [queue, h2, e0, h3]

theorem z_ok : ZlibOk z dec where
  fits := by
    intro s i o fin inp _ room
    simp only [z, List.length_take]; omega
  known := by
    intro s i o fin inp _ room
    simp only [z]
    repeat' split
    all_goals simp
  ends := by
    intro s i o fin inp ha room hst
    obtain ⟨left, hh, hal⟩ := ha
    have hI := z_inv hh
    by_cases h0 : room = 0
    · simp [z, h0] at hst
    cases fin with
    | false =>
      exfalso
      by_cases hq : queue s.1 s.2 false inp = [] <;> simp [z, h0, hq] at hst
    | true =>
      by_cases hl : (queue s.1 s.2 true inp).length ≤ room
      · refine ⟨rfl, ?_⟩
        have : (z.deflate s true inp room).out = queue s.1 s.2 true inp := by simp [z, List.take_of_length_le hl]
        rw [this]
        cases left with
        | none =>
          obtain ⟨h1, h2⟩ := hI.1 rfl
          have e : o ++ queue s.1 s.2 true inp = esc (i ++ inp) ++ [0] := by simp [queue, h1, esc_append, ← h2]
          rw [e, dec_esc]
        | some l =>
          obtain ⟨h1, h2, h3⟩ := hI.2 l rfl
          obtain ⟨_, hi⟩ := hal l rfl
          subst hi; subst h1
          have e : o ++ queue s.1 s.2 true [] = esc i ++ [0] := by
            have e0 : esc [] = [] := rfl
            simp [queue, h2, e0, h3]
          rw [e, dec_esc, List.append_nil]
      · simp [z, h0, hl] at hst
  finishes := by
    intro s i o inp _ room hst
    by_cases h0 : room = 0
    · simp [z, h0] at hst
    by_cases hl : (queue s.1 s.2 true inp).length ≤ room
    · simp [z, h0, hl] at hst
    · simp only [z, List.length_take]; omega
  proceeds := by
    intro s i o inp _ room _
    left; simp [z]
  noRoom := by
    intro s i o fin inp _
    simp [z]
  bufError := by
    intro s i o fin inp _ room hst
    by_cases h0 : room = 0
    · exact Or.inl h0
    cases fin with
    | true => by_cases hl : (queue s.1 s.2 true inp).length ≤ room <;> simp [z, h0, hl] at hst
    | false =>
      right
      by_cases hq : queue s.1 s.2 false inp = []
      · refine ⟨rfl, ?_⟩
        cases inp with
        | nil => rfl
        | cons x xs => simp [queue, esc] at hq
      · simp [z, h0, hq] at hst
  idle := by
    intro s i o inp _ room hst hlt room'
    have hlen : (queue s.1 s.2 false inp).length < room := by
      simp only [z, List.length_take] at hlt; omega
    have e : (z.deflate s false inp room).state.1 = [] := by simp [z]; omega
    generalize z.deflate s false inp room = r at e
    simp [z, e, queue, esc]

def br : Brotli where
  State := Bytes × Bool
  start := ([], false)
  compress := fun s fin inp room =>
    if fin then
      { ok := true, state := ((s.1 ++ esc inp ++ [0]).drop room, decide ((s.1 ++ esc inp ++ [0]).length ≤ room)),
        consumed := inp.length, out := (s.1 ++ esc inp ++ [0]).take room }
    else { ok := true, state := (s.1 ++ esc inp, false), consumed := inp.length, out := [] }
  finished := fun s => s.2

theorem br_inv {s i o} (h : br.Hist s i o) : o = [] ∧ s.1 = esc i := by
  induction h with
  | start => simp [br, esc]
  | call inp room h ih => simp [br, ih.1, ih.2, esc_append]

theorem br_ok : BrotliOk br dec where
  works := by intro s i o _ fin inp room; cases fin <;> rfl
  fits := by
    intro s i o _ fin inp room
    cases fin with
    | true => simp only [br, if_true, List.length_take]; omega
    | false => simp [br]
  asked := by intro s i o _ inp room; rfl
  ends := by
    intro s i o h inp room
    obtain ⟨h1, h2⟩ := br_inv h
    subst h1
    have e : s.1 ++ esc inp ++ [0] = esc (i ++ inp) ++ [0] := by rw [h2, esc_append]
    by_cases hl : (esc (i ++ inp) ++ [0]).length ≤ room
    · left
      constructor
      · show decide ((s.1 ++ esc inp ++ [0]).length ≤ room) = true
        rw [e]; exact decide_eq_true hl
      · show dec ([] ++ (s.1 ++ esc inp ++ [0]).take room) = _
        rw [e, List.take_of_length_le hl, List.nil_append, dec_esc]
    · right
      refine ⟨?_, ?_, ?_⟩
      · show decide ((s.1 ++ esc inp ++ [0]).length ≤ room) = false
        rw [e]; exact decide_eq_false hl
      · show ((s.1 ++ esc inp ++ [0]).take room).length = room
        rw [e, List.length_take]; omega
      · show dec ([] ++ (s.1 ++ esc inp ++ [0]).take room) = _
        rw [e, List.nil_append]; exact dec_cut _ _ (by omega)

end Fly.Codec.Toy
