import Verif.PyReq.Model
import Verif.PyArgs.Lemmas

/-! # C97 — a handler sees the request as it was sent -/

namespace Fly.PyReq

open Fly.PyArgs (Str decodeStrict decodeStrictF utf8Head Spec.utf8 Spec.Scalar Spec.enc)
open Fly.PyArgs.Spec (utf8 Scalar enc)

/-! ## Strict decoding is exact -/

theorem utf8Head_sound (bs : Bytes) (c n : Nat) (h : utf8Head bs = (some c, n)) : Scalar c ∧ bs = enc c ++ bs.drop n ∧ 0 < n := by
  cases bs with
  | nil => simp [utf8Head] at h
  | cons b r =>
    unfold utf8Head at h
    simp only at h
    split at h
    · next hb =>
      injection h with h1 h2
      have h1 := Option.some.inj h1
      subst h1; subst h2
      exact ⟨⟨by omega, by omega⟩, by simp [enc, hb], by omega⟩
    · next hb =>
      split at h
      · next hb2 =>
        split at h
        · next c1 r1 =>
          split at h
          · next hc =>
            simp only [PyArgs.cont, Bool.and_eq_true, decide_eq_true_eq] at hc
            injection h with h1 h2
            have h1 := Option.some.inj h1
            subst h1; subst h2
            refine ⟨⟨by omega, by omega⟩, ?_, by omega⟩
            unfold enc
            rw [if_neg (by omega), if_pos (by omega)]
            have k1 : 192 + ((b - 192) * 64 + (c1 - 128)) / 64 = b := by omega
            have k2 : 128 + ((b - 192) * 64 + (c1 - 128)) % 64 = c1 := by omega
            rw [k1, k2]; rfl
          · simp at h
        · simp at h
      · next hb2 =>
        split at h
        · next hb3 =>
          split at h
          · next c1 r1 =>
            split at h
            · next hc1 =>
              split at h
              · next c2 r2 =>
                split at h
                · next hc2 =>
                  simp only [PyArgs.cont, Bool.and_eq_true, Bool.or_eq_true, bne_iff_ne, ne_eq, decide_eq_true_eq] at hc1 hc2
                  injection h with h1 h2
                  have h1 := Option.some.inj h1
                  subst h1; subst h2
                  refine ⟨⟨by omega, by omega⟩, ?_, by omega⟩
                  unfold enc
                  rw [if_neg (by omega), if_neg (by omega), if_pos (by omega)]
                  have k1 : 224 + ((b - 224) * 4096 + (c1 - 128) * 64 + (c2 - 128)) / 4096 = b := by omega
                  have k2 : 128 + ((b - 224) * 4096 + (c1 - 128) * 64 + (c2 - 128)) / 64 % 64 = c1 := by omega
                  have k3 : 128 + ((b - 224) * 4096 + (c1 - 128) * 64 + (c2 - 128)) % 64 = c2 := by omega
                  rw [k1, k2, k3]; rfl
                · simp at h
              · simp at h
            · simp at h
          · simp at h
        · next hb3 =>
          split at h
          · next hb4 =>
            split at h
            · next c1 r1 =>
              split at h
              · next hc1 =>
                split at h
                · next c2 r2 =>
                  split at h
                  · next hc2 =>
                    split at h
                    · next c3 r3 =>
                      split at h
                      · next hc3 =>
                        simp only [PyArgs.cont, Bool.and_eq_true, Bool.or_eq_true, bne_iff_ne, ne_eq, decide_eq_true_eq] at hc1 hc2 hc3
                        injection h with h1 h2
                        have h1 := Option.some.inj h1
                        subst h1; subst h2
                        refine ⟨⟨by omega, by omega⟩, ?_, by omega⟩
                        unfold enc
                        rw [if_neg (by omega), if_neg (by omega), if_neg (by omega)]
                        have k1 : 240 + ((b - 240) * 262144 + (c1 - 128) * 4096 + (c2 - 128) * 64 + (c3 - 128)) / 262144 = b := by omega
                        have k2 : 128 + ((b - 240) * 262144 + (c1 - 128) * 4096 + (c2 - 128) * 64 + (c3 - 128)) / 4096 % 64 = c1 := by omega
                        have k3 : 128 + ((b - 240) * 262144 + (c1 - 128) * 4096 + (c2 - 128) * 64 + (c3 - 128)) / 64 % 64 = c2 := by omega
                        have k4 : 128 + ((b - 240) * 262144 + (c1 - 128) * 4096 + (c2 - 128) * 64 + (c3 - 128)) % 64 = c3 := by omega
                        rw [k1, k2, k3, k4]; rfl
                      · simp at h
                    · simp at h
                  · simp at h
                · simp at h
              · simp at h
            · simp at h
          · simp at h

theorem decodeStrictF_sound : ∀ (n : Nat) (bs : Bytes) (s : Str), bs.length ≤ n → decodeStrictF n bs = some s → utf8 s = bs ∧ ∀ c ∈ s, Scalar c
  | 0, bs, s, hl, h => by
    have : bs = [] := List.eq_nil_of_length_eq_zero (by omega)
    subst this
    simp [decodeStrictF] at h; subst h; simp [utf8]
  | n + 1, [], s, _, h => by simp [decodeStrictF] at h; subst h; simp [utf8]
  | n + 1, b :: r, s, hl, h => by
    unfold decodeStrictF at h
    cases hh : utf8Head (b :: r) with
    | mk o k =>
      rw [hh] at h
      cases o with
      | none => simp at h
      | some c =>
        obtain ⟨h1, h2, h3⟩ := utf8Head_sound _ _ _ hh
        simp only at h
        cases hd : decodeStrictF n ((b :: r).drop k) with
        | none => rw [hd] at h; simp at h
        | some t =>
          rw [hd] at h
          have h : c :: t = s := Option.some.inj h
          subst h
          obtain ⟨i1, i2⟩ := decodeStrictF_sound n _ t (by rw [List.length_drop]; omega) hd
          refine ⟨?_, ?_⟩
          · rw [PyArgs.utf8_cons, i1, ← h2]
          · intro x hx
            rcases List.mem_cons.1 hx with rfl | hx
            · exact h1
            · exact i2 x hx

/-- `s` is the text the bytes are the UTF-8 form of. -/
def IsText (bs : Bytes) (s : Str) : Prop := utf8 s = bs ∧ ∀ c ∈ s, Scalar c

theorem decode_iff (bs : Bytes) (s : Str) : decodeStrict bs = some s ↔ IsText bs s := by
  constructor
  · exact decodeStrictF_sound _ bs s (Nat.le_refl _)
  · rintro ⟨rfl, h⟩; exact PyArgs.decodeStrict_utf8 s h

/-- Element by element. -/
inductive All₂ {α β : Type} (R : α → β → Prop) : List α → List β → Prop
  | nil : All₂ R [] []
  | cons {a b l m} : R a b → All₂ R l m → All₂ R (a :: l) (b :: m)

def PairText (p : Bytes × Bytes) (q : Str × Str) : Prop := IsText p.1 q.1 ∧ IsText p.2 q.2

/-- The fields of a header list. -/
def fields (l : List Header.HField) : List (Bytes × Bytes) := l.map fun f => (f.name.getD [], f.value.getD [])

/-- The values of the fields called `cookie`. -/
def cookies (l : List (Bytes × Bytes)) : List Bytes := (l.filter fun p => p.1 = b!"cookie").map (·.2)

theorem pyParams_iff : ∀ (l : List (Bytes × Bytes)) (m : List (Str × Str)), pyParams l = some m ↔ All₂ PairText l m
  | [], m => by
    constructor
    · intro h; simp [pyParams] at h; subst h; exact .nil
    · intro h; cases h; rfl
  | (n, v) :: l, m => by
    unfold pyParams
    constructor
    · intro h
      split at h
      · next n' v' l' h1 h2 h3 =>
        have h := Option.some.inj h
        subst h
        exact .cons ⟨(decode_iff _ _).1 h1, (decode_iff _ _).1 h2⟩ ((pyParams_iff l l').1 h3)
      · simp at h
    · intro h
      cases h with
      | cons h1 h2 =>
        rw [(decode_iff _ _).2 h1.1, (decode_iff _ _).2 h1.2, (pyParams_iff l _).2 h2]

theorem pyHeader_iff : ∀ (l : List Header.HField) (hs : List (Str × Str)) (cs : List Str),
    pyHeader l = some (hs, cs) ↔ All₂ PairText (fields l) hs ∧ All₂ IsText (cookies (fields l)) cs
  | [], hs, cs => by
    constructor
    · intro h; simp [pyHeader] at h; obtain ⟨rfl, rfl⟩ := h; exact ⟨.nil, .nil⟩
    · rintro ⟨h1, h2⟩; cases h1; cases h2; rfl
  | f :: l, hs, cs => by
    have hck : cookies (fields (f :: l)) = if isCookie f then f.value.getD [] :: cookies (fields l) else cookies (fields l) := by
      unfold cookies fields isCookie
      rw [List.map_cons, List.filter_cons]
      by_cases h : f.name.getD [] = b!"cookie"
      · simp [h]
      · simp [h]
    rw [hck]
    unfold pyHeader
    constructor
    · intro h
      split at h
      · next n v h1 h2 =>
        split at h
        · simp at h
        · next hs' cs' h3 =>
          injection h with h; injection h with ha hb
          obtain ⟨i1, i2⟩ := (pyHeader_iff l hs' cs').1 h3
          subst ha; subst hb
          refine ⟨.cons ⟨(decode_iff _ _).1 h1, (decode_iff _ _).1 h2⟩ i1, ?_⟩
          split
          · exact .cons ((decode_iff _ _).1 h2) i2
          · exact i2
      · simp at h
    · rintro ⟨h1, h2⟩
      cases h1 with
      | cons ha hb =>
        next q m =>
        simp only [(decode_iff _ _).2 ha.1, (decode_iff _ _).2 ha.2]
        by_cases hc : isCookie f = true
        · rw [if_pos hc] at h2
          cases h2 with
          | cons hx hy =>
            next x t =>
            rw [(pyHeader_iff l m t).2 ⟨hb, hy⟩]
            have : x = q.2 := by
              have e1 := (decode_iff _ _).2 hx
              have e2 := (decode_iff _ _).2 ha.2
              rw [e1] at e2; exact Option.some.inj e2
            subst this
            simp only [if_pos hc]
        · rw [if_neg hc] at h2
          rw [(pyHeader_iff l m cs).2 ⟨hb, h2⟩]
          simp only [if_neg hc]

/-- The dictionary says what was sent: every text is the one whose UTF-8 form was received, in the same order; the
cookies are the values of the fields called `cookie`; the body is the same bytes. -/
structure Faithful (r : CRequest) (p : PyRequest) : Prop where
  uri : IsText r.uri p.uri
  query : (r.query = none ∧ p.query = none) ∨ ∃ q s, r.query = some q ∧ p.query = some s ∧ IsText q s
  params : All₂ PairText r.params p.params
  header : All₂ PairText (fields r.header) p.header
  cookie : All₂ IsText (cookies (fields r.header)) p.cookie
  body : p.body = r.body

/-- **C97 (partial).** For every request: the handler is called with a dictionary exactly if one says what was sent,
and then with that one.  Missing: what happens otherwise, below. -/
theorem C97_dictionary_partial (r : CRequest) (p : PyRequest) : pyRequest r = .call p ↔ Faithful r p := by
  unfold pyRequest
  constructor
  · intro h
    split at h
    · simp at h
    · next uri hu =>
      split at h
      · simp at h
      · next query hq =>
        split at h
        · simp at h
        · next params hp =>
          split at h
          · simp at h
          · next hs cs hh =>
            injection h with h
            subst h
            obtain ⟨i1, i2⟩ := (pyHeader_iff _ _ _).1 hh
            refine ⟨(decode_iff _ _).1 hu, ?_, (pyParams_iff _ _).1 hp, i1, i2, rfl⟩
            cases hrq : r.query with
            | none => rw [hrq] at hq; exact Or.inl ⟨rfl, (Option.some.inj hq).symm⟩
            | some q =>
              rw [hrq] at hq
              simp only at hq
              cases hd : decodeStrict q with
              | none => rw [hd] at hq; simp at hq
              | some s =>
                rw [hd] at hq
                exact Or.inr ⟨q, s, rfl, (Option.some.inj hq).symm, (decode_iff _ _).1 hd⟩
  · intro h
    obtain ⟨h1, h2, h3, h4, h5, h6⟩ := h
    have e1 := (decode_iff _ _).2 h1
    have e3 := (pyParams_iff _ _).2 h3
    have e4 := (pyHeader_iff _ _ _).2 ⟨h4, h5⟩
    obtain ⟨uri, query, params, hs, cs, body⟩ := p
    simp only at e1 e3 e4 h2 h6
    subst h6
    rcases h2 with ⟨hq, rfl⟩ | ⟨q, s, hq, rfl, hs'⟩
    · simp only [e1, e3, e4, hq]
    · simp only [e1, e3, e4, hq, (decode_iff _ _).2 hs', Option.map_some]

/-- Sequences of bytes that are the UTF-8 form of no text. -/
def NotText (bs : Bytes) : Prop := ∀ s, ¬ IsText bs s

theorem decode_none {bs : Bytes} (h : NotText bs) : decodeStrict bs = none := by
  cases e : decodeStrict bs with
  | none => rfl
  | some s => exact absurd ((decode_iff _ _).1 e) (h s)

/-- **C97 refuted.** A path, query or header field that is not UTF-8 is not refused: a NULL object is stored in the
dictionary, which is undefined; for every such request whose path parameters are texts.  (HTTP/2 fields may hold any
bytes.) -/
theorem C97_not_utf8_undefined_refuted (r : CRequest) (hp : ∃ m, All₂ PairText r.params m)
    (h : NotText r.uri ∨ (∃ q, r.query = some q ∧ NotText q) ∨ ∃ p ∈ fields r.header, NotText p.1 ∨ NotText p.2) :
    pyRequest r = .undefined := by
  obtain ⟨m, hm⟩ := hp
  have e3 := (pyParams_iff _ _).2 hm
  have hh : (∃ p ∈ fields r.header, NotText p.1 ∨ NotText p.2) → pyHeader r.header = none := by
    rintro ⟨p, hp, hn⟩
    obtain ⟨f, hf, rfl⟩ := List.mem_map.1 hp
    have : ∀ l : List Header.HField, f ∈ l → pyHeader l = none := by
      intro l
      induction l with
      | nil => simp
      | cons g l ih =>
        intro hm
        unfold pyHeader
        rcases List.mem_cons.1 hm with rfl | hm
        · rcases hn with hn | hn
          · rw [decode_none hn]
          · rw [decode_none hn]
            cases decodeStrict (f.name.getD []) <;> rfl
        · rw [ih hm]
          cases decodeStrict (g.name.getD []) <;> cases decodeStrict (g.value.getD []) <;> rfl
    exact this _ hf
  unfold pyRequest
  cases hu : decodeStrict r.uri with
  | none => rfl
  | some u =>
    simp only
    rcases h with h | ⟨q, hq, hn⟩ | h
    · rw [decode_none h] at hu; simp at hu
    · rw [hq]; simp only [decode_none hn, Option.map_none]
    · rw [e3, hh h]
      cases hq : r.query with
      | none => rfl
      | some q =>
        simp only
        cases decodeStrict q <;> rfl

/-- The bytes 0xC0, 0xC1 and from 0xF5 on are in no UTF-8 text. -/
theorem byte_not_text {bs : Bytes} {b : Nat} (h : b ∈ bs) (hb : b = 0xC0 ∨ b = 0xC1 ∨ 0xF5 ≤ b) : NotText bs := by
  rintro s ⟨rfl, hs⟩
  obtain ⟨c, hc, hm⟩ := List.mem_flatMap.1 h
  obtain ⟨h1, h2⟩ := hs c hc
  unfold enc at hm
  split at hm
  · simp only [List.mem_cons, List.not_mem_nil, or_false] at hm; omega
  · split at hm
    · simp only [List.mem_cons, List.not_mem_nil, or_false] at hm; omega
    · split at hm
      · simp only [List.mem_cons, List.not_mem_nil, or_false] at hm; omega
      · simp only [List.mem_cons, List.not_mem_nil, or_false] at hm; omega

example : NotText [0x66, 0xFF] := byte_not_text (b := 0xFF) (by simp) (by omega)

/-- **C97, refusal.** A request whose path and query are texts and one of whose path parameters is not UTF-8 is answered
with a 500, whatever its header. -/
theorem C97_bad_parameter_refused (r : CRequest) (u : Str) (hu : IsText r.uri u) (hq : ∀ q, r.query = some q → ∃ s, IsText q s)
    (h : ∃ p ∈ r.params, NotText p.1 ∨ NotText p.2) : pyRequest r = .error := by
  obtain ⟨p, hp, hn⟩ := h
  have hpp : ∀ l : List (Bytes × Bytes), p ∈ l → pyParams l = none := by
    intro l
    induction l with
    | nil => simp
    | cons g l ih =>
      intro hm
      obtain ⟨n, v⟩ := g
      unfold pyParams
      rcases List.mem_cons.1 hm with rfl | hm
      · rcases hn with hn | hn
        · simp only [decode_none hn]
        · simp only [decode_none hn]
          cases decodeStrict n <;> rfl
      · simp only [ih hm]
        cases decodeStrict n <;> cases decodeStrict v <;> rfl
  unfold pyRequest
  simp only [(decode_iff _ _).2 hu, hpp _ hp]
  cases hrq : r.query with
  | none => rfl
  | some q =>
    obtain ⟨s, hs⟩ := hq q hrq
    simp only [(decode_iff _ _).2 hs, Option.map_some]

example : pyRequest ⟨b!"/a", none, [(b!"id", [0xFF])], [⟨some b!"x", some [0xFF]⟩], none⟩ = .error := by decide +kernel

/-- **C97, plain ASCII.** A request whose texts are ASCII, as all of HTTP/1.1 is, reaches the handler character for
character. -/
theorem C97_ascii_request_seen (r : CRequest) (h1 : ∀ c ∈ r.uri, c < 128) (h2 : ∀ q, r.query = some q → ∀ c ∈ q, c < 128)
    (h3 : ∀ p ∈ r.params, (∀ c ∈ p.1, c < 128) ∧ ∀ c ∈ p.2, c < 128)
    (h4 : ∀ p ∈ fields r.header, (∀ c ∈ p.1, c < 128) ∧ ∀ c ∈ p.2, c < 128) :
    pyRequest r = .call ⟨r.uri, r.query, r.params, fields r.header, cookies (fields r.header), r.body⟩ := by
  have ha : ∀ s : Bytes, (∀ c ∈ s, c < 128) → IsText s s := fun s hs =>
    ⟨PyArgs.utf8_ascii s hs, fun c hc => ⟨by have := hs c hc; omega, by have := hs c hc; omega⟩⟩
  have hp : ∀ l : List (Bytes × Bytes), (∀ p ∈ l, (∀ c ∈ p.1, c < 128) ∧ ∀ c ∈ p.2, c < 128) → All₂ PairText l l := by
    intro l
    induction l with
    | nil => intro _; exact .nil
    | cons p l ih => intro h; exact .cons ⟨ha _ (h p (by simp)).1, ha _ (h p (by simp)).2⟩ (ih fun q hq => h q (by simp [hq]))
  have ht : ∀ l : List Bytes, (∀ s ∈ l, ∀ c ∈ s, c < 128) → All₂ IsText l l := by
    intro l
    induction l with
    | nil => intro _; exact .nil
    | cons p l ih => intro h; exact .cons (ha _ (h p (by simp))) (ih fun q hq => h q (by simp [hq]))
  rw [C97_dictionary_partial]
  refine ⟨ha _ h1, ?_, hp _ h3, hp _ h4, ht _ ?_, rfl⟩
  · cases hq : r.query with
    | none => exact Or.inl ⟨rfl, rfl⟩
    | some q => exact Or.inr ⟨q, q, rfl, rfl, ha _ (h2 q hq)⟩
  · intro s hs
    obtain ⟨p, hp, rfl⟩ := List.mem_map.1 hs
    exact (h4 p (List.mem_filter.1 hp).1).2

example : pyRequest ⟨b!"/a", some b!"x=1", [(b!"id", b!"7")], [⟨some b!"host", some b!"h"⟩, ⟨some b!"cookie", some b!"k=v"⟩, ⟨some b!"x", none⟩], some [0, 255]⟩ =
    .call ⟨b!"/a", some b!"x=1", [(b!"id", b!"7")], [(b!"host", b!"h"), (b!"cookie", b!"k=v"), (b!"x", [])], [b!"k=v"], some [0, 255]⟩ := by
  decide +kernel

example : pyRequest ⟨b!"/", none, [], [⟨some b!"x", some [0xFF]⟩], none⟩ = .undefined := by decide +kernel

end Fly.PyReq
