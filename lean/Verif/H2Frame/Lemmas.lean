import Verif.H2Frame.Model
import Verif.Buffer.Lemmas

set_option linter.all false

namespace Fly.H2
open Fly.Buffer

theorem takeSlow_spec (n : Nat) (c : Cursor) (h : NE c) (hn : n ≤ c.flat.length) :
    ∃ r, takeSlow n c = some (c.flat.take n, r) ∧
      (n < c.flat.length → ∃ c', r = some c' ∧ NE c' ∧ c'.flat = c.flat.drop n) := by
  induction n generalizing c with
  | zero => exact ⟨some c, by simp [takeSlow], fun _ => ⟨c, rfl, h, rfl⟩⟩
  | succ n ih =>
    obtain ⟨x, t, h1, h2⟩ := cur_head h
    cases hf : c.flat with
    | nil => rw [hf] at h2; simp at h2
    | cons y u =>
      rw [hf] at h2 hn; simp at h2 hn
      subst h2
      unfold takeSlow
      rw [h1]
      simp only
      by_cases hu : u = []
      · have hn0 : n = 0 := by rw [hu] at hn; simpa using hn
        have hadv : advance c 1 = none := by
          obtain ⟨cur, rest⟩ := c
          simp only at h1
          subst h1
          cases rest with
          | nil =>
            simp [Cursor.flat, hu] at hf
            subst hf; rfl
          | cons r rs =>
            have := h.rest r (by simp)
            simp [Cursor.flat, hu] at hf
            exact absurd hf.2.1 this
        rw [hadv, hn0, hu]
        exact ⟨none, by simp, by simp⟩
      · have hul := List.length_pos_iff.2 hu
        obtain ⟨c', e1, e2, e3⟩ := advance_spec c h 1 (by rw [hf]; simp; omega)
        rw [hf] at e3; simp at e3
        obtain ⟨r, f1, f2⟩ := ih c' e2 (by rw [e3]; exact hn)
        rw [e1]
        simp only [f1, e3]
        refine ⟨r, by simp, ?_⟩
        intro hlt
        obtain ⟨c'', g1, g2, g3⟩ := f2 (by rw [e3]; simpa using hlt)
        exact ⟨c'', g1, g2, by rw [g3, e3]; simp⟩

theorem takeN_spec (n : Nat) (c : Cursor) (h : NE c) (hn : n ≤ c.flat.length) :
    ∃ r, takeN n c = some (c.flat.take n, r) ∧
      (n < c.flat.length → ∃ c', r = some c' ∧ NE c' ∧ c'.flat = c.flat.drop n) := by
  unfold takeN
  by_cases hc : c.cur.length ≤ n
  · rw [if_pos hc]; exact takeSlow_spec n c h hn
  · rw [if_neg hc]
    refine ⟨some { cur := c.cur.drop n, rest := c.rest }, ?_, fun _ => ⟨_, rfl, ⟨?_, h.rest⟩, ?_⟩⟩
    · simp only [Cursor.flat]
      rw [List.take_append_of_le_length (by omega)]
    · intro he
      have := congrArg List.length he
      simp at this; omega
    · simp only [Cursor.flat]
      rw [List.drop_append_of_le_length (by omega)]

theorem byteAt_spec (i : Nat) (c : Cursor) (h : NE c) (hi : i < c.flat.length) : byteAt i c = c.flat[i]? := by
  unfold byteAt
  by_cases hc : c.cur.length ≤ i
  · rw [if_pos hc]
    obtain ⟨c', e1, e2, e3⟩ := advance_spec c h i hi
    obtain ⟨x, t, h1, h2⟩ := cur_head e2
    rw [e1]
    simp only [Option.bind_some, h1, List.head?_cons]
    rw [e3] at h2
    rw [← h2, List.head?_drop]
  · rw [if_neg hc]
    simp only [Cursor.flat]
    rw [List.getElem?_append_left (by omega)]

theorem sidOf_spec (c : Cursor) (h : NE c) (a b d e : Nat) (t : Bytes) (hf : c.flat.drop 5 = a :: b :: d :: e :: t) :
    sidOf c = some (be [clearTop a, b, d, e]) := by
  have hlen : 9 ≤ c.flat.length := by
    have := congrArg List.length hf
    simp at this; omega
  unfold sidOf
  by_cases hc : c.cur.length ≤ 9
  · rw [if_pos hc]
    obtain ⟨c', e1, e2, e3⟩ := advance_spec c h 5 (by omega)
    obtain ⟨r, f1, _⟩ := takeSlow_spec 4 c' e2 (by rw [e3]; simp; omega)
    rw [e1]
    simp [f1, e3, hf]
  · rw [if_neg hc]
    have : c.flat.drop 5 = c.cur.drop 5 ++ c.rest.flatten := by
      simp only [Cursor.flat]
      rw [List.drop_append_of_le_length (by omega)]
    rw [hf] at this
    have hl : 4 ≤ (c.cur.drop 5).length := by simp; omega
    generalize c.cur.drop 5 = w at this hl
    match w, hl with
    | a' :: b' :: d' :: e' :: t', _ =>
      simp at this
      obtain ⟨rfl, rfl, rfl, rfl, _⟩ := this
      simp

theorem payloadOf_spec (c : Cursor) (h : NE c) (hl : 9 < c.flat.length) :
    ∃ c', payloadOf c = some c' ∧ NE c' ∧ c'.flat = c.flat.drop 9 := by
  unfold payloadOf
  by_cases hc : c.cur.length ≤ 9
  · rw [if_pos hc]; exact advance_spec c h 9 hl
  · rw [if_neg hc]
    refine ⟨_, rfl, ⟨?_, h.rest⟩, ?_⟩
    · intro he
      have := congrArg List.length he
      simp at this; omega
    · simp only [Cursor.flat]
      rw [List.drop_append_of_le_length (by omega)]

theorem toBE_length (n v : Nat) : (toBE n v).length = n := by
  induction n with
  | zero => rfl
  | succ n ih => simp [toBE, ih]

theorem be_toBE (n v : Nat) : be (toBE n v) = v % 256 ^ n := by
  induction n with
  | zero => simp [toBE, be, Nat.mod_one]
  | succ n ih =>
    simp only [toBE, be, toBE_length, ih]
    rw [Nat.pow_succ, Nat.mod_mul, Nat.mul_comm]
    omega

theorem toBE_be (bs : Bytes) (h : ∀ b ∈ bs, b < 256) : toBE bs.length (be bs) = bs := by
  have hlt : ∀ bs : Bytes, (∀ b ∈ bs, b < 256) → be bs < 256 ^ bs.length := by
    intro bs
    induction bs with
    | nil => intro _; simp [be]
    | cons b bs ih =>
      intro hb
      have h1 := ih (fun x hx => hb x (by simp [hx]))
      have h2 := hb b (by simp)
      simp only [be, List.length_cons, Nat.pow_succ]
      have : b * 256 ^ bs.length + 256 ^ bs.length ≤ 256 ^ bs.length * 256 := by
        have : (b + 1) * 256 ^ bs.length ≤ 256 * 256 ^ bs.length := Nat.mul_le_mul_right _ (by omega)
        rw [Nat.add_mul, Nat.one_mul] at this
        rw [Nat.mul_comm (256 ^ bs.length)]; exact this
      omega
  have hmod : ∀ n v k, toBE n (k * 256 ^ n + v) = toBE n v := by
    intro n
    induction n with
    | zero => intros; rfl
    | succ n ih =>
      intro v k
      simp only [toBE, Nat.pow_succ]
      congr 1
      · rw [show k * (256 ^ n * 256) + v = v + 256 ^ n * (k * 256) by
          rw [Nat.add_comm, ← Nat.mul_assoc, Nat.mul_comm k, Nat.mul_assoc]]
        rw [Nat.add_mul_div_left _ _ (by exact Nat.pow_pos (by omega))]
        omega
      · rw [show k * (256 ^ n * 256) + v = (k * 256) * 256 ^ n + v by
          rw [Nat.mul_comm (256 ^ n), Nat.mul_assoc]]
        exact ih v (k * 256)
  induction bs with
  | nil => rfl
  | cons b bs ih =>
    have h1 := hlt bs (fun x hx => h x (by simp [hx]))
    simp only [List.length_cons, toBE, be]
    rw [hmod, ih (fun x hx => h x (by simp [hx]))]
    congr 1
    rw [Nat.add_comm, Nat.add_mul_div_right _ _ (Nat.pow_pos (by omega)), Nat.div_eq_of_lt h1]
    have := h b (by simp)
    omega

theorem or128 (b : Nat) (h : b < 128) : (128 ||| b) = 128 + b := by
  have h1 := Nat.two_pow_add_eq_or_of_lt (i := 7) (b := b) (by simpa using h) 1
  simpa using h1.symm

theorem clearTop_or (r : Bool) (b : Nat) (h : b < 128) : clearTop ((if r then 128 else 0) ||| b) = b := by
  cases r
  · simp [clearTop]; omega
  · simp only [if_true, or128 b h, clearTop]; omega

/-- Reading a stored 31-bit field gives the field back. -/
theorem be_sid (r : Bool) (sid : Nat) (h : sid < 2 ^ 31) :
    be (clearTop ((if r then 128 else 0) ||| sid / 256 ^ 3 % 256) :: toBE 3 sid) = sid := by
  have hb : sid / 256 ^ 3 % 256 < 128 := by
    have : sid / 256 ^ 3 < 128 := by
      apply Nat.div_lt_of_lt_mul; simpa using h
    omega
  rw [clearTop_or r _ hb]
  have := be_toBE 4 sid
  simp only [toBE] at this ⊢
  rw [this]
  apply Nat.mod_eq_of_lt
  simp at h ⊢; omega

/-- One turn of the settings loop, errors sticking. -/
def stepSetting (r : SettingsResult) (p : Nat × Nat) : SettingsResult :=
  match r with
  | .ok s => applySetting s p.1 p.2
  | e => e

theorem stepSetting_stuck (l : List (Nat × Nat)) (e : SettingsResult) (he : ∀ s, e ≠ .ok s) :
    l.foldl stepSetting e = e := by
  induction l with
  | nil => rfl
  | cons p l ih =>
    cases e with
    | ok s => exact absurd rfl (he s)
    | protocolError => simpa [stepSetting] using ih
    | flowControlError => simpa [stepSetting] using ih

theorem peerSettings_ok (s : Settings) (l : List (Nat × Nat)) (c : Option Cursor) (rest : Bytes)
    (hc : ∃ cu, c = some cu ∧ NE cu ∧ cu.flat = (l.map fun p => settingBytes p.1 p.2).flatten ++ rest)
    (hr : rest ≠ []) (hv : ∀ p ∈ l, p.1 < 2 ^ 16 ∧ p.2 < 2 ^ 32) :
    peerSettings s l.length c =
      some (l.foldl stepSetting (.ok s)) := by
  induction l generalizing s c with
  | nil => rfl
  | cons p l ih =>
    obtain ⟨id, v⟩ := p
    obtain ⟨cu, rfl, hne, hfl⟩ := hc
    obtain ⟨h1, h2⟩ := hv (id, v) (by simp)
    simp only [List.length_cons, peerSettings, List.foldl_cons]
    have hfl' : cu.flat = toBE 2 id ++ (toBE 4 v ++ ((l.map fun p => settingBytes p.1 p.2).flatten ++ rest)) := by
      rw [hfl]; simp [settingBytes]
    have hrl := List.length_pos_iff.2 hr
    have hlen : cu.flat.length = 2 + (4 + (((l.map fun p => settingBytes p.1 p.2).flatten ++ rest)).length) := by
      rw [hfl']; simp only [List.length_append, toBE_length]
    obtain ⟨r, e1, e2⟩ := takeN_spec 2 cu hne (by omega)
    obtain ⟨c1, rfl, hn1, hf1⟩ := e2 (by omega)
    have ht2 : cu.flat.take 2 = toBE 2 id := by
      rw [hfl', List.take_append_of_le_length (by rw [toBE_length]; omega), List.take_of_length_le (by rw [toBE_length]; omega)]
    have hd2 : cu.flat.drop 2 = toBE 4 v ++ ((l.map fun p => settingBytes p.1 p.2).flatten ++ rest) := by
      rw [hfl', List.drop_append, toBE_length, List.drop_of_length_le (by rw [toBE_length]; omega)]; rfl
    simp only [read16, e1, Option.map_some, ht2, be_toBE]
    rw [hd2] at hf1
    have hl1 : c1.flat.length = 4 + (((l.map fun p => settingBytes p.1 p.2).flatten ++ rest)).length := by
      rw [hf1]; simp only [List.length_append, toBE_length]
    have hl2 : 0 < (((l.map fun p => settingBytes p.1 p.2).flatten ++ rest)).length := by
      rw [List.length_append]; omega
    obtain ⟨r, e3, e4⟩ := takeN_spec 4 c1 hn1 (by omega)
    obtain ⟨c2, rfl, hn2, hf2⟩ := e4 (by omega)
    have ht4 : c1.flat.take 4 = toBE 4 v := by
      rw [hf1, List.take_append_of_le_length (by rw [toBE_length]; omega), List.take_of_length_le (by rw [toBE_length]; omega)]
    have hd4 : c1.flat.drop 4 = (l.map fun p => settingBytes p.1 p.2).flatten ++ rest := by
      rw [hf1, List.drop_append, toBE_length, List.drop_of_length_le (by rw [toBE_length]; omega)]; rfl
    simp only [read32, e3, Option.map_some, ht4, be_toBE]
    rw [hd4] at hf2
    rw [Nat.mod_eq_of_lt (by simpa using h1), Nat.mod_eq_of_lt (by simpa using h2)]
    cases ha : applySetting s id v with
    | ok s' =>
      simp only [stepSetting, ha]
      exact ih s' _ ⟨c2, rfl, hn2, hf2⟩ (fun q hq => hv q (by simp [hq]))
    | protocolError => simp only [stepSetting, ha]; rw [stepSetting_stuck]; simp
    | flowControlError => simp only [stepSetting, ha]; rw [stepSetting_stuck]; simp

/-! ## window update combining -/

def total (q : YetSend) : Nat := (q.map fun o => o.getD 0).sum

def Good (q : YetSend) : Prop := ∀ s, some s ∈ q → 1 ≤ s ∧ s ≤ windowSizeMax

theorem total_eraseIdx (q : YetSend) (i : Nat) (s : Nat) (h : q[i]? = some (some s)) :
    total q = total (q.eraseIdx i) + s := by
  induction q generalizing i with
  | nil => simp at h
  | cons a q ih =>
    cases i with
    | zero => simp at h; subst h; simp [total]; omega
    | succ i =>
      simp at h
      have := ih i h
      simp [total] at this ⊢; omega

theorem others_eraseIdx (q : YetSend) (i : Nat) (s : Nat) (h : q[i]? = some (some s)) :
    (q.eraseIdx i).filter (· == none) = q.filter (· == none) := by
  induction q generalizing i with
  | nil => simp at h
  | cons a q ih =>
    cases i with
    | zero => simp at h; subst h; simp
    | succ i =>
      simp at h
      rw [List.eraseIdx_cons_succ, List.filter_cons, List.filter_cons, ih i h]

theorem combine_spec (fuel : Nat) (q : YetSend) (u : Nat) (hq : Good q) (h1 : 1 ≤ u) (h2 : u ≤ windowSizeMax) :
    let r := combine fuel q u
    Good r.1 ∧ 1 ≤ r.2 ∧ r.2 ≤ windowSizeMax ∧ total r.1 + r.2 = total q + u ∧
      r.1.filter (· == none) = q.filter (· == none) := by
  induction fuel generalizing q u with
  | zero => exact ⟨hq, h1, h2, rfl, rfl⟩
  | succ fuel ih =>
    unfold combine
    split
    · exact ⟨hq, h1, h2, rfl, rfl⟩
    · next i hi =>
      have hi' := hi
      rw [List.findIdx?_eq_some_iff_getElem] at hi'
      obtain ⟨hlt, hp, _⟩ := hi'
      split
      · next s hs =>
        have hmem : some s ∈ q := List.mem_of_getElem? hs
        have hsb := hq s hmem
        have hqs : q[i] = some s := by
          rw [List.getElem?_eq_getElem hlt] at hs; simpa using hs
        rw [hqs] at hp
        simp only [decide_eq_true_eq] at hp
        unfold windowSizeMax at hp h2 hsb
        have hsum : (u + s) % 2 ^ 32 = u + s := Nat.mod_eq_of_lt (by omega)
        rw [hsum] at hp ⊢
        have hg : Good (q.eraseIdx i) := fun x hx => hq x (List.mem_of_mem_eraseIdx hx)
        have hrec := ih (q.eraseIdx i) (u + s) hg (by omega) (by unfold windowSizeMax; omega)
        have ht := total_eraseIdx q i s hs
        have ho := others_eraseIdx q i s hs
        obtain ⟨g1, g2, g3, g4, g5⟩ := hrec
        exact ⟨g1, g2, g3, by omega, by rw [g5, ho]⟩
      · exact ⟨hq, h1, h2, rfl, rfl⟩

theorem read31nb_windowPayload (u : Nat) (h : u ≤ windowSizeMax) : read31nb (windowPayload u false) = u := by
  have := be_sid false u (by unfold windowSizeMax at h; omega)
  simp only [toBE] at this
  simp only [windowPayload, toBE, read31nb]
  exact this

end Fly.H2
