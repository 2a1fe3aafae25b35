import Verif.Session.Spec
import Verif.PyArgs.Props

/-! # C182: a cookie the application sets comes back -/

namespace Fly.Session
open Fly.PyArgs (Str Cookie SameSite splitOn)
open Fly.PyArgs.Spec (Trimmed)

theorem pieces_eq (sep : Nat) : ∀ s, pieces sep s = splitOn sep s
  | [] => rfl
  | x :: xs => by
    rw [pieces, splitOn, pieces_eq sep xs]
    have := PyArgs.splitOn_ne sep xs
    cases h : splitOn sep xs with
    | nil => exact absurd h this
    | cons p ps => rfl

theorem cutAt_append (sep : Nat) (a b : Str) (h : sep ∉ a) : cutAt sep (a ++ sep :: b) = (a, some b) := by
  induction a with
  | nil => simp [cutAt]
  | cons x a ih =>
    have hx : x ≠ sep := fun e => h (by rw [e]; exact List.mem_cons_self)
    rw [List.cons_append, cutAt, if_neg hx, ih (fun e => h (List.mem_cons_of_mem _ e))]

theorem cutAt_none (sep : Nat) (a : Str) (h : sep ∉ a) : cutAt sep a = (a, none) := by
  induction a with
  | nil => rfl
  | cons x a ih =>
    have hx : x ≠ sep := fun e => h (by rw [e]; exact List.mem_cons_self)
    rw [cutAt, if_neg hx, ih (fun e => h (List.mem_cons_of_mem _ e))]

theorem wsp_false {c : Nat} (h : (33 ≤ c ∧ c ≤ 126) ∨ 0x3001 ≤ c) : wsp c = false := by
  unfold wsp
  simp only [Bool.or_eq_false_iff, beq_eq_false_iff_ne]
  omega

theorem dropWhile_wsp (s : Str) (h : ∀ c, s.head? = some c → wsp c = false) : s.dropWhile wsp = s := by
  cases s with
  | nil => rfl
  | cons x s => rw [List.dropWhile, h x rfl]

theorem trim_trimmed (s : Str) (h : Trimmed s) : trim s = s := by
  unfold trim
  rw [dropWhile_wsp s (fun c hc => wsp_false (h.1 c hc)),
    dropWhile_wsp s.reverse (fun c hc => wsp_false (h.2 c (by rw [List.head?_reverse] at hc; exact hc))),
    List.reverse_reverse]

theorem trim_space (s : Str) : trim (32 :: s) = trim s := by
  unfold trim
  rw [List.dropWhile, show wsp 32 = true from rfl]

/-! ## Numbers -/

theorem dec_nat (n : Nat) : PyArgs.dec (n : Int) = (Nat.toDigits 10 n).map Char.toNat := by
  unfold PyArgs.dec
  have : toString (n : Int) = n.repr := rfl
  rw [this, Nat.toList_repr]

theorem dec_neg (n : Nat) (h : n ≠ 0) : PyArgs.dec (-(n : Int)) = 45 :: (Nat.toDigits 10 n).map Char.toNat := by
  unfold PyArgs.dec
  obtain ⟨m, rfl⟩ : ∃ m, n = m + 1 := ⟨n - 1, by omega⟩
  have h1 : -((m + 1 : Nat) : Int) = Int.negSucc m := rfl
  have h2 : toString (Int.negSucc m) = "-" ++ (m + 1).repr := rfl
  rw [h1, h2, String.toList_append, Nat.toList_repr]
  rfl

theorem digit_of {c : Char} (h : c.isDigit = true) : digit c.toNat = true := by
  unfold Char.isDigit at h
  unfold digit
  simp only [Bool.and_eq_true, decide_eq_true_eq] at h ⊢
  have a := UInt32.le_iff_toNat_le.1 h.1
  have b := UInt32.le_iff_toNat_le.1 h.2
  exact ⟨a, b⟩

theorem all_digits (n : Nat) : ((Nat.toDigits 10 n).map Char.toNat).all digit = true := by
  rw [List.all_eq_true]
  intro x hx
  obtain ⟨c, hc, rfl⟩ := List.mem_map.1 hx
  exact digit_of (Nat.isDigit_of_mem_toDigits (by decide) (by decide) hc)

theorem number_digits (n : Nat) : number ((Nat.toDigits 10 n).map Char.toNat) = n := by
  unfold number
  rw [List.foldl_map]
  have h := @Nat.ofDigitChars_ten_toDigits n
  rw [Nat.ofDigitChars_eq_foldl] at h
  exact h

theorem digits_ne (n : Nat) : (Nat.toDigits 10 n).map Char.toNat ≠ [] := by
  intro h
  exact Nat.toDigits_ne_nil (List.map_eq_nil_iff.1 h)

theorem age_dec (n : Int) : age (PyArgs.dec n) = some n := by
  rcases Int.lt_or_le n 0 with h | h
  · obtain ⟨m, rfl⟩ : ∃ m : Nat, n = -(m : Int) := ⟨n.natAbs, by omega⟩
    rw [dec_neg m (by omega), age, if_pos ⟨digits_ne m, all_digits m⟩, number_digits]
  · obtain ⟨m, rfl⟩ : ∃ m : Nat, n = (m : Int) := ⟨n.natAbs, by omega⟩
    rw [dec_nat]
    have hd := all_digits m
    have hn := digits_ne m
    have hv := number_digits m
    generalize (Nat.toDigits 10 m).map Char.toNat = l at *
    cases l with
    | nil => exact absurd rfl hn
    | cons x l =>
      have hx : x ≠ 45 := by
        intro e
        subst e
        simp [digit] at hd
      unfold age
      split
      · rename_i h0
        cases h0
      · rename_i h0
        cases h0
        exact absurd rfl hx
      · rename_i h0
        rw [if_pos hd, hv]

theorem dec_chars (n : Int) : ∀ c ∈ PyArgs.dec n, c = 45 ∨ (48 ≤ c ∧ c ≤ 57) := by
  have key : ∀ m : Nat, ∀ c ∈ (Nat.toDigits 10 m).map Char.toNat, 48 ≤ c ∧ c ≤ 57 := by
    intro m c hc
    have := List.all_eq_true.1 (all_digits m) c hc
    unfold digit at this
    simpa using this
  intro c hc
  rcases Int.lt_or_le n 0 with h | h
  · obtain ⟨m, rfl⟩ : ∃ m : Nat, n = -(m : Int) := ⟨n.natAbs, by omega⟩
    rw [dec_neg m (by omega)] at hc
    rcases List.mem_cons.1 hc with rfl | hc
    · exact Or.inl rfl
    · exact Or.inr (key m c hc)
  · obtain ⟨m, rfl⟩ : ∃ m : Nat, n = (m : Int) := ⟨n.natAbs, by omega⟩
    rw [dec_nat] at hc
    exact Or.inr (key m c hc)

theorem dec_trimmed (n : Int) : Trimmed (PyArgs.dec n) := by
  constructor
  · intro c hc
    have := dec_chars n c (List.mem_of_mem_head? hc)
    omega
  · intro c hc
    have := dec_chars n c (List.mem_of_mem_getLast? hc)
    omega

/-! ## What the client makes of the field -/

/-- The attributes of a simple cookie, as the client splits them. -/
def attrs (c : Cookie) : List Str :=
  (match c.maxAge with | some n => [b!" Max-Age=" ++ PyArgs.dec n] | none => []) ++
  (if c.httpOnly then [b!" HttpOnly"] else []) ++
  (match c.sameSite with | some s => [b!" SameSite=" ++ s.text] | none => [])

theorem text_59 (s : SameSite) : 59 ∉ b!" SameSite=" ++ s.text := by
  cases s <;> decide

theorem split_set (c : Cookie) (h : c.maxAge ≠ some 0) (hs : c.secure = false) (hd : c.domain = none)
    (hp : c.path = none) (h1 : 59 ∉ c.name) (h2 : 59 ∉ c.value) :
    pieces 59 (setCookie c) = (c.name ++ 61 :: c.value) :: attrs c := by
  have h0 : 59 ∉ c.name ++ 61 :: c.value := by
    simp only [List.mem_append, List.mem_cons, not_or]
    exact ⟨h1, by decide, h2⟩
  have e1 : setCookie c = (c.name ++ 61 :: c.value) ++ (attrs c).flatMap (fun a => 59 :: a) := by
    unfold setCookie PyArgs.cookieValue attrs
    obtain ⟨name, value, maxAge, secure, httpOnly, domain, path, sameSite⟩ := c
    simp only at h hs hd hp ⊢
    subst hs hd hp
    cases maxAge with
    | none => cases httpOnly <;> cases sameSite <;> simp
    | some n =>
      have hn : n ≠ 0 := fun e => h (by rw [e])
      cases httpOnly <;> cases sameSite <;> simp [hn]
  have h3 : ∀ a ∈ attrs c, 59 ∉ a := by
    intro a ha
    unfold attrs at ha
    rw [List.mem_append, List.mem_append] at ha
    rcases ha with (ha | ha) | ha
    · cases hm : c.maxAge with
      | none => rw [hm] at ha; cases ha
      | some n =>
        rw [hm] at ha
        rw [List.mem_singleton.1 ha, List.mem_append, not_or]
        refine ⟨by decide, fun hx => ?_⟩
        have := dec_chars n 59 hx
        omega
    · cases hh : c.httpOnly with
      | false => rw [hh] at ha; cases ha
      | true =>
        rw [hh] at ha
        rw [List.mem_singleton.1 ha]
        decide
    · cases hm : c.sameSite with
      | none => rw [hm] at ha; cases ha
      | some s =>
        rw [hm] at ha
        rw [List.mem_singleton.1 ha]
        exact text_59 s
  rw [e1, pieces_eq]
  generalize attrs c = l at *
  clear e1
  generalize c.name ++ 61 :: c.value = x at *
  clear h1 h2 h hs hd hp
  induction l generalizing x with
  | nil => simp only [List.flatMap_nil, List.append_nil, PyArgs.splitOn_none 59 x h0]
  | cons a l ih =>
    rw [List.flatMap_cons, List.cons_append, PyArgs.splitOn_append 59 x _ h0,
      ih (fun b hb => h3 b (List.mem_cons_of_mem _ hb)) a (h3 a List.mem_cons_self)]

theorem attrs_age (c : Cookie) : ((attrs c).filterMap attrAge).getLast? = c.maxAge := by
  have a1 : ∀ n, attrAge (b!" Max-Age=" ++ PyArgs.dec n) = some n := by
    intro n
    unfold attrAge
    have e : b!" Max-Age=" ++ PyArgs.dec n = b!" Max-Age" ++ 61 :: PyArgs.dec n := rfl
    rw [e, cutAt_append 61 _ _ (by decide)]
    simp only [Option.getD_some, trim_trimmed _ (dec_trimmed n), age_dec]
    rw [if_pos (by decide)]
  have a2 : attrAge b!" HttpOnly" = none := by decide
  have a3 : ∀ s : SameSite, attrAge (b!" SameSite=" ++ s.text) = none := by
    intro s
    cases s <;> decide
  have a1' : ∀ n, attrAge (32 :: 77 :: 97 :: 120 :: 45 :: 65 :: 103 :: 101 :: 61 :: PyArgs.dec n) = some n := a1
  have a3' : ∀ s : SameSite, attrAge (32 :: 83 :: 97 :: 109 :: 101 :: 83 :: 105 :: 116 :: 101 :: 61 :: s.text) = none := a3
  unfold attrs
  cases c.maxAge with
  | none =>
    cases c.httpOnly <;> cases c.sameSite <;> simp [a2, a3']
  | some n =>
    cases c.httpOnly <;> cases c.sameSite <;> simp [a1', a2, a3', List.filterMap_cons]

theorem receive_set (jar : List Entry) (t : Int) (c : Cookie) (h : Simple c) :
    receive jar t (setCookie c) =
      match c.maxAge with
      | none => put ⟨c.name, c.value, none⟩ jar
      | some a => if a ≤ 0 then jar.filter (fun y => y.name ≠ c.name) else put ⟨c.name, c.value, some (t + a)⟩ jar := by
  obtain ⟨h1, h2, h3, h4, h5, h6, h7⟩ := h
  unfold receive
  rw [split_set c h4 h5 h6 h7 h1.1 h3.1]
  simp only
  rw [cutAt_append 61 _ _ h1.2.1]
  simp only
  rw [trim_trimmed _ h1.2.2, trim_trimmed _ h3.2.2, if_neg h2, attrs_age]
  cases c.maxAge <;> rfl

/-! ## The jar -/

/-- The entry of a name. -/
def entry (jar : List Entry) (n : Str) : Option Entry := jar.find? (fun x => x.name = n)

theorem entry_put (x : Entry) (jar : List Entry) (n : Str) :
    entry (put x jar) n = if x.name = n then some x else entry jar n := by
  unfold entry
  induction jar with
  | nil =>
    rw [put]
    by_cases h : x.name = n <;> simp [h]
  | cons y l ih =>
    rw [put]
    by_cases hy : y.name = x.name
    · rw [if_pos hy]
      by_cases h : x.name = n
      · simp [h]
      · have : y.name ≠ n := fun e => h (hy ▸ e)
        simp [h, this]
    · rw [if_neg hy]
      by_cases hn : y.name = n
      · have : x.name ≠ n := fun e => hy (hn.trans e.symm)
        simp [hn, this]
      · rw [List.find?_cons_of_neg (by simpa using hn), ih]
        rw [List.find?_cons_of_neg (by simpa using hn)]

theorem entry_filter (jar : List Entry) (m n : Str) :
    entry (jar.filter (fun y => y.name ≠ m)) n = if m = n then none else entry jar n := by
  unfold entry
  induction jar with
  | nil => by_cases h : m = n <;> simp [h]
  | cons y l ih =>
    by_cases hm : y.name = m
    · rw [List.filter_cons_of_neg (by simpa using hm), ih]
      by_cases h : m = n
      · simp [h]
      · have : y.name ≠ n := fun e => h (hm ▸ e)
        rw [List.find?_cons_of_neg (by simpa using this)]
    · rw [List.filter_cons_of_pos (by simpa using hm)]
      by_cases hn : y.name = n
      · have : m ≠ n := fun e => hm (hn.trans e.symm)
        simp [hn, this]
      · rw [List.find?_cons_of_neg (by simpa using hn), ih, List.find?_cons_of_neg (by simpa using hn)]

/-- What the entry of a name has to be after a call. -/
def entryOf (e : Int × Cookie) : Option Entry :=
  match e.2.maxAge with
  | none => some ⟨e.2.name, e.2.value, none⟩
  | some a => if a ≤ 0 then none else some ⟨e.2.name, e.2.value, some (e.1 + a)⟩

theorem entry_receive (jar : List Entry) (e : Int × Cookie) (h : Simple e.2) (n : Str) :
    entry (receive jar e.1 (setCookie e.2)) n = if e.2.name = n then entryOf e else entry jar n := by
  rw [receive_set jar e.1 e.2 h]
  unfold entryOf
  cases e.2.maxAge with
  | none => exact entry_put _ _ _
  | some a =>
    simp only
    by_cases ha : a ≤ 0
    · rw [if_pos ha, if_pos ha]
      exact entry_filter _ _ _
    · rw [if_neg ha, if_neg ha]
      exact entry_put _ _ _

theorem client_append (h : History) (e : Int × Cookie) :
    client (h ++ [e]) = receive (client h) e.1 (setCookie e.2) := by
  unfold client
  rw [List.foldl_append]
  rfl

theorem lastSet_append (h : History) (e : Int × Cookie) (n : Str) :
    lastSet (h ++ [e]) n = if e.2.name = n then some e else lastSet h n := by
  unfold lastSet
  by_cases hn : e.2.name = n
  · rw [List.filter_append, if_pos hn, List.filter_cons_of_pos (by simpa using hn)]
    simp
  · rw [List.filter_append, if_neg hn, List.filter_cons_of_neg (by simpa using hn)]
    simp

/-- Induction from the end of a list. -/
theorem snoc_induction {α : Type} {P : List α → Prop} (h0 : P []) (h1 : ∀ l a, P l → P (l ++ [a])) (l : List α) : P l := by
  have : ∀ l : List α, P l.reverse := by
    intro l
    induction l with
    | nil => exact h0
    | cons a l ih =>
      rw [List.reverse_cons]
      exact h1 _ _ ih
  have := this l.reverse
  rwa [List.reverse_reverse] at this

theorem entry_client (h : History) (hs : ∀ e ∈ h, Simple e.2) (n : Str) :
    entry (client h) n = (lastSet h n).bind entryOf := by
  induction h using snoc_induction with
  | h0 => rfl
  | h1 l e ih =>
    rw [client_append, entry_receive _ e (hs e (by simp)), lastSet_append,
      ih (fun x hx => hs x (by simp [hx]))]
    by_cases hn : e.2.name = n <;> simp [hn]

theorem put_names (x : Entry) (jar : List Entry) (h : (jar.map (·.name)).Nodup) :
    ((put x jar).map (·.name)).Nodup ∧ ∀ y ∈ put x jar, y = x ∨ y ∈ jar := by
  induction jar with
  | nil => simp [put]
  | cons y l ih =>
    rw [List.map_cons, List.nodup_cons] at h
    rw [put]
    by_cases hy : y.name = x.name
    · rw [if_pos hy, List.map_cons, List.nodup_cons, ← hy]
      refine ⟨h, ?_⟩
      intro z hz
      rcases List.mem_cons.1 hz with hz | hz
      · exact Or.inl hz
      · exact Or.inr (List.mem_cons_of_mem _ hz)
    · rw [if_neg hy, List.map_cons, List.nodup_cons]
      obtain ⟨i1, i2⟩ := ih h.2
      refine ⟨⟨?_, i1⟩, ?_⟩
      · intro hm
        obtain ⟨z, hz, hzn⟩ := List.mem_map.1 hm
        rcases i2 z hz with rfl | hz
        · exact hy hzn.symm
        · exact h.1 (List.mem_map.2 ⟨z, hz, hzn⟩)
      · intro z hz
        rcases List.mem_cons.1 hz with hz | hz
        · exact Or.inr (hz ▸ List.mem_cons_self)
        · rcases i2 z hz with h | h
          · exact Or.inl h
          · exact Or.inr (List.mem_cons_of_mem _ h)

theorem client_names (h : History) (hs : ∀ e ∈ h, Simple e.2) :
    ((client h).map (·.name)).Nodup ∧
    ∀ y ∈ client h, ∃ e ∈ h, e.2.name = y.name ∧ e.2.value = y.value := by
  induction h using snoc_induction with
  | h0 => exact ⟨List.nodup_nil, fun y hy => by cases hy⟩
  | h1 l e ih =>
    obtain ⟨i1, i2⟩ := ih (fun x hx => hs x (by simp [hx]))
    rw [client_append, receive_set _ _ _ (hs e (by simp))]
    have old : ∀ y ∈ client l, ∃ d ∈ l ++ [e], d.2.name = y.name ∧ d.2.value = y.value := by
      intro y hy
      obtain ⟨d, hd, hv⟩ := i2 y hy
      exact ⟨d, by simp [hd], hv⟩
    have new : ∀ till, ((put ⟨e.2.name, e.2.value, till⟩ (client l)).map (·.name)).Nodup ∧
        ∀ y ∈ put ⟨e.2.name, e.2.value, till⟩ (client l), ∃ d ∈ l ++ [e], d.2.name = y.name ∧ d.2.value = y.value := by
      intro till
      obtain ⟨p1, p2⟩ := put_names ⟨e.2.name, e.2.value, till⟩ (client l) i1
      refine ⟨p1, fun y hy => ?_⟩
      rcases p2 y hy with rfl | hy
      · exact ⟨e, by simp, rfl, rfl⟩
      · exact old y hy
    cases e.2.maxAge with
    | none => exact new none
    | some a =>
      simp only
      by_cases ha : a ≤ 0
      · rw [if_pos ha]
        refine ⟨?_, fun y hy => old y (List.mem_filter.1 hy).1⟩
        exact i1.sublist (List.filter_sublist.map _)
      · rw [if_neg ha]
        exact new _

/-- What a handler gets from a jar of plain cookies. -/
theorem param_send (jar : List Entry) (t : Int) (p : Str) (h : ∀ x ∈ jar, Plain x.name ∧ Plain x.value) :
    cookieParam p (send jar t) =
      ((current jar t).find? (fun x => PyArgs.norm x.name = p)).map (·.value) := by
  unfold cookieParam send
  have hc : ∀ x ∈ current jar t, Plain x.name ∧ Plain x.value := fun x hx => h x (List.mem_filter.1 hx).1
  by_cases he : current jar t = []
  · rw [if_pos he, he]
    rfl
  · rw [if_neg he]
    have hmap : (current jar t).map (fun x => x.name ++ b!"=" ++ x.value) =
        ((current jar t).map (fun x => (x.name, x.value))).map (fun c => c.1 ++ 61 :: c.2) := by
      rw [List.map_map]
      exact List.map_congr_left (fun x _ => by simp)
    rw [hmap, PyArgs.C89_partial _ (by simpa using he) (by
      intro c hcm
      obtain ⟨x, hx, rfl⟩ := List.mem_map.1 hcm
      obtain ⟨a, b⟩ := hc x hx
      exact ⟨a.1, a.2.1, a.2.2, b.1, b.2.1, b.2.2⟩)]
    generalize current jar t = l
    induction l with
    | nil => rfl
    | cons x l ih =>
      simp only [List.map_cons, PyArgs.getNamed]
      by_cases hp : PyArgs.norm x.name = p
      · rw [if_pos hp, List.find?_cons_of_pos (by simpa using hp)]
        rfl
      · rw [if_neg hp, ih, List.find?_cons_of_neg (by simpa using hp)]

theorem find_unique {l : List Entry} {p : Entry → Bool} {x : Entry} (hx : x ∈ l) (hp : p x = true)
    (hu : ∀ y ∈ l, p y = true → y = x) : l.find? p = some x := by
  induction l with
  | nil => cases hx
  | cons y l ih =>
    by_cases hy : p y = true
    · rw [List.find?_cons_of_pos hy, hu y List.mem_cons_self hy]
    · rw [List.find?_cons_of_neg hy]
      rcases List.mem_cons.1 hx with rfl | hx
      · exact absurd hp hy
      · exact ih hx (fun z hz => hu z (List.mem_cons_of_mem _ hz))

/-- **C182** (partial: names and values without `;` and `=`, no lifetime of 0, no two names that differ only in capital
letters, `-` and `_`). Whatever cookies the application sets, as often as it does, in whatever order and with whatever
lifetimes: in every later request of the client the parameter of each cookie is the value set last, until its lifetime
is over. -/
theorem C182_cookie_returns_partial (h : History) (hs : ∀ e ∈ h, Simple e.2)
    (hn : ∀ e ∈ h, ∀ e' ∈ h, paramName e.2.name = paramName e'.2.name → e.2.name = e'.2.name)
    (t : Int) (ht : ∀ e ∈ h, e.1 ≤ t) (n : Str) (hmem : ∃ e ∈ h, e.2.name = n) :
    cookieParam (paramName n) (send (client h) t) = wanted h n t := by
  obtain ⟨i1, i2⟩ := client_names h hs
  have hplain : ∀ x ∈ client h, Plain x.name ∧ Plain x.value := by
    intro x hx
    obtain ⟨e, he, h1, h2⟩ := i2 x hx
    exact ⟨h1 ▸ (hs e he).1, h2 ▸ (hs e he).2.2.1⟩
  rw [param_send _ t _ hplain]
  obtain ⟨e0, he0, hn0⟩ := hmem
  have same : ∀ y ∈ client h, PyArgs.norm y.name = paramName n → y.name = n := by
    intro y hy hyn
    obtain ⟨e, he, h1, _⟩ := i2 y hy
    have := hn e he e0 he0 (by
      rw [h1, hn0]
      exact hyn)
    rw [← h1, this, hn0]
  have hent := entry_client h hs n
  have hmemE : ∀ x, entry (client h) n = some x → x ∈ client h ∧ x.name = n := by
    intro x hx
    exact ⟨List.mem_of_find?_eq_some hx, by simpa using List.find?_some hx⟩
  have huniq : ∀ x y, x ∈ client h → y ∈ client h → x.name = y.name → x = y := by
    intro x y hx hy hxy
    have : ∀ (l : List Entry), (l.map (·.name)).Nodup → x ∈ l → y ∈ l → x = y := by
      intro l hl
      induction l with
      | nil => intro h; cases h
      | cons z l ih =>
        rw [List.map_cons, List.nodup_cons] at hl
        intro a b
        rcases List.mem_cons.1 a with a | a <;> rcases List.mem_cons.1 b with b | b
        · rw [a, b]
        · exact absurd (List.mem_map.2 ⟨y, b, by rw [← hxy, a]⟩) hl.1
        · exact absurd (List.mem_map.2 ⟨x, a, by rw [hxy, b]⟩) hl.1
        · exact ih hl.2 a b
    exact this _ i1 hx hy
  -- none in the jar, or over
  have hnone : (∀ x, entry (client h) n = some x → x ∉ current (client h) t) →
      (current (client h) t).find? (fun x => PyArgs.norm x.name = paramName n) = none := by
    intro hno
    rw [List.find?_eq_none]
    intro y hy hyn
    have hyc := (List.mem_filter.1 hy).1
    have hyname := same y hyc (by simpa using hyn)
    cases hx : entry (client h) n with
    | none =>
      have := List.find?_eq_none.1 hx y hyc
      simp [hyname] at this
    | some x =>
      obtain ⟨h1, h2⟩ := hmemE x hx
      have := huniq x y h1 hyc (h2.trans hyname.symm)
      exact hno x hx (this ▸ hy)
  have hsome : ∀ x, entry (client h) n = some x → x ∈ current (client h) t →
      (current (client h) t).find? (fun x => PyArgs.norm x.name = paramName n) = some x := by
    intro x hx hxc
    obtain ⟨h1, h2⟩ := hmemE x hx
    refine find_unique hxc (by simp [h2, paramName]) (fun y hy hyn => ?_)
    have hyc := (List.mem_filter.1 hy).1
    exact huniq y x hyc h1 ((same y hyc (by simpa using hyn)).trans h2.symm)
  unfold wanted
  cases hl : lastSet h n with
  | none =>
    rw [hl] at hent
    rw [hnone (fun x hx => by rw [hent] at hx; cases hx)]
    rfl
  | some e =>
    obtain ⟨t0, c⟩ := e
    rw [hl, Option.bind_some] at hent
    simp only
    have hle : t0 ≤ t := by
      have : (t0, c) ∈ h := (List.mem_filter.1 (List.mem_of_getLast? hl)).1
      exact ht _ this
    unfold entryOf at hent
    simp only at hent
    cases hm : c.maxAge with
    | none =>
      rw [hm] at hent
      simp only at hent ⊢
      rw [hsome _ hent (List.mem_filter.2 ⟨(hmemE _ hent).1, rfl⟩)]
      rfl
    | some a =>
      rw [hm] at hent
      simp only at hent ⊢
      by_cases ha : a ≤ 0
      · rw [if_pos ha] at hent
        rw [if_neg (by omega), hnone (fun x hx => by rw [hent] at hx; cases hx)]
        rfl
      · rw [if_neg ha] at hent
        by_cases hlt : t < t0 + a
        · rw [if_pos hlt, hsome _ hent (List.mem_filter.2 ⟨(hmemE _ hent).1, by simpa using hlt⟩)]
          rfl
        · rw [if_neg hlt, hnone (fun x hx hxc => by
            rw [hent] at hx
            cases hx
            have := (List.mem_filter.1 hxc).2
            simp at this
            exact hlt this)]
          rfl

/-- A history: a session id set twice, a theme for an hour, a cookie that is removed. -/
def sample : History :=
  [(0, { name := b!"session-id", value := b!"abc", httpOnly := true }), (5, { name := b!"theme", value := b!"dark blue", maxAge := some 3600 }),
   (6, { name := b!"old", value := b!"x" }), (10, { name := b!"session-id", value := b!"def", sameSite := some .lax }),
   (20, { name := b!"old", value := b!"", maxAge := some (-1) })]

example : (∀ e ∈ sample, Simple e.2) ∧ cookieParam b!"session_id" (send (client sample) 100) = some b!"def" ∧
    cookieParam b!"theme" (send (client sample) 100) = some b!"dark blue" ∧
    cookieParam b!"theme" (send (client sample) 3605) = none ∧ cookieParam b!"old" (send (client sample) 100) = none ∧
    send (client sample) 100 = [b!"session-id=def; theme=dark blue"] := by
  refine ⟨?_, by decide +kernel, by decide +kernel, by decide +kernel, by decide +kernel, by decide +kernel⟩
  intro e he
  simp only [sample, List.mem_cons, List.not_mem_nil, or_false] at he
  rcases he with rfl | rfl | rfl | rfl | rfl <;> simp [Simple, Plain, Trimmed]

/-- **C182** is false for a lifetime of 0, by which an application means to remove a cookie: after any history the cookie
is sent for ever. -/
theorem C182_remove_refuted (h : History) (hs : ∀ e ∈ h, Simple e.2) (c : Cookie) (hc : Simple { c with maxAge := none })
    (hn : ∀ e ∈ h, paramName e.2.name = paramName c.name → e.2.name = c.name)
    (hn' : ∀ e ∈ h, ∀ e' ∈ h, paramName e.2.name = paramName e'.2.name → e.2.name = e'.2.name)
    (t0 t : Int) (h0 : t0 ≤ t) (ht : ∀ e ∈ h, e.1 ≤ t) :
    cookieParam (paramName c.name) (send (client (h ++ [(t0, { c with maxAge := some 0 })])) t) = some c.value ∧
    wanted (h ++ [(t0, { c with maxAge := some 0 })]) c.name t = none := by
  have e1 : client (h ++ [(t0, { c with maxAge := some 0 })]) = client (h ++ [(t0, { c with maxAge := none })]) := by
    rw [client_append, client_append]
    rfl
  constructor
  · rw [e1]
    refine (C182_cookie_returns_partial (h ++ [(t0, { c with maxAge := none })]) ?_ ?_ t ?_ c.name ?_).trans ?_
    rotate_right
    · unfold wanted
      rw [lastSet_append, if_pos rfl]
    · intro e he
      rcases List.mem_append.1 he with he | he
      · exact hs e he
      · rw [List.mem_singleton.1 he]
        exact hc
    · intro e he e' he' hp
      rcases List.mem_append.1 he with he | he <;> rcases List.mem_append.1 he' with he' | he'
      · exact hn' e he e' he' hp
      · rw [List.mem_singleton.1 he'] at hp ⊢
        exact hn e he hp
      · rw [List.mem_singleton.1 he] at hp ⊢
        exact (hn e' he' hp.symm).symm
      · rw [List.mem_singleton.1 he, List.mem_singleton.1 he']
    · intro e he
      rcases List.mem_append.1 he with he | he
      · exact ht e he
      · rw [List.mem_singleton.1 he]
        exact h0
    · exact ⟨_, List.mem_append_right _ List.mem_cons_self, rfl⟩
  · unfold wanted
    rw [lastSet_append, if_pos rfl]
    simp only
    rw [if_neg (by omega)]

/-- **C182** is false for values with an equals sign (padded base64, for one): what is behind it is lost. -/
theorem C182_equals_refuted (n a b : Str) (hn : Plain n) (hne : n ≠ []) (ha : Plain a) (hb : 59 ∉ b)
    (hl : Trimmed (a ++ b!"=" ++ b)) (t0 t : Int) :
    cookieParam (paramName n) (send (client [(t0, { name := n, value := a ++ b!"=" ++ b })]) t) = some a ∧
    wanted [(t0, { name := n, value := a ++ b!"=" ++ b })] n t ≠ some a := by
  constructor
  · have h59 : 59 ∉ a ++ b!"=" ++ b := by
      simp only [List.mem_append, List.mem_singleton, not_or]
      exact ⟨⟨ha.1, by decide⟩, hb⟩
    have e1 : client [(t0, { name := n, value := a ++ b!"=" ++ b })] = [⟨n, a ++ b!"=" ++ b, none⟩] := by
      show receive [] t0 (setCookie _) = _
      unfold receive
      rw [split_set _ (by simp) rfl rfl rfl hn.1 h59]
      simp only
      rw [cutAt_append 61 _ _ hn.2.1]
      simp only
      rw [trim_trimmed _ hn.2.2, trim_trimmed _ hl, if_neg hne]
      rfl
    rw [e1]
    have e2 : send [(⟨n, a ++ b!"=" ++ b, none⟩ : Entry)] t = [n ++ 61 :: (a ++ 61 :: b)] := by
      unfold send current
      simp [List.intercalate]
    rw [e2]
    unfold cookieParam
    rw [PyArgs.C89_equals_refuted.2 n a b ⟨hn.1, hn.2.1, hn.2.2⟩ ⟨ha.1, ha.2.1, ha.2.2⟩ hb]
    simp only [PyArgs.getNamed, paramName, if_true]
  · unfold wanted lastSet
    simp

example : cookieParam b!"token" (send (client [(0, { name := b!"token", value := b!"YWJj==" })]) 1) = some b!"YWJj" := by
  decide +kernel

/-- **C182** is false for two cookies whose names differ only in capital letters, `-` and `_`: no parameter gets the one
that was set later. -/
theorem C182_names_refuted (c d : Cookie) (hc : Simple c) (hd : Simple d) (hcm : c.maxAge = none) (hdm : d.maxAge = none)
    (hne : c.name ≠ d.name) (hp : paramName c.name = paramName d.name) (hv : c.value ≠ d.value) (t0 t1 t : Int) :
    cookieParam (paramName d.name) (send (client [(t0, c), (t1, d)]) t) = some c.value ∧
    wanted [(t0, c), (t1, d)] d.name t = some d.value ∧
    ∀ p, cookieParam p (send (client [(t0, c), (t1, d)]) t) ≠ some d.value := by
  have e1 : client [(t0, c), (t1, d)] = [⟨c.name, c.value, none⟩, ⟨d.name, d.value, none⟩] := by
    show receive (receive [] t0 (setCookie c)) t1 (setCookie d) = _
    rw [receive_set _ _ _ hc, hcm]
    simp only [put]
    rw [receive_set _ _ _ hd, hdm]
    simp only [put]
    rw [if_neg hne]
  have hpl : ∀ x ∈ [(⟨c.name, c.value, none⟩ : Entry), ⟨d.name, d.value, none⟩], Plain x.name ∧ Plain x.value := by
    intro x hx
    simp only [List.mem_cons, List.not_mem_nil, or_false] at hx
    rcases hx with rfl | rfl
    · exact ⟨hc.1, hc.2.2.1⟩
    · exact ⟨hd.1, hd.2.2.1⟩
  have e2 : current [(⟨c.name, c.value, none⟩ : Entry), ⟨d.name, d.value, none⟩] t =
      [⟨c.name, c.value, none⟩, ⟨d.name, d.value, none⟩] := rfl
  refine ⟨?_, ?_, fun p => ?_⟩
  · rw [e1, param_send _ _ _ hpl, e2, List.find?_cons_of_pos (by exact decide_eq_true hp)]
    rfl
  · have : lastSet [(t0, c), (t1, d)] d.name = some (t1, d) := by
      rw [show [(t0, c), (t1, d)] = [(t0, c)] ++ [(t1, d)] from rfl, lastSet_append, if_pos rfl]
    unfold wanted
    rw [this]
    simp only [hdm]
  · rw [e1, param_send _ _ _ hpl, e2]
    by_cases hx : PyArgs.norm c.name = p
    · rw [List.find?_cons_of_pos (by simpa using hx)]
      simpa using hv
    · have hy : PyArgs.norm d.name ≠ p := fun e => hx (by
        unfold paramName at hp
        rw [hp, e])
      rw [List.find?_cons_of_neg (by simpa using hx), List.find?_cons_of_neg (by simpa using hy)]
      simp

example : cookieParam b!"user_id" (send (client [(0, { name := b!"User-Id", value := b!"1" }), (1, { name := b!"user_id", value := b!"2" })]) 3) =
    some b!"1" := by
  decide +kernel

end Fly.Session
