import Verif.Lang.Lemmas

namespace Fly.Lang
open Fly.Encode (Q)

theorem code_eq (f : Field) : f.code.tab = f.tabs ∧ f.code.max = f.size ∧ f.code.header = f.name := by
  cases f <;> exact ⟨rfl, rfl, rfl⟩

/-! ## C74: what a client asks for is what the application sees -/

/-- **C74** (partial: names shorter than the name field, no blanks in front of a comma, no tabs in Accept-Charset).  A
well-formed field is understood: the request is answered with 406 exactly if every quality is 0, and else goes on with the
written names and qualities, in order. -/
theorem C74_understood_partial (f : Field) (es : List Elem) (trail : Bytes) (hne : es ≠ []) (ht : Trail f.tabs trail)
    (hes : ∀ e ∈ es, e.Ok f.tabs ∧ e.name.length < f.size) (hs : List (Bytes × Bytes))
    (hf : FirstField f.name (text es ++ trail) hs) :
    accept f.code hs = if ∃ e ∈ es, 0 < e.quality then .accepted (meant es) else .notAcceptable := by
  obtain ⟨e1, e2, e3⟩ := code_eq f
  rw [← e1] at ht hes
  rw [← e2] at hes
  rw [← e3] at hf
  generalize f.code = k at *
  have hh : 0 < k.header.length := by rw [e3]; cases f <;> decide
  have hv : text es ++ trail ≠ [] := by
    cases es with
    | nil => exact absurd rfl hne
    | cons e l =>
      have := (hes e (by simp)).1.ne
      cases l <;> simp [text, Elem.text, this]
  unfold accept
  rw [headerValue_first k _ hs hf hh hv]
  obtain ⟨t, h1, h2⟩ := parse_text k trail ht es start hne hes (Or.inl rfl) (by simp [start])
  have h3 : parseValue k (text es ++ trail) = .ok (meant es) t := by
    unfold parseValue; rw [List.append_assoc, h2]; rfl
  have hl : (meant es).length ≠ 0 := by simp [meant, hne]
  have hany : ((meant es).any fun a => decide (a.q > 0)) = true ↔ ∃ e ∈ es, 0 < e.quality := by
    simp [meant]
  simp only [h3, if_neg (show ¬ t > k.max by omega), if_neg hl]
  by_cases h : ∃ e ∈ es, 0 < e.quality
  · rw [if_pos h, if_pos (hany.2 h)]
  · rw [if_neg h, if_neg (fun x => h (hany.1 x))]

/-- `da, en-gb;q=0.8, en ;q=0.725` -/
example : let es := [⟨b!"da", none, b!" "⟩, ⟨b!"en-gb", some ⟨[], [], .zero [8]⟩, b!" "⟩, ⟨b!"en", some ⟨b!" ", [], .zero [7, 2, 5]⟩, []⟩]
    text es = b!"da, en-gb;q=0.8, en ;q=0.725" ∧
    accept lang [(b!"host", b!"a"), (b!"accept-language", text es)] =
      .accepted [⟨b!"da", 1000⟩, ⟨b!"en-gb", 800⟩, ⟨b!"en", 725⟩] := by decide +kernel

example : accept charset [(b!"accept-charset", b!"utf-8;q=0,latin-1;q=0.000")] = .notAcceptable := by decide +kernel

/-- **C74**.  Without the field everything is acceptable. -/
theorem C74_absent (f : Field) (hs : List (Bytes × Bytes)) (h : ∀ x ∈ hs, x.1 ≠ f.name) :
    accept f.code hs = .accepted [⟨b!"*", 1000⟩] := by
  rw [← (code_eq f).2.2] at h
  generalize f.code = k at *
  have e : headerValue k hs = none := by
    unfold headerValue
    rw [Option.map_eq_none_iff, List.find?_eq_none]
    intro x hx
    simp [h x hx]
  simp only [accept, e]

example : accept lang [(b!"host", b!"a")] = .accepted [⟨b!"*", 1000⟩] := by decide +kernel

/-- **C74** refuted: a blank in front of a comma, which the syntax of lists allows (RFC 9110, 5.6.1), is answered with 400,
behind every element and whatever follows. -/
theorem C74_blank_before_comma_refuted (f : Field) (e : Elem) (he : e.Ok f.tabs) (w rest : Bytes)
    (hw : Blanks f.tabs w) (hne : w ≠ []) (hs : List (Bytes × Bytes))
    (hf : FirstField f.name (e.text ++ w ++ 44 :: rest) hs) : accept f.code hs = .badRequest := by
  obtain ⟨e1, e2, e3⟩ := code_eq f
  rw [← e1] at he hw
  rw [← e3] at hf
  generalize f.code = k at *
  have hh : 0 < k.header.length := by rw [e3]; cases f <;> decide
  have hv : e.text ++ w ++ 44 :: rest ≠ [] := by simp
  unfold accept
  rw [headerValue_first k _ hs hf hh hv]
  obtain ⟨s, d, qv, h1, _, h2, _⟩ := parse_elem k e he (w ++ 44 :: (rest ++ [0])) start (Or.inl rfl)
  have h3 : parseValue k (e.text ++ w ++ 44 :: rest) = .perror := by
    unfold parseValue
    rw [show e.text ++ w ++ 44 :: rest ++ [0] = e.text ++ (w ++ 44 :: (rest ++ [0])) by simp, h2]
    have hst : ({ start with st := s, str := some (e.text ++ (w ++ 44 :: (rest ++ [0]))), qv := qv, dec := d } : PS).st = s := rfl
    generalize { start with st := s, str := some (e.text ++ (w ++ 44 :: (rest ++ [0]))), qv := qv, dec := d } = p at hst ⊢
    cases w with
    | nil => exact absurd rfl hne
    | cons b w =>
      have hb := hw b (by simp)
      have hsp := blank_space k b hb
      have hb2 : b ≠ 44 ∧ b ≠ 0 ∧ b ≠ 59 ∧ b ≠ 46 ∧ b ≠ 48 ∧ digit b = false := by
        rcases hb with rfl | ⟨_, rfl⟩ <;> decide
      have hcm : space k 44 = false := by simp [space]
      rw [List.cons_append]
      rcases h1 with rfl | rfl | rfl | rfl | rfl
      · rw [parse_go k p { p with st := .ows1 } b, parse_blanks k _ (Or.inl rfl) _ w (fun x hx => hw x (by simp [hx])), parse]
        · simp [step, hcm]
        · simp [step, hst, hb2, hsp]
      all_goals
        rw [parse]
        simp [step, hst, hb2]
  simp only [h3]

example : accept lang [(b!"accept-language", b!"en ,de")] = .badRequest := by decide +kernel
example : accept charset [(b!"accept-charset", b!"utf-8;q=0.5 ,latin-1")] = .badRequest := by decide +kernel

/-- **C74**: a weight with more than three decimals is answered with 400. -/
theorem C74_many_decimals_refused (f : Field) (n rest : Bytes) (ds : List Nat) (hn : ∀ c ∈ n, NameChar c) (hne : n ≠ [])
    (hd : ∀ d ∈ ds, d < 10) (hl : 3 < ds.length) (hs : List (Bytes × Bytes))
    (hf : FirstField f.name (n ++ b!";q=0." ++ ds.map (48 + ·) ++ rest) hs) : accept f.code hs = .badRequest := by
  obtain ⟨e1, e2, e3⟩ := code_eq f
  rw [← e3] at hf
  generalize f.code = k at *
  have hh : 0 < k.header.length := by rw [e3]; cases f <;> decide
  unfold accept
  rw [headerValue_first k _ hs hf hh (by simp)]
  have h3 : parseValue k (n ++ b!";q=0." ++ ds.map (48 + ·) ++ rest) = .perror := by
    cases ds with
    | nil => simp at hl
    | cons d ds =>
      have h := hd d (by simp)
      have hnum : digit (48 + d) = true := by simp [digit]; omega
      cases n with
      | nil => exact absurd rfl hne
      | cons c n =>
        have hc := hn c (by simp)
        have h1 := hc
        simp only [NameChar] at h1
        have et : c :: n ++ b!";q=0." ++ (d :: ds).map (48 + ·) ++ rest ++ [0] =
            c :: (n ++ ([] ++ 59 :: ([] ++ 113 :: 61 :: 48 :: 46 :: (48 + d) :: (ds.map (48 + ·) ++ (rest ++ [0]))))) := by simp
        unfold parseValue
        rw [et, parse_go k start { start with st := .name, str := some (c :: (n ++ ([] ++ 59 :: ([] ++ 113 :: 61 :: 48 :: 46 :: (48 + d) :: (ds.map (48 + ·) ++ (rest ++ [0])))))), qv := none, dec := 0 } c _
            (by unfold step; simp [start, stInit, nc_token c hc, h1.2.2.1]),
          parse_names k _ rfl _ n (fun x hx => hn x (by simp [hx])), parse_w1 k _ rfl _ _ (by simp [Blanks]),
          parse_w2 k _ rfl _ _ (by simp [Blanks])]
        generalize some (c :: (n ++ ([] ++ 59 :: ([] ++ 113 :: 61 :: 48 :: 46 :: (48 + d) :: (ds.map (48 + ·) ++ (rest ++ [0])))))) = str
        rw [parse]
        simp only [step]
        simp only [Nat.reduceBEq, Bool.false_eq_true, if_false, if_true]
        rw [parse]
        simp only [step]
        simp only [Nat.reduceBEq, Bool.false_eq_true, if_false, if_true]
        rw [parse]
        simp only [step, hnum, if_true]
        exact parse_many k ds _ _ rfl (fun x hx => hd x (by simp [hx])) (by simp) (by simp at hl; simp; omega)
  simp only [h3]

example : accept lang [(b!"accept-language", b!"en;q=0.1234")] = .badRequest := by decide +kernel

/-- **C74** refuted: a tab in front of a weight is answered with 400 for Accept-Charset. -/
theorem C74_charset_tab_refuted (n rest : Bytes) (hn : ∀ c ∈ n, NameChar c) (hne : n ≠ []) (hs : List (Bytes × Bytes))
    (hf : FirstField charset.header (n ++ 9 :: rest) hs) : accept charset hs = .badRequest := by
  unfold accept
  rw [headerValue_first charset _ hs hf (by decide) (by simp)]
  have h3 : parseValue charset (n ++ 9 :: rest) = .perror := by
    obtain ⟨s, d, qv, h1, _, h2, _⟩ := parse_elem charset ⟨n, none, []⟩ ⟨hne, hn, by simp, by simp⟩ (9 :: (rest ++ [0])) start (Or.inl rfl)
    unfold parseValue
    rw [show n ++ 9 :: rest ++ [0] = (Elem.mk n none []).text ++ 9 :: (rest ++ [0]) by simp [Elem.text, weightText], h2, parse]
    have h9 : space charset 9 = false := rfl
    have h9d : digit 9 = false := rfl
    have h9t : token 9 = false := rfl
    rcases h1 with rfl | rfl | rfl | rfl | rfl <;> simp [step, h9, h9d, h9t]
  simp only [h3]

example : accept charset [(b!"accept-charset", b!"utf-8" ++ 9 :: b!";q=0.5")] = .badRequest := by decide +kernel
example : accept lang [(b!"accept-language", b!"en" ++ 9 :: b!";q=0.5")] = .accepted [⟨b!"en", 500⟩] := by decide +kernel

/-! ## C30: memory -/

/-- **C30**.  No field makes the server read behind the value or through a null pointer. -/
theorem C30_reads_inside (f : Field) (hs : List (Bytes × Bytes)) :
    accept f.code hs ≠ .crash ∧ accept f.code hs ≠ .outside := by
  generalize f.code = k at *
  unfold accept
  cases headerValue k hs with
  | none => simp
  | some v =>
    have h1 := parse_good k (v ++ [0]) start ⟨fun h => absurd rfl h.1, by simp [start]⟩
    have h2 := parse_inside k v start []
    simp only [parseValue]
    cases hp : parse k start (v ++ [0]) with
    | perror => simp
    | crash => rw [hp] at h1; exact h1.elim
    | outside => exact absurd hp h2
    | ok l t =>
      simp only
      repeat' split
      all_goals simp

/-- **C30**.  At most one byte behind the name field is written. -/
theorem C30_at_most_one_byte (f : Field) (v : Bytes) (l : List Acc) (t : Nat) (h : parseValue f.code v = .ok l t) :
    t ≤ f.size + 1 := by
  rw [← (code_eq f).2.1]
  generalize f.code = k at *
  have h1 := parse_good k (v ++ [0]) start ⟨fun h => absurd rfl h.1, by simp [start]⟩
  unfold parseValue at h
  rw [h] at h1
  exact h1

example : parseValue lang b!"en;q=0.5" = .ok [⟨b!"en", 500⟩] 3 := by decide +kernel

/-- **C30** (partial: names that are shorter than the name field).  A field without ten (Accept-Language) or thirty
(Accept-Charset) successive characters of a name writes nothing behind the name field. -/
theorem C30_short_names_partial (f : Field) (hs : List (Bytes × Bytes))
    (hv : ∀ v, (f.name, v) ∈ hs → NoLongName f.size v) : accept f.code hs ≠ .corrupt := by
  obtain ⟨e1, e2, e3⟩ := code_eq f
  have hk : 0 < f.code.max := by rw [e2]; cases f <;> decide
  rw [← e2, ← e3] at hv
  generalize f.code = k at *
  unfold accept
  cases hf : headerValue k hs with
  | none => simp
  | some v =>
  have hmem : (k.header, v) ∈ hs := by
    unfold headerValue at hf
    rw [Option.map_eq_some_iff] at hf
    obtain ⟨x, hx, rfl⟩ := hf
    have h1 := List.find?_some hx
    simp only [Bool.and_eq_true, beq_iff_eq] at h1
    rw [← h1.2]
    exact List.mem_of_find?_eq_some hx
  have hv := hv v hmem
  have hv0 : NoLongName k.max (v ++ [0]) := by
    intro a w b e hl
    by_cases hb : b = []
    · subst hb
      simp only [List.append_nil] at e
      have hw : w ≠ [] := by
        intro h; subst h; simp at hl
        omega
      refine ⟨0, ?_, by simp [NameChar]⟩
      have : (a ++ w).getLast? = some 0 := by rw [← e]; simp
      rw [List.getLast?_append] at this
      cases hg : w.getLast? with
      | none => exact absurd (List.getLast?_eq_none_iff.1 hg) hw
      | some x =>
        rw [hg] at this
        simp at this
        subst this
        exact List.mem_of_getLast? hg
    · have : v = a ++ w ++ b.dropLast := by
        have h := congrArg List.dropLast e
        rw [List.dropLast_concat, List.dropLast_append_of_ne_nil hb] at h
        exact h
      exact hv a w _ this hl
  have h1 := parse_short k (v ++ [0]) hv0 (v ++ [0]) start [] rfl ⟨by simp [start], by simp [start]⟩
  simp only [parseValue]
  cases hp : parse k start (v ++ [0]) with
  | ok l t =>
    rw [hp] at h1
    simp only at h1
    simp only [if_neg (show ¬ t > k.max by omega)]
    repeat' split
    all_goals simp
  | _ => simp

example : accept lang [(b!"accept-language", b!"en,de-at;q=0.5")] = .accepted [⟨b!"en", 1000⟩, ⟨b!"de-at", 500⟩] := by decide +kernel
example : NoLongName 10 b!"en,de-at;q=0.5" := by
  intro a w b e hl
  have hlen := congrArg List.length e
  simp at hlen
  by_cases h : a.length ≤ 2
  · refine ⟨44, ?_, by simp [NameChar]⟩
    have : (a ++ w ++ b)[2]? = some 44 := by rw [← e]; rfl
    rw [List.append_assoc, List.getElem?_append_right h, List.getElem?_append_left (by omega)] at this
    exact List.mem_of_getElem? this
  · refine ⟨59, ?_, by simp [NameChar]⟩
    have : (a ++ w ++ b)[8]? = some 59 := by rw [← e]; rfl
    rw [List.append_assoc, List.getElem?_append_right (by omega), List.getElem?_append_left (by omega)] at this
    exact List.mem_of_getElem? this

/-- **C30** refuted: every name at least as long as the name field makes the server write a zero byte behind it. -/
theorem C30_long_name_refuted (f : Field) (n : Bytes) (hn : ∀ c ∈ n, NameChar c)
    (hl : f.size ≤ n.length) (hs : List (Bytes × Bytes)) (hf : FirstField f.name n hs) : accept f.code hs = .corrupt := by
  obtain ⟨e1, e2, e3⟩ := code_eq f
  rw [← e3] at hf
  rw [← e2] at hl
  generalize f.code = k at *
  have hh : 0 < k.header.length ∧ 0 < k.max := by rw [e2, e3]; cases f <;> decide
  unfold accept
  rw [headerValue_first k _ hs hf hh.1 (by intro h; subst h; simp at hl; omega)]
  obtain ⟨l, h⟩ := parse_long k n hn hl hh.2
  simp only [h]
  rw [if_pos (by omega)]

/-- `de-CH-1901`, a registered language tag, has ten characters. -/
example : accept lang [(b!"accept-language", b!"de-CH-1901")] = .corrupt := by decide +kernel

end Fly.Lang
