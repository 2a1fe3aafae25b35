import Verif.PyText.Spec
import Verif.PyBridge.Model

/-! # C178: texts of the application -/

namespace Fly.PyText

theorem lower_small (t : Bytes) : t.map Header.lower = small t := rfl

theorem small_small (t : Bytes) : small (small t) = small t := by
  unfold small
  rw [List.map_map]
  apply List.map_congr_left
  intro b _
  simp only [Function.comp]
  split <;> simp_all <;> omega

theorem small_eq {t : Bytes} (h : ∀ b ∈ t, ¬ Capital b) : small t = t := by
  unfold small
  have : t.map (fun b => if 65 ≤ b ∧ b ≤ 90 then b + 32 else b) = t.map id :=
    List.map_congr_left fun b hb => if_neg (h b hb)
  rw [this, List.map_id]

theorem small_ne {t : Bytes} (h : ∃ b ∈ t, Capital b) : small t ≠ t := by
  obtain ⟨b, hb, hc⟩ := h
  intro e
  have h2 : b ∈ small t := by rw [e]; exact hb
  unfold small at h2
  obtain ⟨a, _, ha⟩ := List.mem_map.1 h2
  unfold Capital at hc
  split at ha <;> omega

theorem lowerAt_small {s : Texts} {n : Nat} (h : ∀ b ∈ s n, ¬ Capital b) : lowerAt s n = s := by
  funext i
  unfold lowerAt
  by_cases hi : i = n
  · rw [if_pos hi, hi, lower_small, small_eq h]
  · rw [if_neg hi]

/-- A conversion that finds no capital letters leaves everything as it is. -/
theorem walk_same (v2 : Bool) (s : Texts) : ∀ l : List Item, (v2 = true → SmallNames s l) → walk v2 s l = (s, given s l) := by
  intro l
  induction l with
  | nil => intro _; rfl
  | cons i l ih =>
    intro h
    have hl := ih fun e => fun n v hm => h e n v (List.mem_cons_of_mem _ hm)
    cases i with
    | other => rfl
    | dict n v =>
      cases n with
      | none => rfl
      | some n =>
        cases n with
        | other => rfl
        | str n =>
          have hs : (if v2 then lowerAt s n else s) = s := by
            cases v2 with
            | false => rfl
            | true => exact lowerAt_small (h rfl n v List.mem_cons_self)
          cases v with
          | none => simp only [walk, hs, given, field]
          | some v =>
            cases v with
            | other => simp only [walk, hs, given, field]
            | str v =>
              simp only [walk, hs, hl, given, field]
              cases given s l <;> rfl

/-- **C178 (partial).** In any history of responses, those over HTTP/2 with names that have no capital letters: at the end the application's texts are what they
were, and every response has the fields that its function gave.  Missing: HTTP/2 responses with capital letters in a name (refuted below). -/
theorem C178_texts_kept_partial (s : Texts) (cs : List Call) (h : ∀ c ∈ cs, c.v2 = true → SmallNames s c.items) :
    history s cs = (s, cs.map (expected s)) := by
  induction cs with
  | nil => rfl
  | cons c cs ih =>
    have e : convert s c = (s, expected s c) := by
      unfold convert expected
      cases c.reached with
      | false => rfl
      | true => exact walk_same c.v2 s c.items (h c (by simp))
    simp only [history, e, ih fun x hx => h x (by simp [hx]), List.map_cons]

/-- In particular HTTP/1 never changes a text. -/
theorem C178_http1_texts_kept (s : Texts) (cs : List Call) (h : ∀ c ∈ cs, c.v2 = false) : history s cs = (s, cs.map (expected s)) :=
  C178_texts_kept_partial s cs fun c hc hv => absurd (h c hc) (by simp [hv])

/-- An application with two names and a value. -/
def sampleTexts : Texts := fun i => if i = 0 then b!"X-Id" else if i = 1 then b!"vary" else b!"Origin"

example : (∀ c ∈ [Call.mk true true [.dict (some (.str 1)) (some (.str 2))], ⟨false, true, [.dict (some (.str 0)) (some (.str 2)), .other]⟩, ⟨true, false, [.other]⟩],
      c.v2 = true → SmallNames sampleTexts c.items) ∧
    (history sampleTexts [⟨true, true, [.dict (some (.str 1)) (some (.str 2))]⟩, ⟨false, true, [.dict (some (.str 0)) (some (.str 2))]⟩]).2 =
      [some [(b!"vary", b!"Origin")], some [(b!"X-Id", b!"Origin")]] := by
  refine ⟨?_, by decide⟩
  intro c hc hv n v hm
  simp only [List.mem_cons, List.not_mem_nil, or_false] at hc
  rcases hc with rfl | rfl | rfl
  · simp only [List.mem_cons, List.not_mem_nil, or_false, Item.dict.injEq, Option.some.injEq, Ref.str.injEq] at hm
    rw [hm.1]; unfold Capital; decide
  · simp at hv
  · simp at hm

/-! ## What holds in every history -/

/-- The texts are those of the beginning but for capital letters. -/
def Close (s t : Texts) : Prop := ∀ i, small (t i) = small (s i)

theorem close_lowerAt {s t : Texts} (h : Close s t) (n : Nat) : Close s (lowerAt t n) := by
  intro i
  unfold lowerAt
  by_cases hi : i = n
  · rw [if_pos hi, lower_small, small_small, hi]; exact h n
  · rw [if_neg hi]; exact h i

theorem walk_close (v2 : Bool) (s : Texts) : ∀ (l : List Item) (t : Texts), Close s t → Close s (walk v2 t l).1 ∧ Alike (walk v2 t l).2 (given s l) := by
  intro l
  induction l with
  | nil => intro t h; exact ⟨h, rfl⟩
  | cons i l ih =>
    intro t h
    cases i with
    | other => exact ⟨h, trivial⟩
    | dict n v =>
      cases n with
      | none => exact ⟨h, trivial⟩
      | some n =>
        cases n with
        | other => exact ⟨h, trivial⟩
        | str n =>
          have hc : Close s (if v2 then lowerAt t n else t) := by
            cases v2 with
            | false => exact h
            | true => exact close_lowerAt h n
          cases v with
          | none => exact ⟨hc, trivial⟩
          | some v =>
            cases v with
            | other => exact ⟨hc, trivial⟩
            | str v =>
              have hx := ih _ hc
              refine ⟨hx.1, ?_⟩
              simp only [walk, given, field]
              generalize hw : walk v2 (if v2 then lowerAt t n else t) l = w at hx
              obtain ⟨_, w⟩ := w
              have h2 := hx.2
              cases w with
              | none =>
                cases hg : given s l with
                | none => trivial
                | some g => rw [hg] at h2; exact h2.elim
              | some w =>
                cases hg : given s l with
                | none => rw [hg] at h2; exact h2.elim
                | some g =>
                  rw [hg] at h2
                  have h2 : w.map (fun p => (small p.1, small p.2)) = g.map fun p => (small p.1, small p.2) := h2
                  show List.map _ (_ :: w) = List.map _ (_ :: g)
                  rw [List.map_cons, List.map_cons, h2, hc n, hc v]

/-- **C178 (capital letters aside).** Whatever was converted before, every response has, but for capital letters in names and values, the fields its function gave, or none
where it gave something else; and every text is what it was but for capital letters. -/
theorem C178_same_but_capitals (s : Texts) (cs : List Call) :
    (∀ i, small ((history s cs).1 i) = small (s i)) ∧
      (history s cs).2.length = cs.length ∧ ∀ (k : Nat) (c : Call) (r : Option Pairs), cs[k]? = some c → (history s cs).2[k]? = some r → Alike r (expected s c) := by
  have key : ∀ (cs : List Call) (t : Texts), Close s t → Close s (history t cs).1 ∧ (history t cs).2.length = cs.length ∧
      ∀ (k : Nat) (c : Call) (r : Option Pairs), cs[k]? = some c → (history t cs).2[k]? = some r → Alike r (expected s c) := by
    intro cs
    induction cs with
    | nil => intro t h; exact ⟨h, rfl, by simp⟩
    | cons c cs ih =>
      intro t h
      have h1 : Close s (convert t c).1 ∧ Alike (convert t c).2 (expected s c) := by
        unfold convert expected
        cases c.reached with
        | false => exact ⟨h, trivial⟩
        | true => exact walk_close c.v2 s c.items t h
      obtain ⟨i1, i2, i3⟩ := ih _ h1.1
      refine ⟨i1, by simp only [history, List.length_cons, i2], ?_⟩
      intro k d r hd hr
      cases k with
      | zero =>
        simp only [List.getElem?_cons_zero, Option.some.injEq, history] at hd hr
        rw [← hd, ← hr]
        exact h1.2
      | succ k =>
        simp only [List.getElem?_cons_succ, history] at hd hr
        exact i3 k d r hd hr
  exact key cs s fun _ => rfl

/-! ## What does not hold -/

theorem walk_stays (v2 : Bool) (n : Nat) (w : Bytes) (hw : small w = w) : ∀ (l : List Item) (t : Texts), t n = w → (walk v2 t l).1 n = w := by
  intro l
  induction l with
  | nil => intro t h; exact h
  | cons i l ih =>
    intro t h
    cases i with
    | other => exact h
    | dict m v =>
      cases m with
      | none => exact h
      | some m =>
        cases m with
        | other => exact h
        | str m =>
          have hc : (if v2 then lowerAt t m else t) n = w := by
            cases v2 with
            | false => exact h
            | true =>
              show lowerAt t m n = w
              unfold lowerAt
              by_cases hi : n = m
              · rw [if_pos hi, ← hi, h, lower_small, hw]
              · rw [if_neg hi, h]
          cases v with
          | none => exact hc
          | some v =>
            cases v with
            | other => exact hc
            | str v => exact ih _ hc

theorem history_stays (n : Nat) (w : Bytes) (hw : small w = w) : ∀ (cs : List Call) (t : Texts), t n = w → (history t cs).1 n = w := by
  intro cs
  induction cs with
  | nil => intro t h; exact h
  | cons c cs ih =>
    intro t h
    refine ih _ ?_
    unfold convert
    cases c.reached with
    | false => exact h
    | true => exact walk_stays c.v2 n w hw c.items t h

theorem walk_reaches (s : Texts) (n : Nat) (v : Option Ref) (post : List Item) : ∀ (pre : List Item) (t : Texts), small (t n) = small (s n) → (∀ i ∈ pre, ∃ m k, i = .dict (some (.str m)) (some (.str k))) →
    (walk true t (pre ++ .dict (some (.str n)) v :: post)).1 n = small (s n) := by
  intro pre
  induction pre with
  | nil =>
    intro t h _
    have h0 : lowerAt t n n = small (s n) := by unfold lowerAt; rw [if_pos rfl, lower_small, h]
    cases v with
    | none => exact h0
    | some v =>
      cases v with
      | other => exact h0
      | str v => exact walk_stays true n _ (small_small _) post _ h0
  | cons i pre ih =>
    intro t h hp
    obtain ⟨m, k, rfl⟩ := hp i (by simp)
    refine ih _ ?_ fun j hj => hp j (by simp [hj])
    show small (lowerAt t m n) = small (s n)
    unfold lowerAt
    by_cases hi : n = m
    · rw [if_pos hi, ← hi, lower_small, small_small, h]
    · rw [if_neg hi, h]

/-- **C178 refuted.** Whatever text with a capital letter: one HTTP/2 response with it as the name of a field changes it, for good: whatever is served after that, the application has
another text (the name in small letters), though Python's texts never change. -/
theorem C178_text_changed_refuted (s : Texts) (n : Nat) (hn : ∃ b ∈ s n, Capital b) (v : Option Ref) (pre post : List Item)
    (hp : ∀ i ∈ pre, ∃ m k, i = .dict (some (.str m)) (some (.str k))) (later : List Call) :
    (history s (⟨true, true, pre ++ .dict (some (.str n)) v :: post⟩ :: later)).1 n = small (s n) ∧ small (s n) ≠ s n := by
  refine ⟨?_, small_ne hn⟩
  show (history (walk true s (pre ++ .dict (some (.str n)) v :: post)).1 later).1 n = _
  exact history_stays n _ (small_small _) later _ (walk_reaches s n v post pre s rfl hp)

/-- **C178 refuted (other clients).** Whatever text with a capital letter is used as a name or as a value: once an HTTP/2 response had it as a name, HTTP/1 clients get it in small letters
where they got it as written before. -/
theorem C178_other_responses_refuted (s : Texts) (n m : Nat) (hn : ∃ b ∈ s n, Capital b) (hm : m ≠ n) :
    (history s [⟨false, true, [.dict (some (.str m)) (some (.str n))]⟩]).2 = [some [(s m, s n)]] ∧
    (history s [⟨true, true, [.dict (some (.str n)) (some (.str m))]⟩, ⟨false, true, [.dict (some (.str m)) (some (.str n))]⟩]).2 =
      [some [(small (s n), s m)], some [(s m, small (s n))]] ∧ small (s n) ≠ s n := by
  refine ⟨rfl, ?_, small_ne hn⟩
  have h1 : lowerAt s n n = small (s n) := by unfold lowerAt; rw [if_pos rfl, lower_small]
  have h2 : lowerAt s n m = s m := by unfold lowerAt; rw [if_neg hm]
  simp [history, convert, walk, h1, h2]

/-- **C178 refuted (values).** Whatever text with a capital letter: as name and value of the same field of an HTTP/2 response it is sent with a value that the application did not give. -/
theorem C178_value_changed_refuted (s : Texts) (n : Nat) (hn : ∃ b ∈ s n, Capital b) :
    (history s [⟨true, true, [.dict (some (.str n)) (some (.str n))]⟩]).2 = [some [(small (s n), small (s n))]] ∧ small (s n) ≠ s n := by
  refine ⟨?_, small_ne hn⟩
  have h1 : lowerAt s n n = small (s n) := by unfold lowerAt; rw [if_pos rfl, lower_small]
  simp [history, convert, walk, h1]

example : (∃ b ∈ sampleTexts 0, Capital b) ∧ (history sampleTexts [⟨true, true, [.dict (some (.str 1)) (some (.str 2)), .dict (some (.str 0)) none]⟩, ⟨false, true, []⟩]).1 0 = b!"x-id" ∧
    (history sampleTexts [⟨true, true, [.dict (some (.str 1)) (some (.str 2)), .dict (some (.str 0)) none]⟩, ⟨false, true, [.dict (some (.str 1)) (some (.str 0))]⟩]).2 =
      [none, some [(b!"vary", b!"x-id")]] := by
  unfold Capital; decide

/-! ## The model of Verif.PyBridge, which has the fields only, is this one for one response -/

/-- The elements with their texts. -/
def seen (s : Texts) : Item → PyBridge.HdrEntry
  | .dict n v => .dict (n.map fun | .str n => .str (s n) | .other => .other) (v.map fun | .str v => .str (s v) | .other => .other)
  | .other => .notDict

theorem walk_addHeaders_go (v2 : Bool) (s : Texts) : ∀ (l : List Item) (t : Texts) (h : Header.HList), Close s t →
    (v2 = false → t = s) → (∀ m k, Item.dict m (some (.str k)) ∈ l → t k = s k) → (∀ n v m k, Item.dict (some (.str n)) v ∈ l → Item.dict m (some (.str k)) ∈ l → n ≠ k) →
    PyBridge.addHeaders v2 h (l.map (seen s)) = (walk v2 t l).2.map fun fs => fs.foldl (fun h p => Header.add h p.1 p.2 false) h := by
  intro l
  induction l with
  | nil => intro t h _ _ _ _; rfl
  | cons i l ih =>
    intro t h hc h1 hv hd
    cases i with
    | other => rfl
    | dict n v =>
      cases n with
      | none => rfl
      | some n =>
        cases n with
        | other => rfl
        | str n =>
          cases v with
          | none => rfl
          | some v =>
            cases v with
            | other => rfl
            | str v =>
              have hnv : v ≠ n := fun e => hd n (some (.str v)) (some (.str n)) v List.mem_cons_self List.mem_cons_self e.symm
              have hn : (if v2 then (s n).map Header.lower else s n) = (if v2 then lowerAt t n else t) n := by
                cases v2 with
                | false => rw [h1 rfl]; rfl
                | true =>
                  show (s n).map Header.lower = lowerAt t n n
                  unfold lowerAt
                  rw [if_pos rfl, lower_small, lower_small, hc n]
              have hvv : (if v2 then lowerAt t n else t) v = s v := by
                cases v2 with
                | false => exact hv _ v List.mem_cons_self
                | true =>
                  show lowerAt t n v = s v
                  unfold lowerAt
                  rw [if_neg hnv]
                  exact hv _ v List.mem_cons_self
              have := ih (if v2 then lowerAt t n else t) (Header.add h (if v2 then (s n).map Header.lower else s n) (s v) false) ?_ ?_ ?_ ?_
              · simp only [List.map_cons, seen, Option.map_some, PyBridge.addHeaders, walk, this]
                cases (walk v2 (if v2 then lowerAt t n else t) l).2 with
                | none => rfl
                | some fs => simp only [Option.map_some, List.foldl_cons, hn, hvv]
              · cases v2 with
                | false => exact hc
                | true => exact close_lowerAt hc n
              · intro e; subst e; exact h1 rfl
              · intro m k hm
                cases v2 with
                | false => exact hv m k (List.mem_cons_of_mem _ hm)
                | true =>
                  show lowerAt t n k = s k
                  unfold lowerAt
                  rw [if_neg fun e => hd n (some (.str v)) m k List.mem_cons_self (List.mem_cons_of_mem _ hm) e.symm]
                  exact hv m k (List.mem_cons_of_mem _ hm)
              · intro n v m k h2 h3
                exact hd n v m k (List.mem_cons_of_mem _ h2) (List.mem_cons_of_mem _ h3)

/-- For a response in which no text is both a name and a value, the header list of `PyBridge.addHeaders` is the one of `walk`. -/
theorem walk_addHeaders (v2 : Bool) (s : Texts) (l : List Item) (h : Header.HList)
    (hd : ∀ n v m k, Item.dict (some (.str n)) v ∈ l → Item.dict m (some (.str k)) ∈ l → n ≠ k) :
    PyBridge.addHeaders v2 h (l.map (seen s)) = (walk v2 s l).2.map fun fs => fs.foldl (fun h p => Header.add h p.1 p.2 false) h :=
  walk_addHeaders_go v2 s l s h (fun _ => rfl) (fun _ => rfl) (fun _ _ _ => rfl) hd

end Fly.PyText
