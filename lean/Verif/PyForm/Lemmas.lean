import Verif.PyForm.Spec
import Verif.PyArgs.Lemmas
import Verif.PyArgs.Props
import Verif.Multipart.Props

namespace Fly.PyForm

open Fly.PyArgs Fly.PyArgs.Spec
open Fly.PyForm.Spec

/-! ## The regular expression -/

theorem lit_append (p s : Str) : lit p (p ++ s) = some s := by
  induction p with
  | nil => rfl
  | cons a p ih => rw [List.cons_append, lit, if_pos rfl, ih]

theorem lit_eq {p s t : Str} (h : lit p s = some t) : s = p ++ t := by
  induction p generalizing s with
  | nil => rw [lit] at h; exact Option.some.inj h
  | cons a p ih =>
    cases s with
    | nil => simp [lit] at h
    | cons c s =>
      rw [lit] at h
      split at h
      · rename_i e; subst e; rw [ih h]; rfl
      · simp at h

theorem skip_suffix (s : Str) : skip s <:+ s := List.dropWhile_suffix _

theorem skip_self {c : Nat} {s : Str} (h : isSpace c = false) : skip (c :: s) = c :: s := by
  unfold skip; rw [List.dropWhile_cons_of_neg]; simp [h]

theorem closes_quote (n : Str) (h : 10 ∉ n) : closes (n ++ [34]) = true := by
  unfold closes
  rw [List.reverse_append]
  have e : ([34] : Str).reverse ++ n.reverse = 34 :: n.reverse := rfl
  rw [e, List.dropWhile_cons_of_neg (by decide)]
  simp [isQuote, h]

/-- The last character of the text is white space, a quote or a semicolon. -/
def Ends (s : Str) : Prop := ∀ c, s.getLast? = some c → isSpace c = true ∨ isQuote c = true ∨ c = 59

theorem Ends.suffix {s t : Str} (h : s <:+ t) (hne : s ≠ []) (hs : Ends s) : Ends t := by
  obtain ⟨u, rfl⟩ := h
  intro c hc
  rw [List.getLast?_append] at hc
  cases e : s.getLast? with
  | none => rw [List.getLast?_eq_none_iff] at e; exact absurd e hne
  | some d => rw [e] at hc; simp at hc; subst hc; exact hs d e

theorem getLast_dropWhile (s : Str) : ∀ c, s.getLast? = some c → isSpace c = false → ∃ r, s.reverse.dropWhile isSpace = c :: r := by
  intro c h hc
  obtain ⟨u, rfl⟩ := List.getLast?_eq_some_iff.1 h
  refine ⟨u.reverse, ?_⟩
  rw [List.reverse_append]
  have e : ([c] : Str).reverse ++ u.reverse = c :: u.reverse := rfl
  rw [e, List.dropWhile_cons_of_neg (by simp [hc])]

theorem closes_ends {t : Str} (h : closes t = true) : Ends t := by
  intro c hc
  cases hs : isSpace c with
  | true => exact Or.inl rfl
  | false =>
    obtain ⟨r, hr⟩ := getLast_dropWhile t c hc hs
    unfold closes at h
    rw [hr] at h
    simp only [Bool.and_eq_true] at h
    exact Or.inr (Or.inl h.1)

theorem fileOk_ends {s : Str} (h : fileOk s = true) : Ends s := by
  unfold fileOk at h
  split at h
  · cases h
  · rename_i t ht
    have ht := lit_eq ht
    split at h
    · rename_i u hu
      split at h
      · rename_i q w hw
        simp only [Bool.and_eq_true] at h
        have hs : q :: w <:+ s := by
          have h1 : q :: w <:+ u := by rw [← hw]; exact skip_suffix u
          have h2 : u <:+ t := (List.suffix_cons 61 u).trans (by rw [← hu]; exact skip_suffix t)
          have h3 : t <:+ s := ⟨b!"filename", ht.symm⟩
          exact (h1.trans h2).trans h3
        have hw' : w ≠ [] := by
          rintro rfl
          have := h.2
          simp [closes] at this
        exact Ends.suffix ((List.suffix_cons q w).trans hs) hw' (closes_ends h.2)
      · cases h
    · cases h

theorem skip_nil_ends {s : Str} (h : skip s = []) : Ends s := by
  intro c hc
  left
  cases hs : isSpace c with
  | true => rfl
  | false =>
    exfalso
    obtain ⟨u, rfl⟩ := List.getLast?_eq_some_iff.1 hc
    clear hc
    unfold skip at h
    induction u with
    | nil => simp [hs] at h
    | cons a u ih =>
      rw [List.cons_append, List.dropWhile_cons] at h
      split at h
      · exact ih h
      · simp at h

theorem tailOk_ends {s : Str} (h : tailOk s = true) : Ends s := by
  unfold tailOk at h
  split at h
  · rename_i e; exact skip_nil_ends e
  · rename_i t e
    have hs : 59 :: t <:+ s := by rw [← e]; exact skip_suffix s
    rcases Bool.or_eq_true _ _ ▸ h with h | h
    · have h' : skip t = [] := by simpa using h
      refine Ends.suffix hs (by simp) ?_
      intro c hc
      rw [List.getLast?_cons] at hc
      cases ht : t.getLast? with
      | none => rw [ht] at hc; simp at hc; exact Or.inr (Or.inr hc.symm)
      | some d => rw [ht] at hc; simp at hc; subst hc; exact skip_nil_ends h' d ht
    · have hne : skip t ≠ [] := by intro e; rw [e] at h; simp [fileOk, lit] at h
      exact Ends.suffix ((skip_suffix t).trans ((List.suffix_cons 59 t).trans hs)) hne (fileOk_ends h)
  · cases h

theorem lazyName_ends {s n : Str} (h : lazyName s = some n) : Ends s ∧ s ≠ [] := by
  induction s generalizing n with
  | nil => simp [lazyName] at h
  | cons c s ih =>
    refine ⟨?_, by simp⟩
    rw [lazyName] at h
    split at h
    · rename_i hc
      simp only [Bool.and_eq_true] at hc
      intro d hd
      rw [List.getLast?_cons] at hd
      cases ht : s.getLast? with
      | none => rw [ht] at hd; simp at hd; subst hd; exact Or.inr (Or.inl hc.1)
      | some e => rw [ht] at hd; simp at hd; subst hd; exact tailOk_ends hc.2 _ ht
    · split at h
      · simp at h
      · cases hn : lazyName s with
        | none => rw [hn] at h; simp at h
        | some m =>
          obtain ⟨h1, h2⟩ := ih hn
          exact Ends.suffix (List.suffix_cons c s) h2 h1

theorem contentName_ends {v n : Str} (h : contentName v = some n) : Ends v := by
  unfold contentName at h
  split at h
  · cases h
  · rename_i t ht
    have ht := lit_eq ht
    split at h
    · cases h
    · rename_i u hu
      have hu := lit_eq hu
      split at h
      · rename_i w hw
        split at h
        · rename_i q x hx
          split at h
          · obtain ⟨h1, h2⟩ := lazyName_ends h
            have s1 : x <:+ w := (List.suffix_cons q x).trans (by rw [← hx]; exact skip_suffix w)
            have s2 : w <:+ u := (List.suffix_cons 61 w).trans (by rw [← hw]; exact skip_suffix u)
            have s3 : u <:+ t := List.IsSuffix.trans ⟨b!"name", hu.symm⟩ (skip_suffix t)
            have s4 : t <:+ v := List.IsSuffix.trans ⟨b!"form-data;", ht.symm⟩ (skip_suffix v)
            exact Ends.suffix (s1.trans (s2.trans (s3.trans s4))) h2 h1
          · cases h
        · cases h
      · cases h

theorem lazyName_plain (n t : Str) (h1 : 34 ∉ n) (h2 : 39 ∉ n) (h3 : 10 ∉ n) (ht : tailOk t = true) :
    lazyName (n ++ 34 :: t) = some n := by
  induction n with
  | nil => rw [List.nil_append, lazyName, if_pos (by simp [isQuote, ht])]
  | cons c n ih =>
    simp only [List.mem_cons, not_or] at h1 h2 h3
    rw [List.cons_append, lazyName, if_neg (by simp [isQuote]; omega), if_neg (by omega), ih h1.2 h2.2 h3.2]
    rfl

theorem tailOk_file (n : Str) (h : 10 ∉ n) : tailOk (b!"; filename=\"" ++ n ++ b!"\"") = true := by
  have e1 : b!"; filename=\"" ++ n ++ b!"\"" = 59 :: 32 :: (b!"filename" ++ (61 :: 34 :: (n ++ [34]))) := by simp
  have e2 : skip (32 :: (b!"filename" ++ (61 :: 34 :: (n ++ [34])))) = b!"filename" ++ (61 :: 34 :: (n ++ [34])) := rfl
  have e3 : fileOk (b!"filename" ++ (61 :: 34 :: (n ++ [34]))) = true := by
    unfold fileOk
    rw [lit_append]
    have a : skip (61 :: 34 :: (n ++ [34])) = 61 :: 34 :: (n ++ [34]) := skip_self (by decide)
    have b : skip (34 :: (n ++ [34])) = 34 :: (n ++ [34]) := skip_self (by decide)
    simp only [a, b, closes_quote n h]
    decide
  unfold tailOk
  rw [e1, skip_self (by decide)]
  simp only [e2, e3, Bool.or_true]

theorem contentName_plain (n t : Str) (h1 : 34 ∉ n) (h2 : 39 ∉ n) (h3 : 10 ∉ n) (ht : tailOk t = true) :
    contentName (b!"form-data; name=\"" ++ n ++ b!"\"" ++ t) = some n := by
  have e : b!"form-data; name=\"" ++ n ++ b!"\"" ++ t = b!"form-data;" ++ (32 :: (b!"name" ++ (61 :: 34 :: (n ++ 34 :: t)))) := by
    simp
  unfold contentName
  have a1 : skip (b!"form-data;" ++ (32 :: (b!"name" ++ (61 :: 34 :: (n ++ 34 :: t))))) = b!"form-data;" ++ (32 :: (b!"name" ++ (61 :: 34 :: (n ++ 34 :: t)))) := rfl
  have a2 : skip (32 :: (b!"name" ++ (61 :: 34 :: (n ++ 34 :: t)))) = b!"name" ++ (61 :: 34 :: (n ++ 34 :: t)) := rfl
  have a3 : skip (61 :: 34 :: (n ++ 34 :: t)) = 61 :: 34 :: (n ++ 34 :: t) := skip_self (by decide)
  have a4 : skip (34 :: (n ++ 34 :: t)) = 34 :: (n ++ 34 :: t) := skip_self (by decide)
  rw [e, a1, lit_append]
  simp only [a2, lit_append, a3, a4]
  rw [if_pos (by decide), lazyName_plain n t h1 h2 h3 ht]

theorem contentName_disposition {f : FormField} (h : PlainField f) : contentName (disposition f) = some f.name := by
  unfold disposition
  apply contentName_plain _ _ h.1.1 h.1.2.1 h.1.2.2.1
  cases hf : f.file with
  | none => rfl
  | some n => exact tailOk_file n (h.2.1 n hf).1

/-! ## Dictionaries -/

theorem put_new (d : Dict) (n : Str) (v : FVal) (h : ∀ e ∈ d, e.1 ≠ n) : put d n v = d ++ [(n, v)] := by
  induction d with
  | nil => rfl
  | cons e d ih =>
    obtain ⟨m, w⟩ := e
    rw [put, if_neg (h (m, w) (by simp)), ih (fun x hx => h x (by simp [hx]))]
    rfl

theorem put_mem {d : Dict} {n m : Str} {v w : FVal} (hd : (d.map (·.1)).Nodup) :
    (m, w) ∈ put d n v ↔ (m = n ∧ w = v) ∨ (m ≠ n ∧ (m, w) ∈ d) := by
  induction d with
  | nil => simp [put]
  | cons e d ih =>
    obtain ⟨k, u⟩ := e
    simp only [List.map_cons, List.nodup_cons] at hd
    rw [put]
    split
    · rename_i hk
      subst hk
      simp only [List.mem_cons, Prod.mk.injEq]
      constructor
      · rintro (⟨rfl, rfl⟩ | h)
        · exact Or.inl ⟨rfl, rfl⟩
        · refine Or.inr ⟨?_, Or.inr h⟩
          rintro rfl
          exact hd.1 (List.mem_map.2 ⟨_, h, rfl⟩)
      · rintro (⟨rfl, rfl⟩ | ⟨h1, ⟨rfl, -⟩ | h2⟩)
        · exact Or.inl ⟨rfl, rfl⟩
        · exact absurd rfl h1
        · exact Or.inr h2
    · rename_i hk
      simp only [List.mem_cons, Prod.mk.injEq]
      rw [ih hd.2]
      constructor
      · rintro (⟨rfl, rfl⟩ | h | h)
        · exact Or.inr ⟨hk, Or.inl ⟨rfl, rfl⟩⟩
        · exact Or.inl h
        · exact Or.inr ⟨h.1, Or.inr h.2⟩
      · rintro (h | ⟨h1, h | h⟩)
        · exact Or.inr (Or.inl h)
        · exact Or.inl h
        · exact Or.inr (Or.inr ⟨h1, h⟩)

theorem put_keys (d : Dict) (n : Str) (v : FVal) (m : Str) : m ∈ (put d n v).map (·.1) ↔ m = n ∨ m ∈ d.map (·.1) := by
  induction d with
  | nil => simp [put]
  | cons e d ih =>
    obtain ⟨k, u⟩ := e
    rw [put]
    split
    · rename_i hk; subst hk
      simp only [List.map_cons, List.mem_cons]
      constructor
      · intro h; exact Or.inr h
      · rintro (h | h)
        · exact Or.inl h
        · exact h
    · simp only [List.map_cons, List.mem_cons]
      rw [ih]
      constructor
      · rintro (h | h | h)
        · exact Or.inr (Or.inl h)
        · exact Or.inl h
        · exact Or.inr (Or.inr h)
      · rintro (h | h | h)
        · exact Or.inr (Or.inl h)
        · exact Or.inl h
        · exact Or.inr (Or.inr h)

theorem put_nodup {d : Dict} {n : Str} {v : FVal} (h : (d.map (·.1)).Nodup) : ((put d n v).map (·.1)).Nodup := by
  induction d with
  | nil => simp [put]
  | cons e d ih =>
    obtain ⟨k, u⟩ := e
    simp only [List.map_cons, List.nodup_cons] at h
    rw [put]
    split
    · simp only [List.map_cons, List.nodup_cons]; exact h
    · rename_i hk
      simp only [List.map_cons, List.nodup_cons]
      refine ⟨?_, ih h.2⟩
      rw [put_keys]
      rintro (e | e)
      · exact hk e
      · exact h.1 e

/-! ## The parts -/

/-- The part the handler's dictionary has for a field. -/
def seen (f : FormField) : Part :=
  ⟨(b!"Content-Disposition", disposition f) :: (match f.type with | some t => [(b!"Content-Type", t)] | none => []), f.content⟩

theorem partHeaders_seen {f : FormField} (h : PlainField f) (d : Dict) :
    partHeaders f.content (seen f).header d = some (put d f.name (.content f.content)) := by
  unfold seen
  rw [partHeaders, if_pos (by decide), contentName_disposition h]
  simp only
  cases f.type with
  | none => rfl
  | some t =>
    simp only
    rw [partHeaders, if_neg (by decide)]
    rfl

theorem multipartForm_seen (fs : List FormField) (h : ∀ f ∈ fs, PlainField f) (d : Dict) :
    multipartForm (fs.map seen) d = some (fs.foldl (fun d f => put d f.name (.content f.content)) d) := by
  induction fs generalizing d with
  | nil => rfl
  | cons f fs ih =>
    rw [List.map_cons, multipartForm]
    have e : (seen f).content = f.content := rfl
    rw [e, partHeaders_seen (h f (by simp))]
    simp only
    rw [ih (fun g hg => h g (by simp [hg]))]
    rfl

theorem foldl_put (fs : List FormField) : ∀ d : Dict, (d.map (·.1) ++ fs.map (·.name)).Nodup →
    fs.foldl (fun d f => put d f.name (.content f.content)) d = d ++ fs.map (fun f => (f.name, .content f.content)) := by
  induction fs with
  | nil => intro d _; simp
  | cons f fs ih =>
    intro d h
    rw [List.foldl_cons, put_new, ih]
    · simp
    · simpa using h
    · intro e he hn
      rw [List.nodup_append] at h
      exact h.2.2 e.1 (List.mem_map_of_mem he) f.name (by simp) hn

theorem foldl_put_mem (fs : List FormField) : ∀ d : Dict, (d.map (·.1)).Nodup →
    ((fs.foldl (fun d f => put d f.name (.content f.content)) d).map (·.1)).Nodup ∧
    ∀ n v, (∀ f ∈ fs, f.name ≠ n) → ((n, v) ∈ fs.foldl (fun d f => put d f.name (.content f.content)) d ↔ (n, v) ∈ d) := by
  induction fs with
  | nil => intro d h; exact ⟨h, fun n v _ => Iff.rfl⟩
  | cons f fs ih =>
    intro d h
    rw [List.foldl_cons]
    obtain ⟨h1, h2⟩ := ih (put d f.name (.content f.content)) (put_nodup h)
    refine ⟨h1, fun n v hn => ?_⟩
    rw [h2 n v (fun g hg => hn g (by simp [hg])), put_mem h]
    constructor
    · rintro (⟨e, -⟩ | h)
      · exact absurd e.symm (hn f (by simp))
      · exact h.2
    · intro hm
      exact Or.inr ⟨fun e => hn f (by simp) e.symm, hm⟩

/-! ## UTF-8 -/

theorem enc_bytes {c b : Nat} (hb : b ∈ enc c) (hc : 128 ≤ c) : 128 ≤ b := by
  unfold enc at hb
  split at hb
  · omega
  · split at hb
    · simp at hb; omega
    · split at hb
      · simp at hb; omega
      · simp at hb; omega

theorem utf8_mem {s : Str} {b : Nat} (hb : b < 128) (h : b ∈ utf8 s) : b ∈ s := by
  unfold utf8 at h
  obtain ⟨c, hc, hb'⟩ := List.mem_flatMap.1 h
  by_cases h128 : c < 128
  · unfold enc at hb'
    rw [if_pos (by omega)] at hb'
    simp at hb'; subst hb'; exact hc
  · have := enc_bytes hb' (by omega); omega

theorem disposition_scalar {f : FormField} (h : PlainField f) : ∀ c ∈ disposition f, Scalar c := by
  intro c hc
  unfold disposition at hc
  simp only [List.mem_append] at hc
  have asc : ∀ l : Str, (∀ x ∈ l, x < 128) → c ∈ l → Scalar c := fun l hl hm => scalar_ascii (hl c hm)
  rcases hc with ((hc | hc) | hc) | hc
  · exact asc _ (by decide) hc
  · exact h.1.2.2.2.2 c hc
  · exact asc _ (by decide) hc
  · cases hf : f.file with
    | none => rw [hf] at hc; cases hc
    | some n =>
      rw [hf] at hc
      simp only [List.mem_append] at hc
      rcases hc with (hc | hc) | hc
      · exact asc _ (by decide) hc
      · exact (h.2.1 n hf).2.2 c hc
      · exact asc _ (by decide) hc

theorem disposition_cr {f : FormField} (h : PlainField f) : 13 ∉ disposition f := by
  intro hc
  unfold disposition at hc
  simp only [List.mem_append] at hc
  rcases hc with ((hc | hc) | hc) | hc
  · revert hc; decide
  · exact h.1.2.2.2.1 hc
  · revert hc; decide
  · cases hf : f.file with
    | none => rw [hf] at hc; cases hc
    | some n =>
      rw [hf] at hc
      simp only [List.mem_append] at hc
      rcases hc with (hc | hc) | hc
      · revert hc; decide
      · exact (h.2.1 n hf).2.1 hc
      · revert hc; decide

theorem wire_good {f : FormField} (h : PlainField f) : ∀ x ∈ (wire f).1, Multipart.Spec.GoodField x := by
  intro x hx
  unfold wire at hx
  simp only [List.mem_cons] at hx
  rcases hx with rfl | hx
  · refine ⟨⟨b!"Disposition", rfl⟩, by simp, by simp, by simp, ?_, ?_, ?_⟩
    · exact fun hc => disposition_cr h (utf8_mem (by omega) hc)
    · have : ∃ r, utf8 (disposition f) = 102 :: r := ⟨_, rfl⟩
      obtain ⟨r, hr⟩ := this
      simp [hr]
    · have : ∃ r, utf8 (disposition f) = 102 :: r := ⟨_, rfl⟩
      obtain ⟨r, hr⟩ := this
      simp [hr]
  · cases ht : f.type with
    | none => rw [ht] at hx; cases hx
    | some t =>
      rw [ht] at hx
      simp only [List.mem_cons, List.not_mem_nil, or_false] at hx
      subst hx
      have hall := h.2.2 t ht
      refine ⟨⟨b!"Type", rfl⟩, by simp, by simp, by simp, ?_, ?_, ?_⟩
      · intro hc; have := hall 13 hc; omega
      · intro hc; have := hall 32 (List.mem_of_head? hc); omega
      · intro hc; have := hall 9 (List.mem_of_head? hc); omega

theorem decodeHeader_wire {f : FormField} (h : PlainField f) : decodeHeader (wire f).1 = some (seen f).header := by
  unfold wire seen
  have e1 : decodeStrict b!"Content-Disposition" = some b!"Content-Disposition" := by decide +kernel
  have e2 : decodeStrict b!"Content-Type" = some b!"Content-Type" := by decide +kernel
  have e3 := decodeStrict_utf8 (disposition f) (disposition_scalar h)
  cases ht : f.type with
  | none => simp only [decodeHeader, e1, e3]
  | some t =>
    have hall := h.2.2 t ht
    have e4 : decodeStrict t = some t := by
      have := decodeStrict_utf8 t (fun c hc => scalar_ascii (hall c hc).2)
      rwa [utf8_ascii t (fun c hc => (hall c hc).2)] at this
    simp only [decodeHeader, e1, e2, e3, e4]

theorem decodeParts_wire (fs : List FormField) (h : ∀ f ∈ fs, PlainField f) : decodeParts (fs.map wire) = some (fs.map seen) := by
  induction fs with
  | nil => rfl
  | cons f fs ih =>
    rw [List.map_cons]
    have e : wire f = ((wire f).1, f.content) := rfl
    rw [e, decodeParts, decodeHeader_wire (h f (by simp)), ih (fun g hg => h g (by simp [hg]))]
    rfl

end Fly.PyForm
