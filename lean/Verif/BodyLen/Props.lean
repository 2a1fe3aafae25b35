import Verif.BodyLen.Spec
import Verif.Conf.Lemmas
import Verif.Header.Props
import Verif.ReqEvent.Model

namespace Fly.BodyLen
open Header

theorem lower_iff (a b : Nat) : lower a = lower b ↔ SameLetter a b := by
  unfold lower SameLetter
  split <;> split <;> omega

theorem map_lower_iff : ∀ a b : Bytes, a.map lower = b.map lower ↔ SameText a b
  | [], [] => by simp [SameText]
  | [], _ :: _ => by simp [SameText]
  | _ :: _, [] => by simp [SameText]
  | x :: a, y :: b => by simp [SameText, lower_iff, map_lower_iff a b]

theorem received_go (ps : List (Bytes × Bytes)) : ∀ h : HList, ps.foldl (fun h p => addRequest h p.1 p.2) h =
    ⟨h.items ++ ps.map fun p => ⟨some (p.1.map lower), some p.2⟩, h.count + ps.length⟩ := by
  induction ps with
  | nil => intro h; simp
  | cons p ps ih => intro h; rw [List.foldl_cons, ih]; simp [addRequest, Nat.add_assoc, Nat.add_comm 1]

theorem received_eq (ps : List (Bytes × Bytes)) : received ps = ⟨ps.map fun p => ⟨some (p.1.map lower), some p.2⟩, ps.length⟩ := by
  unfold received; rw [received_go]; simp [HList.init]

/-- **C193** (`Expect`): the request asks for `100 Continue` exactly if one of its fields is `Expect: 100-continue`, in any case of the letters of the name and of the
value. -/
theorem C193_expect (ps : List (Bytes × Bytes)) :
    expect100 (received ps) = true ↔ ∃ p ∈ ps, SameText p.1 b!"Expect" ∧ SameText p.2 b!"100-continue" := by
  rw [received_eq, expect100]
  simp only [List.any_map, List.any_eq_true, Function.comp, Option.getD_some, Bool.and_eq_true, beq_iff_eq]
  have e1 : (b!"Expect").map lower = b!"expect" := by decide
  have e2 : (b!"100-continue").map lower = b!"100-continue" := by decide
  constructor
  · rintro ⟨p, hp, h1, h2⟩
    exact ⟨p, hp, (map_lower_iff _ _).1 (h1.trans e1.symm), (map_lower_iff _ _).1 (h2.trans e2.symm)⟩
  · rintro ⟨p, hp, h1, h2⟩
    exact ⟨p, hp, ((map_lower_iff _ _).2 h1).trans e1, ((map_lower_iff _ _).2 h2).trans e2⟩

example : expect100 (received [(b!"Host", b!"x"), (b!"EXPECT", b!"100-Continue")]) = true := by decide +kernel
example : expect100 (received [(b!"Host", b!"x"), (b!"Expect", b!"200-ok")]) = false := by decide +kernel

theorem cstr_lower (n : Bytes) (h : (0 : Nat) ∉ n) : cstr (n.map lower) = n.map lower := by
  refine cstr_good fun hx => ?_
  obtain ⟨y, hy, e⟩ := List.mem_map.1 hx
  have : y ≠ 0 := fun e => h (e ▸ hy)
  unfold lower at e; split at e <;> omega

theorem isLength (n : Bytes) (h : (0 : Nat) ∉ n) (v : Bytes) :
    ((fun f : HField => f.value.isSome && ((f.name.getD [] |> cstr) == b!"Content-Length" || (f.name.getD [] |> cstr) == b!"content-length"))
      ⟨some (n.map lower), some v⟩ = true) ↔ SameText n b!"Content-Length" := by
  have e1 : (b!"Content-Length").map lower = b!"content-length" := by decide
  simp only [Option.getD_some, Option.isSome_some, Bool.true_and, Bool.or_eq_true, beq_iff_eq, cstr_lower n h]
  rw [← map_lower_iff, e1]
  constructor
  · rintro (h1 | h1)
    · exfalso
      have : (67 : Nat) ∈ n.map lower := by rw [h1]; decide
      obtain ⟨y, hy, e⟩ := List.mem_map.1 this
      unfold lower at e; split at e <;> omega
    · exact h1
  · exact Or.inr

/-- **C193** (no length): a request without `Content-Length` field, in whatever case, has no body. -/
theorem C193_no_length (ps : List (Bytes × Bytes)) (h0 : ∀ p ∈ ps, (0 : Nat) ∉ p.1) (h : ∀ p ∈ ps, ¬ SameText p.1 b!"Content-Length") :
    contentLength (received ps) = 0 := by
  rw [received_eq, contentLength]
  split
  · rfl
  · have : (ps.map fun p => (⟨some (p.1.map lower), some p.2⟩ : HField)).find?
        (fun f : HField => f.value.isSome && ((f.name.getD [] |> cstr) == b!"Content-Length" || (f.name.getD [] |> cstr) == b!"content-length")) = none := by
      rw [List.find?_eq_none]
      intro f hf
      obtain ⟨p, hp, rfl⟩ := List.mem_map.1 hf
      exact fun hh => h p hp ((isLength p.1 (h0 p hp) p.2).1 hh)
    simp only [this]

theorem length_first (pre post : List (Bytes × Bytes)) (n v : Bytes) (h0 : ∀ p ∈ pre, (0 : Nat) ∉ p.1) (h1 : (0 : Nat) ∉ n)
    (h : ∀ p ∈ pre, ¬ SameText p.1 b!"Content-Length") (hn : SameText n b!"Content-Length") :
    contentLength (received (pre ++ (n, v) :: post)) = atoll (cstr v) := by
  rw [received_eq, contentLength, if_neg (by simp)]
  have : ((pre ++ (n, v) :: post).map fun p => (⟨some (p.1.map lower), some p.2⟩ : HField)).find?
      (fun f : HField => f.value.isSome && ((f.name.getD [] |> cstr) == b!"Content-Length" || (f.name.getD [] |> cstr) == b!"content-length")) =
      some ⟨some (n.map lower), some v⟩ := by
    rw [List.find?_eq_some_iff_append]
    refine ⟨(isLength n h1 v).2 hn, pre.map fun p => ⟨some (p.1.map lower), some p.2⟩, post.map fun p => ⟨some (p.1.map lower), some p.2⟩, by simp, ?_⟩
    intro f hf
    obtain ⟨p, hp, rfl⟩ := List.mem_map.1 hf
    have := mt (isLength p.1 (h0 p hp) p.2).1 (h p hp)
    simpa using this
  simp only [this, Option.getD_some]

theorem digits_no_nul {v : Bytes} (h : Digits v) : (0 : Nat) ∉ v := fun hm => absurd (h.2 0 hm).1 (by decide)

theorem cstr_digits {v : Bytes} (h : Digits v) : cstr v = v := cstr_good (digits_no_nul h)

/-- **C193** (length): if the first `Content-Length` field of a request, in whatever case, is a decimal number, then this is the length of the body the server waits for. -/
theorem C193_length_partial (pre post : List (Bytes × Bytes)) (n v : Bytes) (h0 : ∀ p ∈ pre, (0 : Nat) ∉ p.1) (h1 : (0 : Nat) ∉ n)
    (h : ∀ p ∈ pre, ¬ SameText p.1 b!"Content-Length") (hn : SameText n b!"Content-Length") (hv : Digits v) (hs : number v < 2 ^ 63) :
    contentLength (received (pre ++ (n, v) :: post)) = (number v : Int) ∧ ReqEvent.bodyLength (received (pre ++ (n, v) :: post)) = number v := by
  have e : contentLength (received (pre ++ (n, v) :: post)) = (number v : Int) := by
    rw [length_first pre post n v h0 h1 h hn, cstr_digits hv, Conf.atoll_digits v hv.2]; rfl
  refine ⟨e, ?_⟩
  rw [ReqEvent.bodyLength, e]
  omega

example : ReqEvent.bodyLength (received [(b!"Host", b!"x"), (b!"content-LENGTH", b!"120")]) = 120 ∧ Digits b!"120" ∧ SameText b!"content-LENGTH" b!"Content-Length" := by
  refine ⟨by decide +kernel, ⟨by simp, by simp⟩, ?_⟩
  exact (map_lower_iff _ _).1 (by decide)

/-- **C193 refuted** (two lengths): a request with two different lengths is not rejected: the first one counts, whatever the second is. -/
theorem C193_two_lengths_refuted (a b : Bytes) (ha : Digits a) (hs : number a < 2 ^ 63) :
    ReqEvent.bodyLength (received [(b!"Content-Length", a), (b!"Content-Length", b)]) = number a :=
  (C193_length_partial [] [(b!"Content-Length", b)] b!"Content-Length" a (by simp) (by decide) (by simp) ((map_lower_iff _ _).1 rfl) ha hs).2

/-- **C193 refuted** (not a number): what follows the digits is ignored, so `Content-Length: 5, 7` or `5x` are lengths. -/
theorem C193_trailing_text_refuted (v : Bytes) (x : Nat) (t : Bytes) (hv : Digits v) (hx : ¬ (48 ≤ x ∧ x ≤ 57)) (hs : number v < 2 ^ 63) :
    ReqEvent.bodyLength (received [(b!"Content-Length", v ++ x :: t)]) = number v := by
  have e := length_first [] [] b!"Content-Length" (v ++ x :: t) (by simp) (by decide) (by simp) ((map_lower_iff _ _).1 rfl)
  simp only [List.nil_append] at e
  have e2 : atoll (cstr (v ++ x :: t)) = (number v : Int) := by
    have : cstr (v ++ x :: t) = v ++ cstr (x :: t) := by
      unfold cstr
      rw [List.takeWhile_append_of_pos]
      intro y hy
      have := (hv.2 y hy).1
      simp only [bne_iff_ne, ne_eq]; omega
    rw [this]
    by_cases h0 : x = 0
    · subst h0
      rw [show cstr (0 :: t) = [] from rfl, List.append_nil, Conf.atoll_digits v hv.2]; rfl
    · rw [show cstr (x :: t) = x :: cstr t from by unfold cstr; rw [List.takeWhile_cons_of_pos (by simpa using h0)], Conf.atoll_front v x _ hv.1 hv.2 hx]; rfl
  rw [ReqEvent.bodyLength, e, e2]
  omega

/-- **C193 refuted** (negative): a negative length is not rejected: the server takes it for a huge one, `2^64 - n`. -/
theorem C193_negative_refuted (v : Bytes) (hv : Digits v) (h1 : 0 < number v) (hs : number v < 2 ^ 63) :
    ReqEvent.bodyLength (received [(b!"Content-Length", 45 :: v)]) = 2 ^ 64 - number v := by
  have e := length_first [] [] b!"Content-Length" (45 :: v) (by simp) (by decide) (by simp) ((map_lower_iff _ _).1 rfl)
  simp only [List.nil_append] at e
  have e2 : atoll (cstr (45 :: v)) = - (number v : Int) := by
    rw [show cstr (45 :: v) = 45 :: cstr v from rfl, cstr_digits hv]
    have : atoll (45 :: v) = - (digitsVal 0 v : Int) := rfl
    rw [this, Conf.digitsVal_foldl v 0 hv.2]; rfl
  rw [ReqEvent.bodyLength, e, e2]
  omega

example : Digits b!"1" ∧ 0 < number b!"1" ∧ number b!"1" < 2 ^ 63 := by refine ⟨⟨by simp, by simp⟩, by decide, by decide⟩

end Fly.BodyLen
