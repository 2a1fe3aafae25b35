import Verif.Cache.Lemmas

/-! # C34, C35, C77: conditional requests and entity tags -/

namespace Fly.Cache

open Fly.Header (HList HField cstr strEq)

/-! ## C35: entity tags -/

/-- **C35** (exact): two digests get the same tag iff they differ only in bytes that are at least 128 in
both. -/
theorem C35_same_tag_iff (d1 d2 : Bytes) (h1 : Digest d1) (h2 : Digest d2) : tag d1 = tag d2 ↔ DifferHigh d1 d2 := by
  unfold tag
  rw [List.take_of_length_le (by rw [h1.1]; omega), List.take_of_length_le (by rw [h2.1]; omega)]
  exact flatMap_eq d1 d2 (by rw [h1.1, h2.1]) h1.2 h2.2

theorem differHigh_low : ∀ {x y : Bytes}, DifferHigh x y → (∀ b ∈ x, b < 128) → x = y := by
  intro x y h
  induction h with
  | nil => intro _; rfl
  | same b x y _ ih => intro hx; rw [ih (fun c hc => hx c (by simp [hc]))]
  | high a b x y h1 _ _ _ => intro hx; have := hx a (by simp); omega

theorem differHigh_refl : ∀ (x : Bytes), DifferHigh x x := by
  intro x
  induction x with
  | nil => exact .nil
  | cons a x ih => exact .same a x x ih

/-- **C35** (partial: digests whose bytes are all below 128). Different digests get different tags, equal
digests equal tags. -/
theorem C35_partial (d1 d2 : Bytes) (h1 : Digest d1) (h2 : Digest d2) (hl : ∀ b ∈ d1, b < 128) :
    tag d1 = tag d2 ↔ d1 = d2 := by
  rw [C35_same_tag_iff d1 d2 h1 h2]
  exact ⟨fun h => differHigh_low h hl, fun h => h ▸ differHigh_refl d1⟩

example : Digest (List.replicate 16 65) ∧ ∀ b ∈ List.replicate 16 65, b < 128 := by
  unfold Digest; decide

/-- Every digest with a byte of 128 or more (all but one in 65536) shares its tag with a different digest. -/
theorem C35_collisions_refuted (d : Bytes) (h : Digest d) (hb : ∃ b ∈ d, 128 ≤ b) :
    ∃ d', Digest d' ∧ d' ≠ d ∧ tag d' = tag d := by
  have key : ∀ (x : Bytes), (∀ b ∈ x, b < 256) → (∃ b ∈ x, 128 ≤ b) →
      ∃ y, y.length = x.length ∧ (∀ b ∈ y, b < 256) ∧ y ≠ x ∧ DifferHigh y x := by
    intro x
    induction x with
    | nil => rintro _ ⟨b, hb, _⟩; cases hb
    | cons a x ih =>
      intro hx hb
      by_cases ha : 128 ≤ a
      · refine ⟨(if a = 128 then 129 else 128) :: x, by simp, ?_, ?_, .high _ _ _ _ (by split <;> omega) ha (differHigh_refl x)⟩
        · intro b hb
          rcases List.mem_cons.1 hb with hb | hb
          · split at hb <;> omega
          · exact hx b (by simp [hb])
        · intro e
          injection e with e _
          split at e <;> omega
      · obtain ⟨b, hb, h128⟩ := hb
        rcases List.mem_cons.1 hb with hb | hb
        · omega
        · obtain ⟨y, e1, e2, e3, e4⟩ := ih (fun c hc => hx c (by simp [hc])) ⟨b, hb, h128⟩
          refine ⟨a :: y, by simp [e1], ?_, by simpa using e3, .same _ _ _ e4⟩
          intro c hc
          rcases List.mem_cons.1 hc with hc | hc
          · rw [hc]; exact hx a (by simp)
          · exact e2 c hc
  obtain ⟨y, e1, e2, e3, e4⟩ := key d h.2 hb
  have hy : Digest y := ⟨by rw [e1, h.1], e2⟩
  exact ⟨y, hy, e3, (C35_same_tag_iff y d hy h).2 e4⟩

example : Digest (List.replicate 16 200) ∧ (∃ b ∈ List.replicate 16 200, 128 ≤ b) ∧
    tag (List.replicate 16 200) = List.replicate 32 102 := by
  unfold Digest; decide +kernel

theorem hexByte_text : ∀ b, b < 256 → hexByte b = if b < 128 then hexText b else b!"ff" := by decide +kernel

/-- **C35** (exact): the text of the tag.  Two hexadecimal digits for each byte of the digest, but `ff` for every byte that is at least 128. -/
theorem C35_text (d : Bytes) (h : Digest d) : tag d = d.flatMap fun b => if b < 128 then hexText b else b!"ff" := by
  have key : ∀ x : Bytes, (∀ b ∈ x, b < 256) → x.flatMap hexByte = x.flatMap fun b => if b < 128 then hexText b else b!"ff" := by
    intro x
    induction x with
    | nil => intro _; rfl
    | cons a x ih =>
      intro hx
      rw [List.flatMap_cons, List.flatMap_cons, ih (fun b hb => hx b (by simp [hb])), hexByte_text a (hx a (by simp))]
  unfold tag
  rw [List.take_of_length_le (by rw [h.1]; omega)]
  exact key d h.2

example : Digest (List.replicate 15 0x5e ++ [0xd4]) ∧ tag (List.replicate 15 0x5e ++ [0xd4]) = (List.replicate 15 b!"5e").flatten ++ b!"ff" := by
  unfold Digest; decide +kernel

/-- The hashed text tells files and times apart, for times from 2001 to 2286. -/
theorem C35_source_partial (n1 n2 : Bytes) (m1 c1 m2 c2 : Int)
    (hm1 : 1000000000 ≤ m1 ∧ m1 < 10000000000) (hc1 : 1000000000 ≤ c1 ∧ c1 < 10000000000)
    (hm2 : 1000000000 ≤ m2 ∧ m2 < 10000000000) (hc2 : 1000000000 ≤ c2 ∧ c2 < 10000000000) :
    (md5Source n1 m1 c1).isSome ∧ (md5Source n1 m1 c1 = md5Source n2 m2 c2 ↔ n1 = n2 ∧ m1 = m2 ∧ c1 = c2) := by
  have hp : ∀ t : Int, 1000000000 ≤ t → t < 10000000000 → printLong t = Response.decimal t.natAbs ∧
      (printLong t).length = 10 ∧ digitsTime t = 10 := by
    intro t h1 h2
    have e : printLong t = Response.decimal t.natAbs := by unfold printLong; rw [if_neg (by omega)]
    have hl := decimal_len10 t.natAbs (by omega) (by omega)
    refine ⟨e, by rw [e, hl], ?_⟩
    unfold digitsTime
    rw [← decimal_len t.natAbs (by omega), hl]
  have hs : ∀ (n : Bytes) (m c : Int), (1000000000 ≤ m ∧ m < 10000000000) → (1000000000 ≤ c ∧ c < 10000000000) →
      md5Source n m c = some (n ++ printLong m ++ printLong c) := by
    intro n m c hm hc
    have h1 := hp m hm.1 hm.2
    have h2 := hp c hc.1 hc.2
    unfold md5Source
    simp only [h1.2.2, h2.2.2, List.length_append, h1.2.1, h2.2.1]
    rw [if_neg (by omega)]
  have hinj : ∀ a b : Int, (1000000000 ≤ a ∧ a < 10000000000) → (1000000000 ≤ b ∧ b < 10000000000) →
      printLong a = printLong b → a = b := by
    intro a b ha hb h
    rw [(hp a ha.1 ha.2).1, (hp b hb.1 hb.2).1] at h
    have r := fun n => (Response.C53_decimal_reads_back n).2.2.1
    have ra := r a.natAbs
    have rb := r b.natAbs
    rw [(Response.C53_digits_reserved_exact _).2] at ra rb
    rw [h, rb] at ra
    omega
  rw [hs n1 m1 c1 hm1 hc1, hs n2 m2 c2 hm2 hc2]
  refine ⟨rfl, ?_, ?_⟩
  · intro h
    have h := Option.some.inj h
    have s1 := List.append_inj' h (by rw [(hp c1 hc1.1 hc1.2).2.1, (hp c2 hc2.1 hc2.2).2.1])
    have s2 := List.append_inj' s1.1 (by rw [(hp m1 hm1.1 hm1.2).2.1, (hp m2 hm2.1 hm2.2).2.1])
    exact ⟨s2.1, hinj m1 m2 hm1 hm2 s2.2, hinj c1 c2 hc1 hc2 s1.2⟩
  · rintro ⟨rfl, rfl, rfl⟩; rfl

/-- In general it does not: there is nothing between the three parts. -/
theorem C35_source_refuted (n : Bytes) : md5Source n 1 11 = md5Source n 11 1 ∧ (md5Source n 1 11).isSome ∧
    md5Source (n ++ b!"1") 1 1 = md5Source n 11 1 := by
  have d1 : digitsTime 1 = 1 ∧ digitsTime 11 = 2 := by
    constructor <;> decide +kernel
  have p1 : printLong 1 = [49] ∧ printLong 11 = [49, 49] := by
    constructor <;> decide +kernel
  refine ⟨?_, ?_, ?_⟩ <;> simp [md5Source, d1, p1]

/-! ## C77: every file gets a tag -/

/-- **C77** (partial: times after 1970-01-01). A file whose two times are positive gets a tag. -/
theorem C77_partial (md5 : Bytes → Bytes) (n : Bytes) (m c : Int) (hm : 0 < m) (hc : 0 < c) :
    (etag md5 n m c).isSome = true := by
  have hp : ∀ t : Int, 0 < t → (printLong t).length = digitsTime t := by
    intro t h
    unfold printLong digitsTime
    rw [if_neg (by omega), decimal_len _ (by omega)]
  unfold etag md5Source
  simp only [List.length_append, hp m hm, hp c hc]
  rw [if_neg (by omega)]
  rfl

/-- A file whose modification or change time is 1970-01-01 00:00:00 or before gets none: mounting its
directory fails. -/
theorem C77_old_file_refuted (md5 : Bytes → Bytes) (n : Bytes) (m c : Int) (h : m ≤ 0 ∨ c ≤ 0) :
    etag md5 n m c = none := by
  have hge : ∀ t : Int, digitsTime t ≤ (printLong t).length := by
    intro t
    unfold printLong digitsTime
    by_cases h0 : t = 0
    · subst h0; simp [Response.countDigits]
    · have := decimal_len t.natAbs (by omega)
      split
      · rw [List.length_cons]; omega
      · omega
  have hgt : ∀ t : Int, t ≤ 0 → digitsTime t < (printLong t).length := by
    intro t ht
    unfold printLong digitsTime
    by_cases h0 : t = 0
    · subst h0
      rw [if_neg (by omega)]
      exact decimal_pos 0
    · have := decimal_len t.natAbs (by omega)
      rw [if_pos (by omega), List.length_cons]; omega
  have h1 := hge m
  have h2 := hge c
  have : md5Source n m c = none := by
    unfold md5Source
    simp only [List.length_append]
    rw [if_pos]
    rcases h with h | h
    · have := hgt m h; omega
    · have := hgt c h; omega
  unfold etag
  rw [this]; rfl

example : etag (fun s => s) b!"index.html" 0 1700000000 = none := C77_old_file_refuted _ _ _ _ (Or.inl (by omega))

/-! ## C34: conditional requests -/

theorem noUpper_inm (s : Bytes) (h : NoUpper s) : cstr s ≠ b!"If-None-Match" ∧ cstr s ≠ b!"If-Modified-Since" := by
  have sub : ∀ c ∈ cstr s, c ∈ s := fun c hc => by
    unfold cstr at hc
    exact List.takeWhile_subset _ hc
  constructor
  · intro e
    exact h 73 (sub 73 (by rw [e]; decide)) (by omega)
  · intro e
    exact h 73 (sub 73 (by rw [e]; decide)) (by omega)

/-- Field names in lower case, which is how HTTP/2 transmits them and how the HTTP/1 parser stores them, are
never recognised: no such request is answered with 304, whatever validators it carries. -/
theorem C34_lower_case_refuted (read : Bytes → Option Int) (h : HList) (etag lastMod : Bytes)
    (hl : ∀ f ∈ h.items, NoUpper (f.name.getD [])) : answers304 read h etag lastMod = some false := by
  have k1 : ∀ (l : List HField), (∀ f ∈ l, NoUpper (f.name.getD [])) → ifNoneMatchLoop etag l = some false := by
    intro l
    induction l with
    | nil => intro _; rfl
    | cons f l ih =>
      intro hl
      rw [ifNoneMatchLoop, if_neg (fun e => (noUpper_inm _ (hl f (by simp))).1 e.2)]
      exact ih (fun g hg => hl g (by simp [hg]))
  have k2 : ∀ (l : List HField), (∀ f ∈ l, NoUpper (f.name.getD [])) → ifModifiedSinceLoop read lastMod l = some false := by
    intro l
    induction l with
    | nil => intro _; rfl
    | cons f l ih =>
      intro hl
      rw [ifModifiedSinceLoop, if_neg (fun e => (noUpper_inm _ (hl f (by simp))).2 e.2)]
      exact ih (fun g hg => hl g (by simp [hg]))
  have a : ifNoneMatch h etag = some false := by
    unfold ifNoneMatch; split
    · rfl
    · exact k1 _ hl
  have b : ifModifiedSince read h lastMod = some false := by
    unfold ifModifiedSince; split
    · rfl
    · exact k2 _ hl
  unfold answers304
  rw [a]
  exact b

/-- **HTTP/1**: whatever bytes a client sends as its header, the file is sent in full; in particular when the
client's copy is current. -/
theorem C34_http1_never_304_refuted (read : Bytes → Option Int) (data rest : Bytes) (h : HList) (etag lastMod : Bytes)
    (hp : ReqHeader.headerOperation data = .ok h rest) : answers304 read h etag lastMod = some false := by
  apply C34_lower_case_refuted
  have low : ∀ n : Bytes, NoUpper (n.map Header.lower) := by
    intro n c hc
    obtain ⟨x, _, e⟩ := List.mem_map.1 hc
    unfold Header.lower at e
    split at e <;> omega
  have key : ∀ (f : Nat) (h h' : HList) (p r : Bytes), (∀ g ∈ h.items, NoUpper (g.name.getD [])) →
      ReqHeader.parseHeader f h p = .ok h' r → ∀ g ∈ h'.items, NoUpper (g.name.getD []) := by
    intro f
    induction f with
    | zero => intro h h' p r _ e; simp [ReqHeader.parseHeader] at e
    | succ f ih =>
      intro h h' p r hh e
      rw [ReqHeader.parseHeader] at e
      split at e
      · cases e
      · cases e
      · cases e
      · injection e with e1 _; subst e1; exact hh
      · exact ih _ _ _ _ hh e
      · rename_i n v r' _
        refine ih _ _ _ _ ?_ e
        intro g hg
        simp only [Header.addRequest, List.mem_append, List.mem_singleton] at hg
        rcases hg with hg | rfl
        · exact hh g hg
        · exact low n
  exact key _ _ _ _ _ (by intro g hg; cases hg) hp

/-- A request that carries the tag of the file. -/
example : ∃ h rest, ReqHeader.headerOperation b!"If-None-Match: 00ff\r\n\r\n" = .ok h rest ∧
    CarriesTag (h.items.map fun f => (f.name.getD [], f.value.getD [])) b!"00ff" := by
  refine ⟨⟨[⟨some b!"if-none-match", some b!"00ff"⟩], 1⟩, b!"\x00", by decide +kernel, ?_⟩
  exact ⟨_, List.mem_singleton.2 rfl, by unfold SameName; decide, rfl⟩

/-- **C34** (partial: fields named exactly `If-None-Match`, which only HTTP/2 requests against the standard can
carry; tags without NUL). The request is recognised as current iff one of these fields is exactly the tag. -/
theorem C34_if_none_match_partial (fs : List (Bytes × Bytes)) (etag : Bytes)
    (h0 : ∀ f ∈ fs, f.1 ≠ [] ∧ 0 ∉ f.1 ∧ f.2 ≠ [] ∧ 0 ∉ f.2) (he : 0 ∉ etag) :
    ifNoneMatch ⟨fs.map fun f => Header.mkField f.1 f.2, fs.length⟩ etag =
      some (fs.any fun f => f.1 == b!"If-None-Match" && f.2 == etag) := by
  have hc : ∀ s : Bytes, 0 ∉ s → cstr s = s := by
    intro s
    induction s with
    | nil => intro _; rfl
    | cons a s ih =>
      intro h
      unfold cstr at ih ⊢
      rw [List.takeWhile_cons, if_pos (by simp; intro e; exact h (by simp [e])), ih (fun e => h (by simp [e]))]
  have key : ∀ (l : List (Bytes × Bytes)), (∀ f ∈ l, f.1 ≠ [] ∧ 0 ∉ f.1 ∧ f.2 ≠ [] ∧ 0 ∉ f.2) →
      ifNoneMatchLoop etag (l.map fun f => Header.mkField f.1 f.2) =
        some (l.any fun f => f.1 == b!"If-None-Match" && f.2 == etag) := by
    intro l
    induction l with
    | nil => intro _; rfl
    | cons f l ih =>
      intro hl
      obtain ⟨a1, a2, a3, a4⟩ := hl f (by simp)
      have hn : ¬ f.1.length = 0 := by simpa using a1
      have hv : ¬ f.2.length = 0 := by simpa using a3
      have em : Header.mkField f.1 f.2 = ⟨some f.1, some f.2⟩ := by
        unfold Header.mkField; rw [if_neg hn, if_neg hv]
      rw [List.map_cons, em, ifNoneMatchLoop, List.any_cons]
      simp only [Option.getD_some, hc f.1 a2]
      have ih' := ih (fun g hg => hl g (by simp [hg]))
      by_cases hname : f.1 = b!"If-None-Match"
      · rw [if_pos ⟨by omega, hname⟩]
        simp only [strEq, hc f.2 a4, hc etag he]
        by_cases hval : f.2 = etag
        · simp [hname, hval]
        · have : (f.2 == etag) = false := by simpa using hval
          rw [this]
          simp only [Bool.and_false, Bool.false_or]
          exact ih'
      · rw [if_neg (fun e => hname e.2)]
        have : (f.1 == b!"If-None-Match") = false := by simpa using hname
        rw [this]
        simp only [Bool.false_and, Bool.false_or]
        exact ih'
  unfold ifNoneMatch
  by_cases hl : fs.length = 0
  · rw [if_pos hl]
    have : fs = [] := by simpa using hl
    rw [this]; rfl
  · rw [if_neg hl]
    exact key fs h0

example : ∀ f ∈ [(b!"If-None-Match", b!"00ff")], f.1 ≠ [] ∧ 0 ∉ f.1 ∧ f.2 ≠ [] ∧ 0 ∉ f.2 := by decide

/-- **C34** (partial: as before). A request with such a field and the current tag is answered with 304, whatever else it carries; one with neither the tag nor a field named exactly `If-Modified-Since` gets the file. -/
theorem C34_current_tag_304_partial (read : Bytes → Option Int) (fs : List (Bytes × Bytes)) (etag lastMod : Bytes)
    (h0 : ∀ f ∈ fs, f.1 ≠ [] ∧ 0 ∉ f.1 ∧ f.2 ≠ [] ∧ 0 ∉ f.2) (he : 0 ∉ etag) :
    ((b!"If-None-Match", etag) ∈ fs → answers304 read ⟨fs.map fun f => Header.mkField f.1 f.2, fs.length⟩ etag lastMod = some true) ∧
      ((b!"If-None-Match", etag) ∉ fs → (∀ f ∈ fs, f.1 ≠ b!"If-Modified-Since") → answers304 read ⟨fs.map fun f => Header.mkField f.1 f.2, fs.length⟩ etag lastMod = some false) := by
  have key := C34_if_none_match_partial fs etag h0 he
  constructor
  · intro hm
    have ha : (fs.any fun f => f.1 == b!"If-None-Match" && f.2 == etag) = true := List.any_eq_true.2 ⟨_, hm, by simp⟩
    unfold answers304
    rw [key, ha]
  · intro hm hd
    have ha : (fs.any fun f => f.1 == b!"If-None-Match" && f.2 == etag) = false := by
      rw [List.any_eq_false]
      rintro ⟨n, v⟩ hf hx
      simp only [Bool.and_eq_true, beq_iff_eq] at hx
      rw [hx.1, hx.2] at hf
      exact hm hf
    have hc : ∀ s : Bytes, 0 ∉ s → cstr s = s := by
      intro s
      induction s with
      | nil => intro _; rfl
      | cons a s ih =>
        intro h
        simp only [List.mem_cons, not_or] at h
        unfold cstr
        simp only [List.takeWhile_cons]
        rw [if_pos (by simpa using fun e => h.1 e.symm)]
        have := ih h.2
        unfold cstr at this
        rw [this]
    have hloop : ∀ l : List (Bytes × Bytes), (∀ f ∈ l, f.1 ≠ [] ∧ 0 ∉ f.1 ∧ f.1 ≠ b!"If-Modified-Since") →
        ifModifiedSinceLoop read lastMod (l.map fun f => Header.mkField f.1 f.2) = some false := by
      intro l
      induction l with
      | nil => intro _; rfl
      | cons f l ih =>
        intro hl
        obtain ⟨n1, n2, n3⟩ := hl f (by simp)
        rw [List.map_cons, ifModifiedSinceLoop]
        have hn : (Header.mkField f.1 f.2).name.getD [] = f.1 := by
          unfold Header.mkField
          simp [n1]
        rw [hn, hc _ n2, if_neg (fun e => n3 e.2)]
        exact ih (fun g hg => hl g (by simp [hg]))
    unfold answers304
    rw [key, ha]
    simp only
    unfold ifModifiedSince
    split
    · rfl
    · exact hloop fs (fun f hf => ⟨(h0 f hf).1, (h0 f hf).2.1, hd f hf⟩)

example : answers304 (fun _ => none) ⟨[(b!"Accept", b!"*/*"), (b!"If-None-Match", b!"00ff")].map fun f => Header.mkField f.1 f.2, 2⟩ b!"00ff" b!"x" = some true :=
  (C34_current_tag_304_partial _ [(b!"Accept", b!"*/*"), (b!"If-None-Match", b!"00ff")] b!"00ff" b!"x" (by decide) (by decide)).1 (by decide)

/-- Where `If-Modified-Since` is recognised, every date that can be read gives 304, also one before the last
modification. -/
theorem C34_any_date_refuted (read : Bytes → Option Int) (etag lastMod date : Bytes) (a b : Int)
    (hd : date ≠ [] ∧ 0 ∉ date) (h1 : read date = some a) (h2 : read lastMod = some b) :
    answers304 read ⟨[Header.mkField b!"If-Modified-Since" date], 1⟩ etag lastMod = some true := by
  have hc : cstr date = date := by
    have : ∀ s : Bytes, 0 ∉ s → cstr s = s := by
      intro s
      induction s with
      | nil => intro _; rfl
      | cons a s ih =>
        intro h
        unfold cstr at ih ⊢
        rw [List.takeWhile_cons, if_pos (by simp; intro e; exact h (by simp [e])), ih (fun e => h (by simp [e]))]
    exact this date hd.2
  have em : Header.mkField b!"If-Modified-Since" date = ⟨some b!"If-Modified-Since", some date⟩ := by
    unfold Header.mkField
    rw [if_neg (by decide), if_neg (by simpa using hd.1)]
  have n1 : ifNoneMatch ⟨[Header.mkField b!"If-Modified-Since" date], 1⟩ etag = some false := by
    rw [em]; rfl
  unfold answers304
  rw [n1, em]
  have : cstr b!"If-Modified-Since" = b!"If-Modified-Since" := by decide
  simp only [ifModifiedSince, ifModifiedSinceLoop, Option.getD_some, this]
  simp only [cmpDate, hc, h1, h2]
  by_cases h : a ≥ b <;> simp [h]

/-- An older date. -/
example : ∃ read : Bytes → Option Int, read b!"old" = some 1 ∧ read b!"new" = some 2 :=
  ⟨fun s => if s = b!"old" then some 1 else some 2, by decide, by decide⟩

/-- An `If-None-Match` field with an empty value makes the server read a null pointer. -/
theorem C34_empty_value_refuted (read : Bytes → Option Int) (etag lastMod : Bytes) (fs : List (Bytes × Bytes)) :
    answers304 read ⟨Header.mkField b!"If-None-Match" [] :: fs.map (fun f => Header.mkField f.1 f.2), fs.length + 1⟩ etag lastMod = none := by
  have em : Header.mkField b!"If-None-Match" [] = ⟨some b!"If-None-Match", none⟩ := by decide
  have : ifNoneMatch ⟨Header.mkField b!"If-None-Match" [] :: fs.map (fun f => Header.mkField f.1 f.2), fs.length + 1⟩ etag = none := by
    unfold ifNoneMatch
    rw [if_neg (by simp), em, ifNoneMatchLoop, if_pos (by decide)]
    rfl
  unfold answers304
  rw [this]

end Fly.Cache
