import Verif.Multipart.Lemmas

/-! # C98, C99 — multipart forms -/

namespace Fly.Multipart

open Spec

/-- The request has a Content-Type field with the value `v`, and none before it. -/
def HasType (h : List Header.HField) (v : Bytes) : Prop :=
  ∃ l1 l2 n, h = l1 ++ ⟨some n, some v⟩ :: l2 ∧ (n = b!"Content-Type" ∨ n = b!"content-type") ∧
    ∀ f ∈ l1, f.name ≠ some b!"Content-Type" ∧ f.name ≠ some b!"content-type"

theorem notType {f : Header.HField} (h : f.name ≠ some b!"Content-Type" ∧ f.name ≠ some b!"content-type") : isContentType f = false := by
  unfold isContentType
  have h1 : (f.name == some b!"Content-Type") = false := beq_eq_false_iff_ne.2 h.1
  have h2 : (f.name == some b!"content-type") = false := beq_eq_false_iff_ne.2 h.2
  rw [h1, h2]; rfl

theorem isType {n v : Bytes} (h : n = b!"Content-Type" ∨ n = b!"content-type") : isContentType ⟨some n, some v⟩ = true := by
  rcases h with rfl | rfl <;> rfl

theorem find_type {h : List Header.HField} {v : Bytes} (hh : HasType h v) : ∃ f, h.find? isContentType = some f ∧ f.value = some v := by
  obtain ⟨l1, l2, n, rfl, hn, hl⟩ := hh
  refine ⟨⟨some n, some v⟩, ?_, rfl⟩
  rw [List.find?_append, List.find?_eq_none.2 (fun f hf => by rw [notType (hl f hf)]; simp), Option.none_or, List.find?_cons_of_pos (isType hn)]

theorem isMultipart_skip (l1 l : List Header.HField) (hl : ∀ f ∈ l1, f.name ≠ some b!"Content-Type" ∧ f.name ≠ some b!"content-type") :
    isMultipart (l1 ++ l) = isMultipart l := by
  induction l1 with
  | nil => rfl
  | cons f l1 ih =>
    rw [List.cons_append, isMultipart, notType (hl f (by simp))]
    exact ih fun g hg => hl g (by simp [hg])

theorem mimeFromStrn_multipart (w : Bytes) : mimeFromStrn (b!"multipart/form-data" ++ w) = some b!"multipart/form-data" := by
  simp [mimeFromStrn, PyBridge.mimes, List.find?]

theorem isMultipart_true {h : List Header.HField} {w : Bytes} (hh : HasType h (b!"multipart/form-data" ++ w)) : isMultipart h = some true := by
  obtain ⟨l1, l2, n, rfl, hn, hl⟩ := hh
  rw [isMultipart_skip _ _ hl, isMultipart, isType hn, if_pos rfl, Option.getD_some, mimeFromStrn_multipart]
  simp only [if_true]

theorem seek_ok (c : Nat) : ∀ (p t : Bytes), c ∉ p → t ≠ [] → seek c (p ++ c :: t) = some (c :: t)
  | [], t, _, _ => by rw [List.nil_append, seek, if_pos rfl]
  | x :: p, t, hp, ht => by
    have := List.length_pos_iff.2 ht
    rw [List.cons_append, seek, if_neg (fun e => hp (by simp [e])), if_neg (by simp; omega)]
    exact seek_ok c p t (fun h => hp (by simp [h])) ht

theorem boundaryOf_ok (bd : Bytes) (h : bd ≠ []) : boundaryOf (b!"multipart/form-data; boundary=" ++ bd) = some bd := by
  have e1 := seek_ok 59 b!"multipart/form-data" (b!" boundary=" ++ bd) (by decide) (by simp)
  have e2 := seek_ok 32 b!";" (b!"boundary=" ++ bd) (by decide) (by simp)
  have e3 := seek_ok 61 b!" boundary" bd (by decide) h
  unfold boundaryOf
  simp only [List.cons_append, List.nil_append] at e1 e2 e3 ⊢
  rw [e1]
  simp only [e2, e3, List.drop_succ_cons, List.drop_zero]

/-- What the handler sees of a body whose scan is known. -/
theorem bodySeen_of {h : List Header.HField} {bd body : Bytes} (hbd : bd ≠ []) (hh : HasType h (b!"multipart/form-data; boundary=" ++ bd)) {o : Out}
    (hs : scan (body.length + 1) bd [] body = o) : isMultipart h = some true ∧ parseMultipart h body = o := by
  obtain ⟨f, hf, hv⟩ := find_type hh
  refine ⟨isMultipart_true (w := b!"; boundary=" ++ bd) hh, ?_⟩
  unfold parseMultipart
  rw [hf]
  simp only [hv, Option.getD_some, boundaryOf_ok bd hbd, hs]

/-- **C98 (partial).** For every boundary, every non-empty list of parts with header fields `Content-…` and contents in
which the delimiter does not occur, every preamble and epilogue: the handler receives exactly these parts, in order,
with their header fields and contents.  Missing: contents that begin with a NUL byte, an empty form, other writings of
the Content-Type and of part header names, and contents with the delimiter within a line; see below. -/
theorem C98_parts_received_partial {h : List Header.HField} {bd : Bytes} (hbd : GoodBoundary bd)
    (hh : HasType h (b!"multipart/form-data; boundary=" ++ bd)) (pre : Option Bytes) (hpre : ∀ t, pre = some t → Free bd t) (ep : Bytes)
    (ps : List Part) (hne : ps ≠ []) (hps : ∀ p ∈ ps, GoodPart bd p) (hnul : ∀ p ∈ ps, p.2.head? ≠ some 0) :
    bodySeen h (encode bd pre ep ps) = .parts ps := by
  have hs := scan_encode hbd pre hpre ep ps (R := fun qs => .done (qs ++ raw bd ep ps))
    (fun n qs hn => scan_after hbd ps (fun p hp => ⟨hps p hp, hnul p hp⟩) n qs hn)
  obtain ⟨h1, h2⟩ := bodySeen_of hbd.1 hh hs
  unfold bodySeen
  rw [h1, h2]
  simp only [List.nil_append]
  obtain ⟨p, ps, rfl⟩ := List.exists_cons_of_ne_nil hne
  have e : raw bd ep (p :: ps) = ⟨p.1, p.2 ++ b!"\r\n--" ++ bd ++ after bd ep ps, p.2.length⟩ :: raw bd ep ps := rfl
  rw [e]
  simp only
  rw [← e, pyParts_raw]

/-- A form with a text field and a file. -/
def sampleForm : List Part :=
  [([(b!"Content-Disposition", b!"form-data; name=\"a\"")], b!"x--y-"),
   ([(b!"Content-Disposition", b!"form-data; name=\"f\"; filename=\"t.bin\""), (b!"Content-Type", b!"application/octet-stream")], [255, 0, 13, 10, 45])]

example : HasType [⟨some b!"host", some b!"h"⟩, ⟨some b!"content-type", some b!"multipart/form-data; boundary=--X"⟩] (b!"multipart/form-data; boundary=" ++ b!"--X") ∧
    GoodBoundary b!"--X" ∧
    bodySeen [⟨some b!"host", some b!"h"⟩, ⟨some b!"content-type", some b!"multipart/form-data; boundary=--X"⟩]
      (encode b!"--X" none b!"\r\n" sampleForm) = .parts sampleForm :=
  ⟨⟨[⟨some b!"host", some b!"h"⟩], [], b!"content-type", rfl, Or.inr rfl, by simp⟩, ⟨by simp, by simp, by simp⟩, by decide +kernel⟩

example : ∀ p ∈ sampleForm, GoodPart b!"--X" p ∧ p.2.head? ≠ some 0 := by
  have free : ∀ c : Bytes, (88 ∉ c) → Free b!"--X" c := fun c hc ⟨s, t, e⟩ => hc (by rw [← e]; simp)
  intro p hp
  simp only [sampleForm, List.mem_cons, List.not_mem_nil, or_false] at hp
  rcases hp with rfl | rfl
  · refine ⟨⟨?_, free _ (by decide)⟩, by simp⟩
    intro f hf
    simp only [List.mem_cons, List.not_mem_nil, or_false] at hf
    subst hf
    exact ⟨⟨b!"Disposition", rfl⟩, by decide, by decide, by decide, by decide, by decide, by decide⟩
  · refine ⟨⟨?_, free _ (by decide)⟩, by simp⟩
    intro f hf
    simp only [List.mem_cons, List.not_mem_nil, or_false] at hf
    rcases hf with rfl | rfl
    · exact ⟨⟨b!"Disposition", rfl⟩, by decide, by decide, by decide, by decide, by decide, by decide⟩
    · exact ⟨⟨b!"Type", rfl⟩, by decide, by decide, by decide, by decide, by decide, by decide⟩

/-- **C98 (partial, any blanks).** As above, for clients that write any number of blanks and tabs around the colons of
the header fields of parts, also none: the handler receives the fields without them. -/
theorem C98_blanks_partial {h : List Header.HField} {bd : Bytes} (hbd : GoodBoundary bd)
    (hh : HasType h (b!"multipart/form-data; boundary=" ++ bd)) (pre : Option Bytes) (hpre : ∀ t, pre = some t → Free bd t) (ep : Bytes)
    (ps : List WPart) (hne : ps ≠ []) (hps : ∀ p ∈ ps, GoodWPart bd p) (hnul : ∀ p ∈ ps, p.2.head? ≠ some 0) :
    bodySeen h (encodeW bd pre ep ps) = .parts (ps.map meant) := by
  have hs := scan_encodeW hbd pre hpre ep ps (R := fun qs => .done (qs ++ rawW bd ep ps))
    (fun n qs hn => scan_afterW hbd ps (fun p hp => ⟨hps p hp, hnul p hp⟩) n qs hn)
  obtain ⟨h1, h2⟩ := bodySeen_of hbd.1 hh hs
  unfold bodySeen
  rw [h1, h2]
  simp only [List.nil_append]
  obtain ⟨p, ps, rfl⟩ := List.exists_cons_of_ne_nil hne
  have e : rawW bd ep (p :: ps) = ⟨p.1.map Written.field, p.2 ++ b!"\r\n--" ++ bd ++ afterW bd ep ps, p.2.length⟩ :: rawW bd ep ps := rfl
  rw [e]
  simp only
  rw [← e, pyParts_rawW]

/-- A file whose type is written without a blank, and its disposition with blanks on both sides of the colon. -/
def sampleBlanks : List WPart :=
  [([⟨b!"Content-Disposition", [32, 9], [9], b!"form-data; name=\"f\""⟩, ⟨b!"Content-Type", [], [], b!"text/plain"⟩], b!"text")]

example : (∀ p ∈ sampleBlanks, GoodWPart b!"--X" p ∧ p.2.head? ≠ some 0) ∧
    bodySeen [⟨some b!"content-type", some b!"multipart/form-data; boundary=--X"⟩] (encodeW b!"--X" none b!"\r\n" sampleBlanks) =
      .parts [([(b!"Content-Disposition", b!"form-data; name=\"f\""), (b!"Content-Type", b!"text/plain")], b!"text")] := by
  have free : Free b!"--X" b!"text" := fun ⟨s, t, e⟩ => by
    have : (88 : Nat) ∉ b!"text" := by decide
    exact this (by rw [← e]; simp)
  have hg : ∀ p ∈ sampleBlanks, GoodWPart b!"--X" p ∧ p.2.head? ≠ some 0 := by
    intro p hp
    simp only [sampleBlanks, List.mem_cons, List.not_mem_nil, or_false] at hp
    subst hp
    refine ⟨⟨?_, free⟩, by simp⟩
    intro f hf
    simp only [List.mem_cons, List.not_mem_nil, or_false] at hf
    rcases hf with rfl | rfl
    · exact ⟨⟨⟨b!"Disposition", rfl⟩, by decide, by decide, by decide, by decide, by decide, by decide⟩, by simp, by simp⟩
    · exact ⟨⟨⟨b!"Type", rfl⟩, by decide, by decide, by decide, by decide, by decide, by decide⟩, by simp, by simp⟩
  exact ⟨hg, C98_blanks_partial ⟨by simp, by simp, by simp⟩ ⟨[], [], b!"content-type", rfl, Or.inr rfl, by simp⟩ none (by simp) b!"\r\n" sampleBlanks
    (by simp [sampleBlanks]) (fun p hp => (hg p hp).1) (fun p hp => (hg p hp).2)⟩

/-! ## What is lost -/

/-- **C98 refuted (empty form).** A form without parts is not seen as an empty list: the handler receives the raw
bytes, as for another content type. -/
theorem C98_empty_form_refuted {h : List Header.HField} {bd : Bytes} (hbd : GoodBoundary bd)
    (hh : HasType h (b!"multipart/form-data; boundary=" ++ bd)) (pre : Option Bytes) (hpre : ∀ t, pre = some t → Free bd t) (ep : Bytes) :
    bodySeen h (encode bd pre ep []) = .bytes (encode bd pre ep []) := by
  have hs := scan_encode hbd pre hpre ep [] (R := fun qs => .done (qs ++ raw bd ep [])) (fun n qs hn => scan_after hbd [] (by simp) n qs hn)
  obtain ⟨h1, h2⟩ := bodySeen_of hbd.1 hh hs
  unfold bodySeen
  rw [h1, h2]; rfl

/-- The scan of good parts, up to a part where it stops. -/
theorem scan_until {bd ep : Bytes} (hbd : GoodBoundary bd) {qs' : List Part} {last : List RawPart}
    (hstop : ∀ (n : Nat) (rs : List RawPart), (after bd ep qs').length < n →
      scan (n + 1) bd rs (b!"--" ++ bd ++ after bd ep qs') = .done (setLast rs (b!"--" ++ bd ++ after bd ep qs') ++ last)) :
    ∀ (ps : List Part), (∀ p ∈ ps, GoodPart bd p ∧ p.2.head? ≠ some 0) → ∃ rs : List RawPart, pyParts rs = some ps ∧
      ∀ (n : Nat) (qs : List RawPart), (after bd ep (ps ++ qs')).length < n →
        scan (n + 1) bd qs (b!"--" ++ bd ++ after bd ep (ps ++ qs')) = .done (setLast qs (b!"--" ++ bd ++ after bd ep (ps ++ qs')) ++ (rs ++ last))
  | [], _ => ⟨[], rfl, by simpa using hstop⟩
  | p :: ps, h => by
    obtain ⟨rs, hrs, hD⟩ := scan_until hbd hstop ps (fun q hq => h q (by simp [hq]))
    have hg := (h p (by simp)).1
    refine ⟨⟨p.1, p.2 ++ 13 :: 10 :: (b!"--" ++ bd ++ after bd ep (ps ++ qs')), p.2.length⟩ :: rs, ?_, ?_⟩
    · rw [pyParts, if_neg (by simp), hrs]; simp
    intro n qs hn
    rw [show p :: ps ++ qs' = p :: (ps ++ qs') from rfl] at hn ⊢
    have e : (b!"--" ++ bd ++ after bd ep (p :: (ps ++ qs')) : Bytes) = 45 :: 45 :: (bd ++ after bd ep (p :: (ps ++ qs'))) := by simp
    have hlen : (after bd ep (p :: (ps ++ qs'))).length = (p.1.flatMap line).length + p.2.length + bd.length + (after bd ep (ps ++ qs')).length + 8 := by
      simp [after]; omega
    rw [e, scan, if_pos ⟨rfl, rfl⟩, cmp_full _ _ hbd.1]
    simp only [found_part hg.1 (ps ++ qs')]
    rw [← e]
    obtain ⟨m, rfl⟩ : ∃ m, n = m + 3 := ⟨n - 3, by omega⟩
    have hraw : ∀ (S : Bytes) (L : List RawPart), S = p.2 ++ 13 :: 10 :: (b!"--" ++ bd ++ after bd ep (ps ++ qs')) →
        setLast (L ++ [⟨p.1, S, 0⟩]) (b!"--" ++ bd ++ after bd ep (ps ++ qs')) ++ (rs ++ last) =
          L ++ (⟨p.1, p.2 ++ 13 :: 10 :: (b!"--" ++ bd ++ after bd ep (ps ++ qs')), p.2.length⟩ :: rs ++ last) := by
      intro S L hS
      rw [setLast_append, List.append_assoc]
      subst hS
      congr 1
      simp; omega
    cases hc : p.2 with
    | nil =>
      rw [List.nil_append]
      simp only
      rw [if_pos (by simp), scan_delim hbd (R := fun qs => .done (qs ++ (rs ++ last))) hD (m + 1) _ (by rw [hc] at hlen; simp at hlen; omega)]
      rw [hraw _ _ (by rw [hc]; rfl), hc]; rfl
    | cons y c =>
      have hy : y ≠ 0 := fun e0 => (h p (by simp)).2 (by rw [hc, e0]; rfl)
      rw [List.cons_append]
      simp only
      rw [if_pos hy, scan_text hbd (R := fun qs => .done (qs ++ (rs ++ last))) hD c.length c _ _ (Nat.le_refl _)
        (fun hi => hg.2 (by rw [hc]; exact hi.trans (List.suffix_cons _ _).isInfix)) (by rw [hc] at hlen; simp at hlen; omega)]
      rw [hraw _ _ (by rw [hc]; rfl), hc]; rfl

theorem pyParts_append : ∀ (a b : List RawPart) (x y : List (List Field × Bytes)), pyParts a = some x → pyParts b = some y → pyParts (a ++ b) = some (x ++ y)
  | [], b, x, y, hx, hy => by simp [pyParts] at hx; subst hx; exact hy
  | p :: a, b, x, y, hx, hy => by
    rw [pyParts] at hx
    split at hx
    · simp at hx
    · next hp =>
      split at hx
      · simp at hx
      · next l hl =>
        have hx := Option.some.inj hx
        subst hx
        rw [List.cons_append, pyParts, if_neg hp, pyParts_append a b l y hl hy]; rfl

/-- What the handler sees of parts up to one where the scan stops. -/
theorem seen_until {h : List Header.HField} {bd ep : Bytes} (hbd : GoodBoundary bd) (hh : HasType h (b!"multipart/form-data; boundary=" ++ bd))
    {qs' : List Part} {last : List RawPart} {last' : List (List Field × Bytes)} (hl : pyParts last = some last')
    (hstop : ∀ (n : Nat) (rs : List RawPart), (after bd ep qs').length < n →
      scan (n + 1) bd rs (b!"--" ++ bd ++ after bd ep qs') = .done (setLast rs (b!"--" ++ bd ++ after bd ep qs') ++ last))
    (ps : List Part) (hps : ∀ p ∈ ps, GoodPart bd p ∧ p.2.head? ≠ some 0) (hne : ps ++ last' ≠ []) :
    bodySeen h (encode bd none ep (ps ++ qs')) = .parts (ps ++ last') := by
  obtain ⟨rs, hrs, hD⟩ := scan_until hbd hstop ps hps
  have hs := scan_encode hbd none (by simp) ep (ps ++ qs') (R := fun qs => .done (qs ++ (rs ++ last))) hD
  obtain ⟨h1, h2⟩ := bodySeen_of hbd.1 hh hs
  have hp := pyParts_append rs last ps last' hrs hl
  unfold bodySeen
  rw [h1, h2]
  simp only [List.nil_append]
  cases e : rs ++ last with
  | nil => rw [e] at hp; simp [pyParts] at hp; exact absurd (by rw [hp.1, hp.2]; rfl) hne
  | cons a l =>
    simp only
    rw [← e, hp]

/-- **C98 refuted (NUL).** A part whose content begins with a NUL byte (as many binary files do) arrives empty, and all
parts after it are lost; for every content that goes on with anything but a line break. -/
theorem C98_nul_refuted {h : List Header.HField} {bd : Bytes} (hbd : GoodBoundary bd) (hh : HasType h (b!"multipart/form-data; boundary=" ++ bd))
    (ep : Bytes) (ps : List Part) (hps : ∀ p ∈ ps, GoodPart bd p ∧ p.2.head? ≠ some 0) (fs : List (Bytes × Bytes)) (hfs : ∀ f ∈ fs, GoodField f)
    (c : Bytes) (hc : ∃ a r, c = a :: r ∧ a ≠ 13) (qs : List Part) :
    bodySeen h (encode bd none ep (ps ++ (fs, 0 :: c) :: qs)) = .parts (ps ++ [(fs, [])]) := by
  obtain ⟨a, r, rfl, ha⟩ := hc
  apply seen_until hbd hh (last := [⟨fs, 0 :: a :: r ++ 13 :: 10 :: (b!"--" ++ bd ++ after bd ep qs), 0⟩]) (last' := [(fs, [])])
  · simp [pyParts]
  · intro n rs hn
    have e : (b!"--" ++ bd ++ after bd ep ((fs, 0 :: a :: r) :: qs) : Bytes) = 45 :: 45 :: (bd ++ after bd ep ((fs, 0 :: a :: r) :: qs)) := by simp
    rw [e, scan, if_pos ⟨rfl, rfl⟩, cmp_full _ _ hbd.1]
    simp only [found_part (p := (fs, 0 :: a :: r)) hfs qs]
    rw [← e]
    simp only [List.cons_append]
    rw [if_neg (by simp)]
    have hf : ∀ t : Bytes, t ≠ [] → found (a :: t) = .stop := by
      intro t ht
      obtain ⟨b, t, rfl⟩ := List.exists_cons_of_ne_nil ht
      unfold found
      simp only
      by_cases h45 : a = 45 ∧ b = 45
      · rw [if_pos h45]
      · rw [if_neg h45, if_pos (Or.inl ha)]
    rw [hf _ (by simp)]
  · exact hps
  · simp

theorem isPrefix_err : ∀ (p n t : Bytes), (∀ m, n ≠ p ++ m) → 58 ∉ p → isPrefix p (n ++ 58 :: t) = .err
  | [], n, t, h, _ => absurd rfl (h n)
  | a :: p, [], t, _, h58 => by
    rw [List.nil_append, isPrefix, if_neg (fun e => h58 (by simp [e]))]
  | a :: p, b :: n, t, h, h58 => by
    rw [List.cons_append, isPrefix]
    by_cases e : a = b
    · subst e
      rw [if_pos rfl]
      exact isPrefix_err p n t (fun m hm => h m (by rw [hm]; rfl)) (fun h' => h58 (by simp [h']))
    · rw [if_neg e]

theorem parseHeader_err : ∀ (fs : List (Bytes × Bytes)) (n : Nat) (name value t : Bytes), (∀ f ∈ fs, GoodField f) → fs.length < n →
    (∀ m, name ≠ b!"Content-" ++ m) → 13 ∉ name → parseHeader n (fs.flatMap line ++ (name ++ b!": " ++ value ++ t)) = .err
  | [], n + 1, name, value, t, _, _, hn, h13 => by
    have e : ([] : List (Bytes × Bytes)).flatMap line ++ (name ++ b!": " ++ value ++ t) = name ++ 58 :: (32 :: (value ++ t)) := by simp
    rw [e]
    have hl : parseLine (name ++ 58 :: (32 :: (value ++ t))) = .err := by
      unfold parseLine; rw [isPrefix_err _ _ _ hn (by decide)]
    cases name with
    | nil =>
      rw [List.nil_append] at hl ⊢
      rw [parseHeader, if_neg (by simp), hl]
    | cons a name =>
      cases name with
      | nil =>
        rw [List.cons_append, List.nil_append] at hl ⊢
        rw [parseHeader, if_neg (by simp), hl]
      | cons b name =>
        rw [List.cons_append, List.cons_append] at hl ⊢
        rw [parseHeader, if_neg (fun x => h13 (by simp [x.1])), hl]
  | f :: fs, n + 1, name, value, t, h, hlen, hn, h13 => by
    have hl := parseLine_ok f (h f (by simp)) (fs.flatMap line ++ (name ++ b!": " ++ value ++ t)) (by simp)
    have e : (f :: fs).flatMap line ++ (name ++ b!": " ++ value ++ t) = line f ++ (fs.flatMap line ++ (name ++ b!": " ++ value ++ t)) := by simp
    have ih := parseHeader_err fs n name value t (fun g hg => h g (by simp [hg])) (by simp at hlen; omega) hn h13
    obtain ⟨a, b, r, ea, ha⟩ := line_two f (h f (by simp))
    rw [e]
    rw [ea, List.cons_append, List.cons_append] at hl ⊢
    rw [parseHeader, if_neg (fun x => ha x.1), hl]
    simp only [List.drop_succ_cons, List.drop_zero, ih]

/-- **C98 refuted (names of fields).** Names of header fields do not depend on the case of letters, but a part with any
field whose name does not begin with exactly `Content-` (`content-disposition`, `X-…`) is lost with all parts after
it. -/
theorem C98_field_name_refuted {h : List Header.HField} {bd : Bytes} (hbd : GoodBoundary bd) (hh : HasType h (b!"multipart/form-data; boundary=" ++ bd))
    (ep : Bytes) (ps : List Part) (hps : ∀ p ∈ ps, GoodPart bd p ∧ p.2.head? ≠ some 0) (hne : ps ≠ []) (fs gs : List (Bytes × Bytes))
    (hfs : ∀ f ∈ fs, GoodField f) (name value : Bytes) (hn : ∀ m, name ≠ b!"Content-" ++ m) (h13 : 13 ∉ name) (c : Bytes) (qs : List Part) :
    bodySeen h (encode bd none ep (ps ++ (fs ++ (name, value) :: gs, c) :: qs)) = .parts ps := by
  have := seen_until (ep := ep) hbd hh (qs' := (fs ++ (name, value) :: gs, c) :: qs) (last := []) (last' := []) rfl ?_ ps hps (by simpa using hne)
  · simpa using this
  · intro n rs hn'
    have e : (b!"--" ++ bd ++ after bd ep ((fs ++ (name, value) :: gs, c) :: qs) : Bytes) =
        45 :: 45 :: (bd ++ after bd ep ((fs ++ (name, value) :: gs, c) :: qs)) := by simp
    rw [e, scan, if_pos ⟨rfl, rfl⟩, cmp_full _ _ hbd.1]
    have hf : found (after bd ep ((fs ++ (name, value) :: gs, c) :: qs)) = .stop := by
      obtain ⟨T, hT⟩ : ∃ T, after bd ep ((fs ++ (name, value) :: gs, c) :: qs) = 13 :: 10 :: (fs.flatMap line ++ (name ++ b!": " ++ value ++ T)) :=
        ⟨b!"\r\n" ++ gs.flatMap line ++ b!"\r\n" ++ c ++ b!"\r\n--" ++ bd ++ after bd ep qs, by simp [after, line]⟩
      rw [hT]
      unfold found
      simp only
      rw [if_neg (by simp), if_neg (by simp), if_neg (by simp),
        parseHeader_err fs _ name value T hfs (by have := flatMap_line_length fs; simp only [List.length_append]; omega) hn h13]
    simp only [hf, List.append_nil]

/-- A text without the delimiter for `bd` and ending with LF is scanned without finding a part. -/
theorem scan_none {bd : Bytes} (h1 : bd ≠ []) (h10 : 10 ∉ bd) : ∀ (n : Nat) (s : Bytes), (s = [] ∨ ∃ c, s = c ++ [10]) → Free bd s → scan n bd [] s = .done []
  | 0, _, _, _ => rfl
  | n + 1, [], _, _ => rfl
  | n + 1, [a], hs, _ => by
    have : a = 10 := by
      rcases hs with hs | ⟨c, hc⟩
      · simp at hs
      · rcases List.eq_nil_or_concat c with rfl | ⟨d, x, rfl⟩
        · simpa using hc
        · have := congrArg List.length hc; simp at this
    subst this; rfl
  | n + 1, a :: b :: r, hs, hf => by
    obtain ⟨c, hc⟩ : ∃ c, a :: b :: r = c ++ [10] := by
      rcases hs with hs | hs
      · simp at hs
      · exact hs
    have hsuf : ∀ t, t <:+ a :: b :: r → Free bd t := fun t ht hi => hf (hi.trans ht.isInfix)
    have hend : ∀ t, t <:+ a :: b :: r → t = [] ∨ ∃ c, t = c ++ [10] := by
      rintro t ⟨u, hu⟩
      rcases List.eq_nil_or_concat t with rfl | ⟨d, x, rfl⟩
      · exact Or.inl rfl
      · refine Or.inr ⟨d, ?_⟩
        rw [List.concat_eq_append] at hu ⊢
        rw [hc, ← List.append_assoc] at hu
        have := List.append_inj_right' hu rfl
        rw [this]
    rw [scan]
    by_cases hab : a = 45 ∧ b = 45
    · rw [if_pos hab]
      obtain ⟨rfl, rfl⟩ := hab
      have hr : ∃ d, r = d ++ [10] := by
        rcases hend r ((List.suffix_cons _ _).trans (List.suffix_cons _ _)) with rfl | h
        · have := congrArg (·.getLast?) hc; simp at this
        · exact h
      obtain ⟨d, rfl⟩ := hr
      have hnp : ¬ bd <+: d := fun ⟨t, ht⟩ => hf ⟨[], t ++ [10], by rw [← ht]; simp⟩
      obtain ⟨r, e1, e2⟩ := cmp_miss 10 [] bd d h1 h10 hnp
      rw [e1]
      simp only [setLast]
      have hrs : r <:+ 45 :: 45 :: (d ++ [10]) := by
        rcases e2 with ⟨c', ⟨u, hu⟩, rfl⟩ | rfl
        · exact ⟨45 :: 45 :: u, by rw [← hu]; simp⟩
        · exact List.nil_suffix
      exact scan_none h1 h10 n r (hend r hrs) (hsuf r hrs)
    · rw [if_neg hab]
      exact scan_none h1 h10 n (b :: r) (hend _ (List.suffix_cons _ _)) (hsuf _ (List.suffix_cons _ _))

/-- **C98 refuted (Content-Type).** The boundary is taken to be everything behind the first `=` that follows a blank
that follows the first semicolon.  So with quotes, or with another parameter before or after, no part is seen: for
every value of the form `multipart/form-data; k=w` and every body that ends with LF and does not contain `--w`, the
handler receives the raw bytes. -/
theorem C98_other_parameters_refuted {h : List Header.HField} {k w : Bytes} (hk : 61 ∉ k) (hw : w ≠ []) (h10 : 10 ∉ w)
    (hh : HasType h (b!"multipart/form-data; " ++ k ++ b!"=" ++ w)) (c : Bytes) (hf : Free w (c ++ [10])) :
    bodySeen h (c ++ [10]) = .bytes (c ++ [10]) := by
  have hb : boundaryOf (b!"multipart/form-data; " ++ k ++ b!"=" ++ w) = some w := by
    have e1 := seek_ok 59 b!"multipart/form-data" (b!" " ++ k ++ b!"=" ++ w) (by decide) (by simp)
    have e2 := seek_ok 32 b!";" (k ++ b!"=" ++ w) (by decide) (by simp)
    have e3 := seek_ok 61 (32 :: k) w (by simpa using hk) hw
    unfold boundaryOf
    simp only [List.cons_append, List.nil_append, List.append_assoc] at e1 e2 e3 ⊢
    rw [e1]
    simp only [e2, e3, List.drop_succ_cons, List.drop_zero]
  obtain ⟨f, hf', hv⟩ := find_type hh
  unfold bodySeen parseMultipart
  rw [isMultipart_true (w := b!"; " ++ k ++ b!"=" ++ w) (by simpa using hh), hf']
  simp only [hv, Option.getD_some, hb, scan_none hw h10 _ _ (Or.inr ⟨c, rfl⟩) hf]

/-- The usual quoted form of a boundary is such a value. -/
example : HasType [⟨some b!"content-type", some b!"multipart/form-data; boundary=\"X\""⟩] (b!"multipart/form-data; " ++ b!"boundary" ++ b!"=" ++ b!"\"X\"") ∧
    bodySeen [⟨some b!"content-type", some b!"multipart/form-data; boundary=\"X\""⟩] (encode b!"X" none b!"\r\n" sampleForm) =
      .bytes (encode b!"X" none b!"\r\n" sampleForm) :=
  ⟨⟨[], [], b!"content-type", rfl, Or.inr rfl, by simp⟩, by decide +kernel⟩

theorem seek_none (c : Nat) : ∀ s : Bytes, c ∉ s → seek c s = none
  | [], _ => rfl
  | x :: r, h => by
    rw [seek, if_neg (fun e => h (by simp [e]))]
    split
    · rfl
    · exact seek_none c r (fun h' => h (by simp [h']))

theorem seek_suffix (c : Nat) : ∀ (s t : Bytes), seek c s = some t → t <:+ s
  | [], _, h => by simp [seek] at h
  | x :: r, t, h => by
    rw [seek] at h
    split at h
    · rw [← Option.some.inj h]; exact List.suffix_refl _
    · split at h
      · simp at h
      · exact (seek_suffix c r t h).trans (List.suffix_cons _ _)

/-- **C98 refuted (no blank).** Without a blank behind the semicolon (blanks are optional) no part is seen, whatever the
body. -/
theorem C98_no_blank_refuted {h : List Header.HField} {w : Bytes} (hw : 32 ∉ w) (hh : HasType h (b!"multipart/form-data;" ++ w)) (body : Bytes) :
    bodySeen h body = .bytes body := by
  have hb : boundaryOf (b!"multipart/form-data;" ++ w) = none := by
    unfold boundaryOf
    cases e : seek 59 (b!"multipart/form-data;" ++ w) with
    | none => rfl
    | some t =>
      have : 32 ∉ t := fun hm => by
        have := (seek_suffix _ _ _ e).subset hm
        rcases List.mem_append.1 this with h | h
        · revert h; decide
        · exact hw h
      simp only [seek_none 32 t this]
  obtain ⟨f, hf', hv⟩ := find_type hh
  unfold bodySeen parseMultipart
  rw [isMultipart_true (w := b!";" ++ w) (by simpa using hh), hf']
  simp only [hv, Option.getD_some, hb]

/-- **C98 refuted (delimiter within a line).** The delimiter begins with a line break, but the server does not ask for
it: a content with the boundary text in the middle of a line is cut there, two bytes before, and the parts after it are
lost. -/
theorem C98_within_line_refuted {h : List Header.HField} {bd : Bytes} (hbd : GoodBoundary bd) (hh : HasType h (b!"multipart/form-data; boundary=" ++ bd))
    (ep : Bytes) (ps : List Part) (hps : ∀ p ∈ ps, GoodPart bd p ∧ p.2.head? ≠ some 0) (fs : List (Bytes × Bytes)) (hfs : ∀ f ∈ fs, GoodField f)
    (c r : Bytes) (x y z : Nat) (hc : 45 ∉ c) (hx : x ≠ 0) (hxm : y ≠ 45) (hz : z ≠ 13) (qs : List Part) :
    bodySeen h (encode bd none ep (ps ++ (fs, x :: y :: (c ++ b!"--" ++ bd ++ z :: r)) :: qs)) =
      .parts (ps ++ [(fs, (x :: y :: c).take c.length)]) := by
  have hfound : ∀ t : Bytes, t ≠ [] → found (z :: t) = .stop := by
    intro t ht
    obtain ⟨b, t, rfl⟩ := List.exists_cons_of_ne_nil ht
    unfold found
    simp only
    by_cases h45 : z = 45 ∧ b = 45
    · rw [if_pos h45]
    · rw [if_neg h45, if_pos (Or.inl hz)]
  have hscan : ∀ (d T : Bytes) (n : Nat) (rs : List RawPart), 45 ∉ d → T ≠ [] → d.length + 1 ≤ n →
      scan n bd rs (d ++ (b!"--" ++ bd ++ z :: T)) = .done (setLast rs (b!"--" ++ bd ++ z :: T)) := by
    intro d
    induction d with
    | nil =>
      intro T n rs _ hT hn
      obtain ⟨m, rfl⟩ : ∃ m, n = m + 1 := ⟨n - 1, by simp at hn; omega⟩
      have e : ([] ++ (b!"--" ++ bd ++ z :: T) : Bytes) = 45 :: 45 :: (bd ++ z :: T) := by simp
      rw [e, scan, if_pos ⟨rfl, rfl⟩, cmp_full _ _ hbd.1]
      simp only [hfound T hT]
      rfl
    | cons a d ih =>
      intro T n rs hd hT hn
      obtain ⟨m, rfl⟩ : ∃ m, n = m + 1 := ⟨n - 1, by simp at hn; omega⟩
      have ha : a ≠ 45 := fun e => hd (by simp [e])
      have := ih T m rs (fun h => hd (by simp [h])) hT (by simp at hn; omega)
      cases d with
      | nil =>
        have e : ([] ++ (b!"--" ++ bd ++ z :: T) : Bytes) = 45 :: 45 :: (bd ++ z :: T) := by simp
        rw [List.cons_append]
        rw [e] at this ⊢
        rw [scan, if_neg (fun h => ha h.1), this]
      | cons b d =>
        rw [List.cons_append, List.cons_append]
        rw [List.cons_append] at this
        rw [scan, if_neg (fun h => ha h.1), this]
  apply seen_until hbd hh (last := [⟨fs, (x :: y :: (c ++ b!"--" ++ bd ++ z :: r)) ++ 13 :: 10 :: (b!"--" ++ bd ++ after bd ep qs), c.length⟩])
    (last' := [(fs, (x :: y :: c).take c.length)])
  · have : ∀ T : Bytes, ((x :: y :: (c ++ T)).take c.length) = (x :: y :: c).take c.length := by
      intro T
      rw [← List.cons_append, ← List.cons_append, List.take_append_of_le_length (by simp; omega)]
    simp only [pyParts]
    rw [if_neg (by simp)]
    simp only [Int.toNat_natCast]
    rw [List.cons_append, List.cons_append, List.append_assoc, List.append_assoc, List.append_assoc, this]
  · intro n rs hn
    have hlen : (after bd ep ((fs, x :: y :: (c ++ b!"--" ++ bd ++ z :: r)) :: qs)).length =
        (fs.flatMap line).length + c.length + r.length + 2 * bd.length + (after bd ep qs).length + 13 := by
      simp [after]; omega
    have e : (b!"--" ++ bd ++ after bd ep ((fs, x :: y :: (c ++ b!"--" ++ bd ++ z :: r)) :: qs) : Bytes) =
        45 :: 45 :: (bd ++ after bd ep ((fs, x :: y :: (c ++ b!"--" ++ bd ++ z :: r)) :: qs)) := by simp
    rw [e, scan, if_pos ⟨rfl, rfl⟩, cmp_full _ _ hbd.1]
    simp only [found_part (p := (fs, x :: y :: (c ++ b!"--" ++ bd ++ z :: r))) hfs qs]
    rw [← e]
    simp only [List.cons_append]
    rw [if_pos hx]
    have e2 : y :: (c ++ b!"--" ++ bd ++ z :: r ++ 13 :: 10 :: (b!"--" ++ bd ++ after bd ep qs)) =
        (y :: c) ++ (b!"--" ++ bd ++ z :: (r ++ 13 :: 10 :: (b!"--" ++ bd ++ after bd ep qs))) := by simp
    refine ((congrArg (scan n bd _) e2).trans (hscan (y :: c) (r ++ 13 :: 10 :: (b!"--" ++ bd ++ after bd ep qs)) n _
      (by simp only [List.mem_cons, not_or]; exact ⟨fun e => hxm e.symm, hc⟩) (by simp) (by simp; omega))).trans ?_
    rw [setLast_append]
    congr 2
    simp; omega
  · exact hps
  · simp

/-! ## C99 — no body makes the server read outside of it -/

/-- A body that ends with a line break behind a byte that is no LF, as every body with a final delimiter and line break
does. -/
def EndsWell (B : Bytes) : Prop := ∃ t x, x ≠ 10 ∧ B = t ++ [x, 13, 10]

theorem EndsWell.last {B s : Bytes} (h : EndsWell B) (hs : s <:+ B) (hne : s ≠ []) : 10 ∈ s := by
  obtain ⟨t, x, hx, rfl⟩ := h
  obtain ⟨u, hu⟩ := hs
  rcases List.eq_nil_or_concat s with rfl | ⟨d, y, rfl⟩
  · exact absurd rfl hne
  · rw [List.concat_eq_append] at hu ⊢
    have hu : (u ++ d) ++ [y] = (t ++ [x, 13]) ++ [10] := by simpa using hu
    have := List.append_inj_right' hu rfl
    simp at this
    simp [this]

theorem EndsWell.singleton {B : Bytes} {a : Nat} (h : EndsWell B) (hs : [a] <:+ B) : a = 10 := by
  have := h.last hs (by simp)
  exact (List.mem_singleton.1 this).symm

/-- Behind a LF there is nothing, or at least three bytes. -/
theorem EndsWell.three {B r : Bytes} (h : EndsWell B) (hs : 10 :: r <:+ B) (hne : r ≠ []) : 3 ≤ r.length := by
  obtain ⟨t, x, hx, rfl⟩ := h
  obtain ⟨u, hu⟩ := hs
  rcases r with _ | ⟨a, _ | ⟨b, _ | ⟨c, r⟩⟩⟩
  · exact absurd rfl hne
  · have hu : u ++ [10, a] = (t ++ [x]) ++ [13, 10] := by simpa using hu
    have := List.append_inj_right' hu rfl
    simp at this
  · have hu : u ++ [10, a, b] = t ++ [x, 13, 10] := by simpa using hu
    have := List.append_inj_right' hu rfl
    simp at this
    exact absurd this.1.symm hx
  · simp

theorem isPrefix_undef : ∀ (p s : Bytes), isPrefix p s = .undef → ∀ a ∈ s, a ∈ p
  | [], _, h => by simp [isPrefix] at h
  | _ :: _, [], _ => by simp
  | a :: p, b :: s, h => by
    rw [isPrefix] at h
    split at h
    · next e =>
      subst e
      intro x hx
      rcases List.mem_cons.1 hx with rfl | hx
      · simp
      · exact List.mem_cons_of_mem _ (isPrefix_undef p s h x hx)
    · simp at h

theorem cmp_undef : ∀ (p s : Bytes), cmp p s = .undef → ∀ a ∈ s, a ∈ p
  | [], _, h => by simp [cmp] at h
  | _ :: _, [], _ => by simp
  | a :: p, b :: s, h => by
    rw [cmp] at h
    split at h
    · next e =>
      subst e
      split at h
      · simp at h
      · intro x hx
        rcases List.mem_cons.1 hx with rfl | hx
        · simp
        · exact List.mem_cons_of_mem _ (cmp_undef p s h x hx)
    · simp at h

theorem cmp_full_eq : ∀ (p s t : Bytes), cmp p s = .full t → s = p ++ t
  | [], s, t, h => by simp [cmp] at h; rw [h]; rfl
  | _ :: _, [], t, h => by simp [cmp] at h
  | a :: p, b :: s, t, h => by
    rw [cmp] at h
    split at h
    · next e =>
      subst e
      split at h
      · next hp => subst hp; simp at h; rw [h]; rfl
      · rw [cmp_full_eq p s t h]; rfl
    · simp at h

theorem cmp_mismatch_suffix : ∀ (p s t : Bytes), cmp p s = .mismatch t → t <:+ s
  | [], s, t, h => by simp [cmp] at h
  | _ :: _, [], t, h => by simp [cmp] at h
  | a :: p, b :: s, t, h => by
    rw [cmp] at h
    split at h
    · split at h
      · simp at h
      · exact (cmp_mismatch_suffix p s t h).trans (List.suffix_cons _ _)
    · injection h with h; subst h; exact List.suffix_cons _ _

theorem scanName_suffix : ∀ (s n t : Bytes), scanName s = some (n, t) → t <:+ s
  | [], _, _, h => by simp [scanName] at h
  | c :: r, n, t, h => by
    rw [scanName] at h
    split at h
    · injection h with h; injection h with h1 h2; subst h2; exact List.suffix_refl _
    · split at h
      · simp at h
      · split at h
        · simp at h
        · next n' t' e =>
          injection h with h; injection h with h1 h2; subst h2
          exact (scanName_suffix r n' t' e).trans (List.suffix_cons _ _)

theorem skipBlank_suffix : ∀ (s t : Bytes), skipBlank s = some t → t <:+ s
  | [], _, h => by simp [skipBlank] at h
  | c :: r, t, h => by
    rw [skipBlank] at h
    split at h
    · split at h
      · simp at h
      · exact (skipBlank_suffix r t h).trans (List.suffix_cons _ _)
    · injection h with h; subst h; exact List.suffix_refl _

theorem scanValue_suffix : ∀ (s v t : Bytes), scanValue s = some (v, t) → t <:+ s ∧ ∃ r, t = 10 :: r ∧ r ≠ []
  | a :: b :: r, v, t, h => by
    rw [scanValue] at h
    split at h
    · next hab =>
      split at h
      · simp at h
      · next hr =>
        injection h with h; injection h with h1 h2; subst h2
        exact ⟨List.suffix_cons _ _, r, by rw [hab.2], fun e => hr (by rw [e]; rfl)⟩
    · split at h
      · simp at h
      · split at h
        · simp at h
        · next v' t' e =>
          injection h with h; injection h with h1 h2; subst h2
          obtain ⟨i1, i2⟩ := scanValue_suffix (b :: r) v' t' e
          exact ⟨i1.trans (List.suffix_cons _ _), i2⟩
  | [], _, _, h => by simp [scanValue] at h
  | [_], _, _, h => by simp [scanValue] at h

theorem afterColon_suffix {n s t : Bytes} {f : Field} (h : afterColon n s = .ok (f, t)) : t <:+ s ∧ ∃ r, t = 10 :: r ∧ r ≠ [] := by
  unfold afterColon at h
  split at h
  · simp at h
  · split at h
    · simp at h
    · next u hu =>
      split at h
      · simp at h
      · next v rest hv =>
        injection h with h; injection h with h1 h2; subst h2
        obtain ⟨i1, i2⟩ := scanValue_suffix _ _ _ hv
        exact ⟨i1.trans (skipBlank_suffix _ _ hu), i2⟩

theorem afterColon_undef {n s : Bytes} : afterColon n s ≠ .undef := by
  unfold afterColon
  split
  · simp
  · split
    · simp
    · split <;> simp

theorem parseLine_suffix {s t : Bytes} {f : Field} (h : parseLine s = .ok (f, t)) : t <:+ s ∧ ∃ r, t = 10 :: r ∧ r ≠ [] := by
  unfold parseLine at h
  split at h
  · simp at h
  · simp at h
  · split at h
    · simp at h
    · simp at h
    · next name c u hn =>
      have hs := scanName_suffix _ _ _ hn
      split at h
      · obtain ⟨i1, i2⟩ := afterColon_suffix h
        exact ⟨i1.trans ((List.suffix_cons _ _).trans hs), i2⟩
      · split at h
        · simp at h
        · split at h
          · simp at h
          · simp at h
          · next c' u' hb =>
            split at h
            · obtain ⟨i1, i2⟩ := afterColon_suffix h
              exact ⟨i1.trans ((List.suffix_cons _ _).trans ((skipBlank_suffix _ _ hb).trans ((List.suffix_cons _ _).trans hs))), i2⟩
            · simp at h

theorem parseLine_undef {s : Bytes} (h : parseLine s = .undef) : isPrefix b!"Content-" s = .undef := by
  unfold parseLine at h
  split at h
  · assumption
  · simp at h
  · split at h
    · simp at h
    · simp at h
    · split at h
      · exact absurd h afterColon_undef
      · split at h
        · simp at h
        · split at h
          · simp at h
          · simp at h
          · split at h
            · exact absurd h afterColon_undef
            · simp at h

theorem parseHeader_safe {B : Bytes} (hB : EndsWell B) : ∀ (n : Nat) (s : Bytes), s <:+ B → 3 ≤ s.length → s.length ≤ n →
    parseHeader n s ≠ .undef ∧ ∀ fs t, parseHeader n s = .ok (fs, t) → t <:+ B ∧ t ≠ []
  | 0, s, _, h3, hn => by omega
  | n + 1, s, hs, h3, hn => by
    obtain ⟨a, b, r, rfl⟩ : ∃ a b r, s = a :: b :: r := by
      rcases s with _ | ⟨a, _ | ⟨b, r⟩⟩
      · simp at h3
      · simp at h3
      · exact ⟨a, b, r, rfl⟩
    rw [parseHeader]
    by_cases hab : a = 13 ∧ b = 10
    · rw [if_pos hab]
      refine ⟨by simp, ?_⟩
      intro fs t h
      injection h with h; injection h with h1 h2; subst h2
      exact ⟨((List.suffix_cons _ _).trans (List.suffix_cons _ _)).trans hs, by rintro rfl; simp at h3⟩
    · rw [if_neg hab]
      cases hl : parseLine (a :: b :: r) with
      | undef =>
        exfalso
        have := isPrefix_undef _ _ (parseLine_undef hl) 10 (hB.last hs (by simp))
        revert this; decide
      | err => exact ⟨by simp, by simp⟩
      | ok q =>
        obtain ⟨f, t⟩ := q
        obtain ⟨i1, u, rfl, hu⟩ := parseLine_suffix hl
        simp only [List.drop_succ_cons, List.drop_zero]
        have hus : u <:+ B := ((List.suffix_cons _ _).trans i1).trans hs
        have hlen := i1.length_le
        obtain ⟨j1, j2⟩ := parseHeader_safe hB n u hus (hB.three (i1.trans hs) hu) (by simp at hlen hn; omega)
        cases hr : parseHeader n u with
        | undef => exact absurd hr j1
        | err => exact ⟨by simp, by simp⟩
        | ok q =>
          obtain ⟨fs, rest⟩ := q
          refine ⟨by simp, ?_⟩
          intro fs' t h
          injection h with h; injection h with h1 h2; subst h2
          exact j2 fs rest hr

theorem found_safe {B s : Bytes} (hB : EndsWell B) (hs : s <:+ B) (hne : s ≠ []) :
    found s ≠ .undef ∧ ∀ fs t, found s = .part fs t → t <:+ B ∧ t ≠ [] := by
  unfold found
  split
  · exact absurd rfl hne
  · next a =>
    have := hB.singleton hs
    subst this
    simp
  · next a b r =>
    split
    · simp
    · split
      · simp
      · next hab =>
        split
        · simp
        · next hr =>
          have hb : b = 10 := by
            apply Classical.byContradiction
            intro h; exact hab (Or.inr h)
          subst hb
          have h3 := hB.three ((List.suffix_cons _ _).trans hs) hr
          obtain ⟨j1, j2⟩ := parseHeader_safe hB (r.length + 1) r (((List.suffix_cons _ _).trans (List.suffix_cons _ _)).trans hs) h3 (by omega)
          cases hp : parseHeader (r.length + 1) r with
          | undef => exact absurd hp j1
          | err => simp
          | ok q =>
            obtain ⟨fs, t⟩ := q
            refine ⟨by simp, ?_⟩
            intro fs' t' h
            injection h with h1 h2
            subst h2
            exact j2 fs t hp

theorem scan_safe {B bd : Bytes} (hB : EndsWell B) (h0 : 0 ∉ B) (h1 : bd ≠ []) (h10 : 10 ∉ bd) :
    ∀ (n : Nat) (ps : List RawPart) (s : Bytes), s <:+ B → scan n bd ps s ≠ .undef
  | 0, _, _, _ => by simp [scan]
  | n + 1, ps, [], _ => by simp [scan]
  | n + 1, ps, [a], hs => by
    have := hB.singleton hs
    subst this
    simp [scan]
  | n + 1, ps, a :: b :: r, hs => by
    rw [scan]
    split
    · next hab =>
      obtain ⟨rfl, rfl⟩ := hab
      have hr : r <:+ B := ((List.suffix_cons _ _).trans (List.suffix_cons _ _)).trans hs
      split
      · next hc =>
        exfalso
        have hrne : r ≠ [] := by
          rintro rfl
          have := hB.last hs (by simp)
          revert this; decide
        exact h10 (cmp_undef _ _ hc 10 (hB.last hr hrne))
      · next rest hc => exact scan_safe hB h0 h1 h10 n _ rest ((cmp_mismatch_suffix _ _ _ hc).trans hr)
      · next rest hc =>
        have e := cmp_full_eq _ _ _ hc
        have hrs : rest <:+ B := List.IsSuffix.trans ⟨bd, e.symm⟩ hr
        have hrne : rest ≠ [] := by
          rintro rfl
          rw [List.append_nil] at e
          subst e
          exact h10 (hB.last hr h1)
        obtain ⟨j1, j2⟩ := found_safe hB hrs hrne
        split
        · simp
        · next hf => exact absurd hf j1
        · next fs hf => exact absurd rfl (j2 fs [] hf).2
        · next fs y rest' hf =>
          have hy := (j2 fs _ hf).1
          have hy0 : y ≠ 0 := fun e => h0 (hy.subset (by simp [e]))
          rw [if_pos hy0]
          exact scan_safe hB h0 h1 h10 n _ rest' ((List.suffix_cons _ _).trans hy)
    · exact scan_safe hB h0 h1 h10 n ps (b :: r) ((List.suffix_cons _ _).trans hs)

theorem seek_two {c x : Nat} {r t : Bytes} (hx : x ≠ c) (h : seek c (x :: r) = some t) : 2 ≤ t.length := by
  induction r generalizing x with
  | nil => simp [seek, hx] at h
  | cons y r ih =>
    rw [seek, if_neg hx] at h
    split at h
    · simp at h
    · next hl =>
      by_cases hy : y = c
      · rw [seek, if_pos hy] at h
        rw [← Option.some.inj h]
        simp only [List.length_cons] at hl ⊢; omega
      · exact ih hy h

theorem seek_head {c : Nat} : ∀ {s t : Bytes}, seek c s = some t → ∃ r, t = c :: r
  | [], _, h => by simp [seek] at h
  | x :: s, t, h => by
    rw [seek] at h
    split at h
    · next e => exact ⟨s, by rw [← Option.some.inj h, e]⟩
    · split at h
      · simp at h
      · exact seek_head h

theorem boundaryOf_good {v bd : Bytes} (h : boundaryOf v = some bd) (h10 : 10 ∉ v) : bd ≠ [] ∧ 10 ∉ bd := by
  unfold boundaryOf at h
  split at h
  · simp at h
  · next v1 e1 =>
    split at h
    · simp at h
    · next v2 e2 =>
      split at h
      · simp at h
      · next v3 e3 =>
        have h := Option.some.inj h
        subst h
        obtain ⟨r2, rfl⟩ := seek_head e2
        have h2 := seek_two (by decide) e3
        refine ⟨fun e => ?_, fun hm => h10 ?_⟩
        · have := congrArg List.length e
          simp at this; omega
        · exact (seek_suffix _ _ _ e1).subset ((seek_suffix _ _ _ e2).subset ((seek_suffix _ _ _ e3).subset (List.mem_of_mem_drop hm)))

/-- **C99 (partial).** For every Content-Type `multipart/form-data…` and every body without NUL bytes that ends with a
line break (but not with an empty line): nothing outside of the body is read.  Missing: other ends of the body, NUL bytes
and other content types; see below. -/
theorem C99_no_overread_partial {h : List Header.HField} {w : Bytes} (hh : HasType h (b!"multipart/form-data" ++ w)) (h10 : 10 ∉ w) {body : Bytes}
    (hB : EndsWell body) (h0 : 0 ∉ body) : bodySeen h body ≠ .undef := by
  obtain ⟨f, hf, hv⟩ := find_type hh
  have hp : parseMultipart h body ≠ .undef := by
    unfold parseMultipart
    rw [hf]
    simp only [hv, Option.getD_some]
    cases hb : boundaryOf (b!"multipart/form-data" ++ w) with
    | none => simp
    | some bd =>
      obtain ⟨g1, g2⟩ := boundaryOf_good hb (by
        intro hm
        rcases List.mem_append.1 hm with h | h
        · revert h; decide
        · exact h10 h)
      exact scan_safe hB h0 g1 g2 _ _ _ (List.suffix_refl _)
  unfold bodySeen
  rw [isMultipart_true hh]
  simp only
  split
  · next e => exact absurd e hp
  · simp
  · split <;> simp

example : EndsWell (encode b!"--X" none b!"\r\n" [([(b!"Content-Disposition", b!"form-data; name=\"a\"")], b!"x--y-")]) ∧
    0 ∉ encode b!"--X" none b!"\r\n" [([(b!"Content-Disposition", b!"form-data; name=\"a\"")], b!"x--y-")] :=
  ⟨⟨encode b!"--X" none b!"" [([(b!"Content-Disposition", b!"form-data; name=\"a\"")], b!"x--y-")] |>.dropLast, 45, by decide, by decide +kernel⟩, by decide +kernel⟩

/-- **C99 refuted (hyphen).** Every multipart body whose only hyphen is its last byte makes the server read behind it. -/
theorem C99_hyphen_at_end_refuted {h : List Header.HField} {bd : Bytes} (hbd : bd ≠ []) (hh : HasType h (b!"multipart/form-data; boundary=" ++ bd))
    (c : Bytes) (hc : 45 ∉ c) : bodySeen h (c ++ [45]) = .undef := by
  have hs : ∀ (c : Bytes) (n : Nat), 45 ∉ c → c.length < n → scan n bd [] (c ++ [45]) = .undef := by
    intro c
    induction c with
    | nil =>
      intro n _ hn
      obtain ⟨m, rfl⟩ : ∃ m, n = m + 1 := ⟨n - 1, by simp at hn; omega⟩
      rfl
    | cons a c ih =>
      intro n hc hn
      obtain ⟨m, rfl⟩ : ∃ m, n = m + 1 := ⟨n - 1, by simp at hn; omega⟩
      have ha : a ≠ 45 := fun e => hc (by simp [e])
      have := ih m (fun h => hc (by simp [h])) (by simp at hn; omega)
      cases c with
      | nil => rw [List.cons_append]; rw [List.nil_append] at this ⊢; rw [scan, if_neg (fun h => ha h.1), this]
      | cons b c => rw [List.cons_append, List.cons_append]; rw [List.cons_append] at this; rw [scan, if_neg (fun h => ha h.1), this]
  obtain ⟨h1, h2⟩ := bodySeen_of hbd hh (hs c _ hc (by simp; omega))
  unfold bodySeen
  rw [h1, h2]

/-- **C99 refuted (content types).** The table of content types has no end mark: a request with a body and any content
type that begins with none of its ten names, such as `application/x-www-form-urlencoded`, makes the server search behind
the table, whatever the body. -/
theorem C99_other_content_type_refuted {h : List Header.HField} {v : Bytes} (hh : HasType h v)
    (hv : ∀ m ∈ [b!"text/plain", b!"text/csv", b!"text/html", b!"text/css", b!"text/xml", b!"text/javascript", b!"text/richtext", b!"application/json",
      b!"application/octet_stream", b!"multipart/form-data"], ¬ m <+: v) (body : Bytes) : bodySeen h body = .undef := by
  obtain ⟨l1, l2, n, rfl, hn, hl⟩ := hh
  have hm : mimeFromStrn v = none := by
    unfold mimeFromStrn
    rw [List.find?_eq_none]
    intro m hm hp
    simp only [Bool.and_eq_true, decide_eq_true_eq, beq_iff_eq] at hp
    exact hv m hm ⟨v.drop m.length, by conv => lhs; arg 1; rw [← hp.2]
                                       rw [List.take_append_drop]⟩
  unfold bodySeen
  rw [isMultipart_skip _ _ hl, isMultipart, isType hn, if_pos rfl]
  simp only [Option.getD_some, hm]

example : bodySeen [⟨some b!"content-type", some b!"application/x-www-form-urlencoded"⟩] b!"a=1" = .undef := by decide +kernel

/-- **C99 refuted (truncated parts).** A body that ends with the header of a part makes the server read behind it. -/
theorem C99_truncated_refuted {h : List Header.HField} {bd : Bytes} (hbd : GoodBoundary bd) (hh : HasType h (b!"multipart/form-data; boundary=" ++ bd))
    (fs : List (Bytes × Bytes)) (hfs : ∀ f ∈ fs, GoodField f) :
    bodySeen h (b!"--" ++ bd ++ b!"\r\n" ++ fs.flatMap line ++ b!"\r\n") = .undef := by
  have e : (b!"--" ++ bd ++ b!"\r\n" ++ fs.flatMap line ++ b!"\r\n" : Bytes) = 45 :: 45 :: (bd ++ 13 :: 10 :: (fs.flatMap line ++ 13 :: 10 :: [])) := by simp
  have hf : found (13 :: 10 :: (fs.flatMap line ++ 13 :: 10 :: [])) = .part fs [] := by
    unfold found
    simp only
    rw [if_neg (by simp), if_neg (by simp), if_neg (by simp),
      parseHeader_ok fs _ _ hfs (by have := flatMap_line_length fs; simp only [List.length_append]; omega)]
  have hs : scan ((b!"--" ++ bd ++ b!"\r\n" ++ fs.flatMap line ++ b!"\r\n" : Bytes).length + 1) bd [] (b!"--" ++ bd ++ b!"\r\n" ++ fs.flatMap line ++ b!"\r\n") = .undef := by
    rw [e, scan, if_pos ⟨rfl, rfl⟩, cmp_full _ _ hbd.1]
    simp only [hf]
  obtain ⟨h1, h2⟩ := bodySeen_of hbd.1 hh hs
  unfold bodySeen
  rw [h1, h2]

/-- **C99 refuted (cut behind a boundary).** So does a body that ends with a boundary, or with the first byte of what follows
it, after any text without the delimiter. -/
theorem C99_cut_behind_boundary_refuted {h : List Header.HField} {bd : Bytes} (hbd : GoodBoundary bd) (hh : HasType h (b!"multipart/form-data; boundary=" ++ bd))
    (t : Bytes) (ht : Free bd t) (e : Bytes) (he : e = [] ∨ e = [13] ∨ e = [45]) :
    bodySeen h (t ++ b!"\r\n--" ++ bd ++ e) = .undef := by
  have hf : found e = .undef := by rcases he with rfl | rfl | rfl <;> rfl
  have hD : ∀ (n : Nat) (qs : List RawPart), e.length < n → scan (n + 1) bd qs (b!"--" ++ bd ++ e) = (fun _ => Out.undef) (setLast qs (b!"--" ++ bd ++ e)) := by
    intro n qs _
    have e1 : (b!"--" ++ bd ++ e : Bytes) = 45 :: 45 :: (bd ++ e) := by simp
    rw [e1, scan, if_pos ⟨rfl, rfl⟩, cmp_full _ _ hbd.1]
    simp only [hf]
  have e2 : (t ++ b!"\r\n--" ++ bd ++ e : Bytes) = t ++ 13 :: 10 :: (b!"--" ++ bd ++ e) := by simp
  have hs : scan ((t ++ b!"\r\n--" ++ bd ++ e : Bytes).length + 1) bd [] (t ++ b!"\r\n--" ++ bd ++ e) = .undef := by
    rw [e2, scan_text hbd (R := fun _ => Out.undef) hD t.length t _ _ (Nat.le_refl _) ht (by simp; omega)]
  obtain ⟨h1, h2⟩ := bodySeen_of hbd.1 hh hs
  unfold bodySeen
  rw [h1, h2]

example : bodySeen [⟨some b!"content-type", some b!"multipart/form-data; boundary=X"⟩] b!"text\r\n--X\r" = .undef := by decide +kernel

theorem isPrefix_cut : ∀ (p q : Bytes), q ≠ [] → isPrefix (p ++ q) p = .undef
  | [], q, h => by
    obtain ⟨a, q, rfl⟩ := List.exists_cons_of_ne_nil h
    rfl
  | a :: p, q, h => by rw [List.cons_append, isPrefix, if_pos rfl]; exact isPrefix_cut p q h

theorem parseHeader_cut {p q : Bytes} (hp : p ≠ []) (hq : q ≠ []) (hpq : p ++ q = b!"Content-") : ∀ (fs : List (Bytes × Bytes)) (n : Nat), (∀ f ∈ fs, GoodField f) → fs.length < n →
    parseHeader n (fs.flatMap line ++ p) = .undef
  | [], n + 1, _, _ => by
    have hc := isPrefix_cut p q hq
    rw [hpq] at hc
    rcases p with _ | ⟨a, _ | ⟨b, p⟩⟩
    · exact absurd rfl hp
    · rfl
    · have ha : a = 67 := by simpa using (List.cons.inj hpq).1
      have hl : parseLine (a :: b :: p) = .undef := by unfold parseLine; rw [hc]
      rw [List.flatMap_nil, List.nil_append, parseHeader, if_neg (by rw [ha]; simp), hl]
  | f :: fs, n + 1, h, hn => by
    have hl := parseLine_ok f (h f (by simp)) (fs.flatMap line ++ p) (by simp [hp])
    have e : (f :: fs).flatMap line ++ p = line f ++ (fs.flatMap line ++ p) := by simp
    have ih := parseHeader_cut hp hq hpq fs n (fun g hg => h g (by simp [hg])) (by simp at hn; omega)
    obtain ⟨a, b, r, ea, ha⟩ := line_two f (h f (by simp))
    rw [e]
    rw [ea, List.cons_append, List.cons_append] at hl ⊢
    rw [parseHeader, if_neg (fun x => ha x.1), hl]
    simp only [List.drop_succ_cons, List.drop_zero, ih]

/-- **C99 refuted (cut field names).** A body that ends within the first letters `Content-` of a part's header field, after
any fields, makes the server read behind it. -/
theorem C99_cut_name_refuted {h : List Header.HField} {bd : Bytes} (hbd : GoodBoundary bd) (hh : HasType h (b!"multipart/form-data; boundary=" ++ bd))
    (fs : List (Bytes × Bytes)) (hfs : ∀ f ∈ fs, GoodField f) {p q : Bytes} (hp : p ≠ []) (hq : q ≠ []) (hpq : p ++ q = b!"Content-") :
    bodySeen h (b!"--" ++ bd ++ b!"\r\n" ++ fs.flatMap line ++ p) = .undef := by
  have e : (b!"--" ++ bd ++ b!"\r\n" ++ fs.flatMap line ++ p : Bytes) = 45 :: 45 :: (bd ++ 13 :: 10 :: (fs.flatMap line ++ p)) := by simp
  have hf : found (13 :: 10 :: (fs.flatMap line ++ p)) = .undef := by
    unfold found
    simp only
    rw [if_neg (by simp), if_neg (by simp), if_neg (by simp [hp]),
      parseHeader_cut hp hq hpq fs _ hfs (by have := flatMap_line_length fs; simp only [List.length_append]; omega)]
  have hs : scan ((b!"--" ++ bd ++ b!"\r\n" ++ fs.flatMap line ++ p : Bytes).length + 1) bd [] (b!"--" ++ bd ++ b!"\r\n" ++ fs.flatMap line ++ p) = .undef := by
    rw [e, scan, if_pos ⟨rfl, rfl⟩, cmp_full _ _ hbd.1]
    simp only [hf]
  obtain ⟨h1, h2⟩ := bodySeen_of hbd.1 hh hs
  unfold bodySeen
  rw [h1, h2]

end Fly.Multipart
