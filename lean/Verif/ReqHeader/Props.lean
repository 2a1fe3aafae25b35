import Verif.ReqHeader.Lemmas

/-! # Properties of request header parsing -/

namespace Fly.ReqHeader

theorem lines_length (xs : List Bytes) : xs.length ≤ (lines xs).length := by
  induction xs with
  | nil => simp
  | cons x xs ih =>
    have : lines (x :: xs) = x ++ 10 :: lines xs := by simp [lines]
    rw [this]; simp; omega

/-- **C69 (exact).** For every sequence of header lines without NUL bytes, ended by an empty line, the request
gets exactly the well-formed field lines, in order, with lower-cased names and the value as sent (without
leading blanks), and the reader stands exactly behind the header.  All other lines are left out without an
error (see the refutations). -/
theorem C69_header_fields_exact (xs : List Bytes) (fs : List (Bytes × Bytes)) (rest : Bytes) (hF : Fields xs fs)
    (hx : ∀ x ∈ xs, 10 ∉ x ∧ 0 ∉ x ∧ ¬ EndLine x) :
    headerOperation (lines xs ++ b!"\r\n" ++ rest) = .ok (cells fs) (rest ++ [0]) := by
  have hl := lines_length xs
  have := parseHeader_lines b!"\r" (rest ++ [0]) (Or.inr rfl) (by decide) xs fs hF hx
    ((lines xs ++ b!"\r\n" ++ rest).length + 1) Header.HList.init (by simp; omega)
  unfold headerOperation
  have e : lines xs ++ b!"\r\n" ++ rest ++ [0] = lines xs ++ (b!"\r" ++ 10 :: (rest ++ [0])) := by simp
  rw [e, this]
  simp [Header.HList.init, cells]

/-- RFC 7230 3.2.6: tchar. -/
def RfcTchar (c : Nat) : Prop :=
  c ∈ b!"!#$%&'*+-.^_`|~" ∨ (48 ≤ c ∧ c ≤ 57) ∨ (65 ≤ c ∧ c ≤ 90) ∨ (97 ≤ c ∧ c ≤ 122)

/-- A field of RFC 7230 without obs-text: a token name; a value of visible ASCII, spaces and tabs that neither
begins nor ends with a blank. -/
def RfcField (f : Bytes × Bytes) : Prop :=
  f.1 ≠ [] ∧ (∀ c ∈ f.1, RfcTchar c) ∧ (∀ c ∈ f.2, ValueByte c) ∧ (∀ c, f.2.head? = some c → ¬ Blank c) ∧
    (∀ c, f.2.getLast? = some c → ¬ Blank c)

theorem rfc_name {c : Nat} (h : RfcTchar c) : NameByte c := by
  simp [RfcTchar] at h
  unfold NameByte; omega

theorem rfc_fieldLine {f : Bytes × Bytes} (h : RfcField f) : FieldLine (fieldText f.1 f.2) f.1 f.2 :=
  ⟨b!" ", b!"\r", by simp [fieldText], fun c hc => rfc_name (h.2.1 c hc), by simp, by simp [Blank], h.2.2.1, h.2.2.2.1, Or.inl rfl⟩

theorem fieldLine_plain {x n v : Bytes} (h : FieldLine x n v) : 10 ∉ x ∧ 0 ∉ x := by
  obtain ⟨bl, cr, rfl, h1, _, h2, h3, _, h4⟩ := h
  have k : ∀ z : Nat, (z = 10 ∨ z = 0) → z ∉ n ++ b!":" ++ bl ++ v ++ cr := by
    intro z hz hm
    simp only [List.mem_append] at hm
    rcases hm with (((hm | hm) | hm) | hm) | hm
    · have := h1 z hm; unfold NameByte at this; omega
    · simp at hm; omega
    · have := h2 z hm; unfold Blank at this; omega
    · have := h3 z hm; unfold ValueByte at this; omega
    · rcases h4 with rfl | ⟨rfl, _⟩
      · simp at hm; omega
      · simp at hm
  exact ⟨k 10 (Or.inl rfl), k 0 (Or.inr rfl)⟩

theorem fieldLine_not_end {x n v : Bytes} (h : FieldLine x n v) : ¬ EndLine x := by
  obtain ⟨bl, cr, rfl, h1, _⟩ := h
  intro he
  cases n with
  | nil => rcases he with he | he <;> simp at he
  | cons c n =>
    have := h1 c (by simp)
    unfold NameByte at this
    rcases he with he | he <;> simp at he
    omega

/-- **C69 (RFC fields).** Every list of RFC 7230 fields (`Name: value`, no obs-text) is delivered exactly. -/
theorem C69_rfc_fields_delivered_partial (fs : List (Bytes × Bytes)) (rest : Bytes) (h : ∀ f ∈ fs, RfcField f) :
    headerOperation (lines (fs.map fun f => fieldText f.1 f.2) ++ b!"\r\n" ++ rest) = .ok (cells fs) (rest ++ [0]) := by
  refine C69_header_fields_exact _ fs rest ?_ ?_
  · induction fs with
    | nil => exact .nil
    | cons f fs ih =>
      exact .field _ f.1 f.2 _ _ (rfc_fieldLine (h f (by simp))) (ih fun g hg => h g (by simp [hg]))
  · intro x hx
    obtain ⟨f, hf, rfl⟩ := List.mem_map.1 hx
    have hl := rfc_fieldLine (h f hf)
    exact ⟨(fieldLine_plain hl).1, (fieldLine_plain hl).2, fieldLine_not_end hl⟩

example : headerOperation b!"Host: a b\r\nX-Y: \r\nAccept: */*\r\n\r\nbody" =
    .ok ⟨[⟨some b!"host", some b!"a b"⟩, ⟨some b!"x-y", some []⟩, ⟨some b!"accept", some b!"*/*"⟩], 3⟩ (b!"body" ++ [0]) := by
  decide +kernel

example : RfcField (b!"Host", b!"a b") := by
  refine ⟨by simp, ?_, ?_, ?_, ?_⟩ <;> simp [RfcTchar, ValueByte, Blank]

/-- A field without a blank behind the colon, which RFC 7230 allows, is dropped silently, whatever its name and
value. -/
theorem C69_no_blank_after_colon_refuted (n v rest : Bytes) (fs : List (Bytes × Bytes)) (hn : ∀ c ∈ n, NameByte c)
    (hn0 : n ≠ []) (hv : v ≠ []) (hh : ∀ c, v.head? = some c → ¬ Blank c) (h10 : 10 ∉ v) (h0 : 0 ∉ v) (h : ∀ f ∈ fs, RfcField f) :
    headerOperation (lines ((n ++ b!":" ++ v ++ b!"\r") :: fs.map fun f => fieldText f.1 f.2) ++ b!"\r\n" ++ rest) =
      .ok (cells fs) (rest ++ [0]) := by
  refine C69_header_fields_exact _ fs rest (.skip _ _ _ ?_ ?_) ?_
  · rintro n' v' ⟨bl, cr, e, h1, hbl, hb, _⟩
    have key : ∀ (a b s t : Bytes), (∀ c ∈ a, NameByte c) → (∀ c ∈ b, NameByte c) → a ++ 58 :: s = b ++ 58 :: t → s = t := by
      intro a
      induction a with
      | nil =>
        intro b s t _ hb e
        cases b with
        | nil => simpa using e
        | cons y b => simp at e; have := hb y (by simp); unfold NameByte at this; omega
      | cons x a ih =>
        intro b s t ha hb e
        cases b with
        | nil => simp at e; have := ha x (by simp); unfold NameByte at this; omega
        | cons y b => simp at e; exact ih b s t (fun c hc => ha c (by simp [hc])) (fun c hc => hb c (by simp [hc])) e.2
    have e2 := key n n' (v ++ b!"\r") (bl ++ (v' ++ cr)) hn h1 (by simpa using e)
    cases v with
    | nil => simp at hv
    | cons a v =>
      cases bl with
      | nil => simp at hbl
      | cons z bl =>
        simp at e2
        exact hh a rfl (by rw [e2.1]; exact hb z (by simp))
  · clear hh
    induction fs with
    | nil => exact .nil
    | cons f fs ih =>
      exact .field _ f.1 f.2 _ _ (rfc_fieldLine (h f (by simp))) (ih fun g hg => h g (by simp [hg]))
  · intro x hx
    rcases List.mem_cons.1 hx with rfl | hx
    · have a1 : 10 ∉ n := fun hm => by have := hn _ hm; unfold NameByte at this; omega
      have a2 : 0 ∉ n := fun hm => by have := hn _ hm; unfold NameByte at this; omega
      refine ⟨by simp [a1, h10], by simp [a2, h0], ?_⟩
      cases n with
      | nil => simp at hn0
      | cons c n =>
        have := hn c (by simp); unfold NameByte at this
        intro he; rcases he with he | he <;> simp at he
        omega
    · obtain ⟨f, hf, rfl⟩ := List.mem_map.1 hx
      have hl := rfc_fieldLine (h f hf)
      exact ⟨(fieldLine_plain hl).1, (fieldLine_plain hl).2, fieldLine_not_end hl⟩

/-- So a body announced by `Content-Length:5` is taken as the beginning of the next request. -/
example : headerOperation b!"Content-Length:5\r\n\r\nhello" = .ok ⟨[], 0⟩ (b!"hello" ++ [0]) := by decide +kernel

/-- A field whose value contains a byte from 128 up (obs-text, UTF-8) is dropped silently. -/
theorem C69_obs_text_dropped_refuted (n a b rest : Bytes) (c : Nat) (hc : 128 ≤ c) (hn : ∀ x ∈ n, NameByte x) (hn0 : n ≠ [])
    (ha : 10 ∉ a ∧ 0 ∉ a) (hb : 10 ∉ b ∧ 0 ∉ b) :
    headerOperation (lines [n ++ b!": " ++ a ++ [c] ++ b ++ b!"\r"] ++ b!"\r\n" ++ rest) = .ok (cells []) (rest ++ [0]) := by
  refine C69_header_fields_exact _ [] rest (.skip _ _ _ ?_ .nil) ?_
  · rintro n' v' ⟨bl, cr, e, h1, _, h2, h3, _, h4⟩
    have hm : c ∈ n' ++ b!":" ++ bl ++ v' ++ cr := by rw [← e]; simp
    simp only [List.mem_append] at hm
    rcases hm with (((hm | hm) | hm) | hm) | hm
    · have := h1 c hm; unfold NameByte at this; omega
    · simp at hm; omega
    · have := h2 c hm; unfold Blank at this; omega
    · have := h3 c hm; unfold ValueByte at this; omega
    · rcases h4 with rfl | ⟨rfl, _⟩
      · simp at hm; omega
      · simp at hm
  · intro x hx
    simp only [List.mem_cons, List.not_mem_nil, or_false] at hx
    subst hx
    have a1 : 10 ∉ n := fun hm => by have := hn _ hm; unfold NameByte at this; omega
    have a2 : 0 ∉ n := fun hm => by have := hn _ hm; unfold NameByte at this; omega
    refine ⟨by simp [a1, ha.1, hb.1]; omega, by simp [a2, ha.2, hb.2]; omega, ?_⟩
    cases n with
    | nil => simp at hn0
    | cons c n =>
      have := hn c (by simp); unfold NameByte at this
      intro he; rcases he with he | he <;> simp at he
      omega

/-- Trailing blanks stay part of the value (RFC 7230 excludes them), so `Connection: close ` is not `close`. -/
theorem C69_trailing_blank_kept_refuted (n v bl : Bytes) (rest : Bytes) (h : RfcField (n, v)) (hv : v ≠ [])
    (hb : ∀ c ∈ bl, Blank c) :
    headerOperation (lines [fieldText n (v ++ bl)] ++ b!"\r\n" ++ rest) = .ok (cells [(n, v ++ bl)]) (rest ++ [0]) := by
  have hl : FieldLine (fieldText n (v ++ bl)) n (v ++ bl) := by
    refine ⟨b!" ", b!"\r", by simp [fieldText], fun c hc => rfc_name (h.2.1 c hc), by simp, by simp [Blank], ?_, ?_, Or.inl rfl⟩
    · intro c hc
      rcases List.mem_append.1 hc with hc | hc
      · exact h.2.2.1 c hc
      · have := hb c hc; unfold Blank at this; unfold ValueByte; omega
    · cases v with
      | nil => simp at hv
      | cons a v => intro c hc; exact h.2.2.2.1 c (by simpa using hc)
  refine C69_header_fields_exact _ _ rest (.field _ _ _ _ _ hl .nil) ?_
  intro x hx
  simp only [List.mem_cons, List.not_mem_nil, or_false] at hx
  subst hx
  exact ⟨(fieldLine_plain hl).1, (fieldLine_plain hl).2, fieldLine_not_end hl⟩

/-- A header block ended by a bare LF loses the first byte of the body. -/
theorem C69_bare_lf_eats_body_byte_refuted (c : Nat) (rest : Bytes) :
    headerOperation (b!"\n" ++ c :: rest) = .ok (cells []) (rest ++ [0]) := by
  unfold headerOperation
  have := parseHeader_lines [] (c :: rest ++ [0]) (Or.inl rfl) (by decide) [] [] .nil (by simp)
    ((b!"\n" ++ c :: rest).length + 1) Header.HList.init (by simp)
  simpa [lines, cells, Header.HList.init] using this

/-- A NUL byte in a field name makes the server wait for more bytes forever, though the header is complete. -/
theorem C69_nul_never_answered_refuted (n : Bytes) (hn : ∀ x ∈ n, NameByte x) (hn0 : n ≠ []) (rest : Bytes) :
    headerOperation (n ++ 0 :: rest) = .middle (n ++ 0 :: rest ++ [0]) := by
  have key : ∀ (m a : Bytes) (t : Bytes), (∀ x ∈ m, NameByte x) → stName a (m ++ 0 :: t) = .middle := by
    intro m
    induction m with
    | nil => intro a t _; rfl
    | cons c m ih =>
      intro a t hm
      have := hm c (by simp)
      unfold NameByte at this
      rw [List.cons_append, stName, if_neg (by simp; omega), if_neg (by simp; omega),
        if_pos ((tchar_iff c).2 ⟨this.1, this.2.1, this.2.2.1⟩)]
      exact ih _ _ fun x hx => hm x (by simp [hx])
  cases n with
  | nil => simp at hn0
  | cons c n =>
    have := hn c (by simp)
    unfold NameByte at this
    have k := key (c :: n) [] (rest ++ [0]) hn
    unfold headerOperation
    have e : c :: n ++ 0 :: rest ++ [0] = c :: n ++ 0 :: (rest ++ [0]) := by simp
    rw [parseHeader, e, List.cons_append, parseLine, if_pos ((tchar_iff c).2 ⟨this.1, this.2.1, this.2.2.1⟩)]
    rw [List.cons_append] at k
    rw [k]

/-- A field name that continues in the next buffer chunk is read from the memory behind its first chunk. -/
theorem C69_name_across_chunks_refuted (a b : Bytes) (hb : b ≠ []) :
    addbName a (a ++ b).length = none ∧ addbName (a ++ b) (a ++ b).length = some ((a ++ b).map Header.lower) := by
  have := List.length_pos_iff.2 hb
  constructor
  · unfold addbName; rw [if_neg (by simp; omega)]
  · unfold addbName; rw [if_pos (Nat.le_refl _), List.take_length]

/-- **C70 refuted.** No malformed line is ever refused: every line that is neither a field nor the end of the
header is skipped, so a header block never gives 400. -/
theorem C70_malformed_lines_ignored_refuted (x : Bytes) (rest : Bytes) (h10 : 10 ∉ x) (h0 : 0 ∉ x) (he : ¬ EndLine x)
    (hx : ∀ n v, ¬ FieldLine x n v) (more : List Bytes) (fs : List (Bytes × Bytes)) (hF : Fields more fs)
    (hm : ∀ x ∈ more, 10 ∉ x ∧ 0 ∉ x ∧ ¬ EndLine x) :
    headerOperation (lines (x :: more) ++ b!"\r\n" ++ rest) = headerOperation (lines more ++ b!"\r\n" ++ rest) := by
  rw [C69_header_fields_exact more fs rest hF hm]
  refine C69_header_fields_exact _ fs rest (.skip _ _ _ hx hF) ?_
  intro y hy
  rcases List.mem_cons.1 hy with rfl | hy
  · exact ⟨h10, h0, he⟩
  · exact hm y hy

example : headerOperation b!"no colon here\r\nTransfer Encoding: x\r\nA: b\r\n\r\n" = .ok ⟨[⟨some b!"a", some b!"b"⟩], 1⟩ [0] := by
  decide +kernel

/-- What does hold of C70: the outcome of a header block received up to its empty line is never 400 or undefined
behaviour, and it never depends on the bytes behind the block. -/
theorem C70_outcome_independent_of_body_partial (xs : List Bytes) (hx : ∀ x ∈ xs, 10 ∉ x ∧ 0 ∉ x ∧ ¬ EndLine x) :
    ∃ fs, ∀ rest, headerOperation (lines xs ++ b!"\r\n" ++ rest) = .ok (cells fs) (rest ++ [0]) := by
  have : ∃ fs, Fields xs fs := by
    clear hx
    induction xs with
    | nil => exact ⟨[], .nil⟩
    | cons x xs ih =>
      obtain ⟨fs, h⟩ := ih
      by_cases hf : ∃ n v, FieldLine x n v
      · obtain ⟨n, v, hf⟩ := hf
        exact ⟨_, .field x n v _ _ hf h⟩
      · exact ⟨fs, .skip x _ _ (fun n v h => hf ⟨n, v, h⟩) h⟩
  obtain ⟨fs, hF⟩ := this
  exact ⟨fs, fun rest => C69_header_fields_exact xs fs rest hF hx⟩

end Fly.ReqHeader
