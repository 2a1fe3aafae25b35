import Verif.Response.Model
import Verif.Response.Spec
import Verif.Header.Props

/-! # C17, C18, C19, C53 — responses -/

namespace Fly.Response

open Fly.Header (HList HField Pairs view Inv pr)

/-! ## C53 — decimal lengths -/

theorem countDigits_printLd : ∀ (f n : Nat) (g : Nat) (acc : Bytes), n < f → n ≤ g → 0 < n →
    (printLd f n acc).length = countDigits g n + acc.length
  | 0, n, g, acc, h, _, _ => by omega
  | f + 1, n, 0, acc, h, hg, h0 => by omega
  | f + 1, n, g + 1, acc, h, hg, h0 => by
    unfold printLd countDigits
    rw [if_neg (show ¬ n = 0 by omega)]
    split
    · next hn =>
      have : n / 10 = 0 := by omega
      rw [this]
      have : countDigits g 0 = 0 := by cases g <;> simp [countDigits]
      rw [this]; simp; omega
    · next hn =>
      rw [countDigits_printLd f (n / 10) g _ (by omega) (by omega) (by omega)]
      simp; omega

/-- **C53.** The length reserved for a Content-Length is exactly the number of characters printed, for
every length: nothing is cut. -/
theorem C53_digits_reserved_exact (n : Nat) : numberDigits n = (decimal n).length ∧ contLenStr n = decimal n := by
  have h : numberDigits n = (decimal n).length := by
    unfold numberDigits decimal
    split
    · next h => subst h; rfl
    · next h => rw [countDigits_printLd (n + 1) n n [] (by omega) (Nat.le_refl _) (by omega)]; simp
  refine ⟨h, ?_⟩
  unfold contLenStr snprintfLd
  rw [h]; simp

theorem digitsVal_printLd : ∀ (f n : Nat) (acc : Bytes) (x : Nat), n < f → (∀ b ∈ acc, isDigit b = true) →
    digitsVal x (printLd f n acc) = digitsVal (x * 10 ^ ((printLd f n acc).length - acc.length) + n) acc ∧
    acc.length ≤ (printLd f n acc).length
  | 0, n, acc, x, h, _ => by omega
  | f + 1, n, acc, x, h, ha => by
    unfold printLd
    split
    · next hn =>
      have hd : isDigit (48 + n) = true := by unfold isDigit; rw [Bool.and_eq_true, decide_eq_true_eq, decide_eq_true_eq]; omega
      refine ⟨?_, by simp⟩
      rw [digitsVal, if_pos hd]
      congr 1
      have : (List.length ((48 + n) :: acc) - acc.length) = 1 := by simp
      rw [this]; omega
    · next hn =>
      have hd : isDigit (48 + n % 10) = true := by unfold isDigit; rw [Bool.and_eq_true, decide_eq_true_eq, decide_eq_true_eq]; omega
      obtain ⟨ih, ihl⟩ := digitsVal_printLd f (n / 10) ((48 + n % 10) :: acc) x (by omega) (by
        intro b hb
        rcases List.mem_cons.1 hb with rfl | hb
        · exact hd
        · exact ha b hb)
      rw [List.length_cons] at ihl
      refine ⟨?_, by omega⟩
      rw [ih, digitsVal, if_pos hd]
      congr 1
      generalize (printLd f (n / 10) ((48 + n % 10) :: acc)).length = L at ihl ⊢
      rw [List.length_cons]
      have : L - acc.length = L - (acc.length + 1) + 1 := by omega
      rw [this, Nat.pow_succ]
      generalize 10 ^ (L - (acc.length + 1)) = P
      have : 48 + n % 10 - 48 = n % 10 := by omega
      rw [this, Nat.add_mul, Nat.mul_assoc]
      omega

theorem decimal_digits : ∀ (f n : Nat) (acc : Bytes), (∀ b ∈ acc, isDigit b = true) → ∀ b ∈ printLd f n acc, isDigit b = true
  | 0, n, acc, h => h
  | f + 1, n, acc, h => by
    unfold printLd
    have hd : ∀ m, m < 10 → isDigit (48 + m) = true := by
      intro m hm; unfold isDigit; rw [Bool.and_eq_true, decide_eq_true_eq, decide_eq_true_eq]; omega
    split
    · next hn =>
      intro b hb
      rcases List.mem_cons.1 hb with rfl | hb
      · exact hd n hn
      · exact h b hb
    · apply decimal_digits f
      intro b hb
      rcases List.mem_cons.1 hb with rfl | hb
      · exact hd (n % 10) (by omega)
      · exact h b hb

theorem printLd_ne_nil : ∀ (f n : Nat) (acc : Bytes), n < f → printLd f n acc ≠ []
  | 0, _, _, h => by omega
  | f + 1, n, acc, h => by
    unfold printLd
    split
    · simp
    · exact printLd_ne_nil f (n / 10) _ (by omega)

/-- **C53 (value).** The characters printed are digits and a reader gets the number back, for every
length. -/
theorem C53_decimal_reads_back (n : Nat) :
    (∀ b ∈ contLenStr n, isDigit b = true) ∧ contLenStr n ≠ [] ∧ digitsVal 0 (contLenStr n) = n ∧ atoll (contLenStr n) = n := by
  rw [(C53_digits_reserved_exact n).2]
  have h1 : ∀ b ∈ decimal n, isDigit b = true := decimal_digits (n + 1) n [] (by simp)
  have h2 : decimal n ≠ [] := printLd_ne_nil (n + 1) n [] (by omega)
  have h3 : digitsVal 0 (decimal n) = n := by
    have := (digitsVal_printLd (n + 1) n [] 0 (by omega) (by simp)).1
    simpa [decimal, digitsVal] using this
  refine ⟨h1, h2, h3, ?_⟩
  unfold atoll
  cases hd : decimal n with
  | nil => exact absurd hd h2
  | cons b t =>
    have hb := h1 b (by rw [hd]; simp)
    have hb : 48 ≤ b ∧ b ≤ 57 := by
      unfold isDigit at hb; rwa [Bool.and_eq_true, decide_eq_true_eq, decide_eq_true_eq] at hb
    have hs : isSpace b = false := by
      unfold isSpace
      rw [Bool.or_eq_false_iff, Bool.and_eq_false_iff, decide_eq_false_iff_not, decide_eq_false_iff_not, beq_eq_false_iff_ne]
      omega
    rw [List.dropWhile_cons, hs]
    simp only [Bool.false_eq_true, if_false]
    rw [hd] at h3
    split
    · next h => injection h with h _; omega
    · next h => injection h with h _; omega
    · exact congrArg _ h3

example : contLenStr 0 = b!"0" ∧ contLenStr 10 = b!"10" ∧ contLenStr 1048576 = b!"1048576" := by decide +kernel

/-! ## C19 — status line -/

/-- **C19 (partial).** For every status type of the framework except 410, 411 and 505 the status line is
`HTTP/1.1 <code> <RFC phrase> CRLF`, it fits its buffer, and converting the number to a status and back is
the identity.  (The domain is the finite table.)  Missing: the three in `C19_wrong_reason_refuted`. -/
theorem C19_status_line_partial : ∀ t ∈ statusTypes, t ∉ [410, 411, 505] →
    (∃ r, rfcReason.lookup t = some r ∧ statusLine .v1_1 t = some (b!"HTTP/1.1 " ++ threeDigits t ++ b!" " ++ r ++ [13, 10])) ∧
    codeOfType t = some t ∧ typeOfLong t = some t := by
  have h : ∀ t ∈ statusTypes, t ∉ [410, 411, 505] →
      (statusLine .v1_1 t = some (b!"HTTP/1.1 " ++ threeDigits t ++ b!" " ++ (rfcReason.lookup t).getD [] ++ [13, 10]) ∧
      (rfcReason.lookup t).isSome ∧ codeOfType t = some t ∧ typeOfLong t = some t) := by decide +kernel
  intro t ht hn
  obtain ⟨h1, h2, h3, h4⟩ := h t ht hn
  obtain ⟨r, hr⟩ := Option.isSome_iff_exists.1 h2
  rw [hr] at h1
  exact ⟨⟨r, hr, h1⟩, h3, h4⟩

/-- **C19 (conversion).** A number is converted to a status only if it is that status's code, and all
numbers outside the table are refused. -/
theorem C19_number_to_status (l : Int) (t : Nat) (h : typeOfLong l = some t) : (t : Int) = l ∧ t ∈ statusTypes := by
  unfold typeOfLong at h
  cases hf : responses.find? (fun r => decide ((r.1 : Int) = l)) with
  | none => rw [hf] at h; simp at h
  | some r =>
    rw [hf] at h
    have h : r.1 = t := Option.some.inj h
    have h1 := List.find?_some hf
    have h2 := List.mem_of_find?_eq_some hf
    rw [decide_eq_true_eq, h] at h1
    refine ⟨h1, ?_⟩
    have : ∀ r ∈ responses, r.1 ∈ statusTypes := by decide +kernel
    rw [← h]; exact this r h2

/-- **C19 refuted.** 410 is sent as "Length Required", 411 as `-1 (null)` (and number 411 is refused), 505
with a misspelt phrase. -/
theorem C19_wrong_reason_refuted :
    statusLine .v1_1 410 = some (b!"HTTP/1.1 410 Length Required" ++ [13, 10]) ∧
    statusLine .v1_1 411 = some (b!"HTTP/1.1 -1 (null)" ++ [13, 10]) ∧ typeOfLong 411 = none ∧
    statusLine .v1_1 505 = some (b!"HTTP/1.1 505 HTTP Version Not SUpported" ++ [13, 10]) := by decide +kernel

/-! ## C17 — layout -/

/-- The bytes a body source holds. -/
def Body.bytes : Body → Option Bytes
  | .encoded e => some e
  | .body b => b
  | .file c => some c
  | .default => none
  | .noContent => some []

theorem headerLine_flat (l : List HField) :
    l.flatMap headerLine = (l.map pr).flatMap (fun p => p.1 ++ b!": " ++ p.2 ++ [13, 10]) := by
  induction l with
  | nil => rfl
  | cons f l ih => rw [List.flatMap_cons, ih]; rfl

theorem headerLine_len (l : List HField) :
    (l.flatMap headerLine).length = (l.map fun f => (f.name.getD []).length + 2 + (f.value.getD []).length + 2).sum := by
  induction l with
  | nil => rfl
  | cons f l ih =>
    rw [List.flatMap_cons, List.length_append, ih, List.map_cons, List.sum_cons]
    congr 1
    simp [headerLine]; omega

theorem head_len (line : Bytes) (h : HList) :
    (line ++ (if h.count = 0 then [] else h.items.flatMap headerLine) ++ [13, 10]).length = line.length +
      (if h.count = 0 then 0 else (h.items.map fun f => (f.name.getD []).length + 2 + (f.value.getD []).length + 2).sum) + 2 := by
  split
  · simp
  · simp only [List.length_append, headerLine_len]; simp

/-- **C17.** For every status, header list and body source whose announced length is right: the buffer
holds exactly status line, headers in order, empty line and body, and the announced total is its length. -/
theorem C17_serialized_layout (v : Version) (t : Nat) (line : Bytes) (hl : statusLine v t = some line) (h : HList) (hi : Inv h)
    (b : Body) (bs : Bytes) (hb : b.bytes = some bs) (count : Nat) (hc : bs.length ≤ count) :
    setSendPtr v t h bs.length count b = some ⟨(wire line (view h) bs).length, wire line (view h) bs⟩ := by
  have hhead : (line ++ (if h.count = 0 then [] else h.items.flatMap headerLine) ++ [13, 10]) ++ bs = wire line (view h) bs := by
    unfold wire
    rw [Header.view_eq, ← headerLine_flat]
    split
    · next h0 =>
      have : h.items = [] := List.eq_nil_of_length_eq_zero (by rw [← hi.count]; exact h0)
      rw [this]; rfl
    · rfl
  have htot : line.length +
      (if h.count = 0 then 0 else (h.items.map fun f => (f.name.getD []).length + 2 + (f.value.getD []).length + 2).sum) + 2 + bs.length
      = (wire line (view h) bs).length := by
    rw [← hhead, List.length_append, head_len]
  unfold setSendPtr
  rw [hl]
  simp only
  rw [htot]
  generalize line ++ (if h.count = 0 then [] else h.items.flatMap headerLine) ++ [13, 10] = head at hhead ⊢
  have hlen : (wire line (view h) bs).length = head.length + bs.length := by rw [← hhead, List.length_append]
  cases b with
  | encoded e =>
    cases hb
    simp only
    rw [List.take_of_length_le (by omega), hhead]
  | body o =>
    have hb : o = some bs := hb
    subst hb
    simp only
    rw [if_neg (by omega), hhead]
  | file c =>
    cases hb
    simp only
    rw [List.take_of_length_le hc, if_neg (by omega), hhead]
  | default => simp [Body.bytes] at hb
  | noContent =>
    cases hb
    simp only
    rw [← hhead]; simp

theorem takeLine_append : ∀ (l rest : Bytes), 13 ∉ l → takeLine (l ++ 13 :: 10 :: rest) = some (l, rest)
  | [], rest, _ => by simp [takeLine]
  | b :: l, rest, h => by
    have hb : b ≠ 13 := fun e => h (by simp [e])
    have ih := takeLine_append l rest (fun hm => h (by simp [hm]))
    rw [List.cons_append, takeLine.eq_def]
    split
    · next e => cases l <;> simp at e
    · next e => injection e with e _; exact absurd e hb
    · next x r _ e =>
      injection e with e1 e2
      subst e1; rw [← e2, ih]; rfl

theorem splitHeader_append : ∀ (n v : Bytes), 58 ∉ n → splitHeader (n ++ 58 :: 32 :: v) = some (n, v)
  | [], v, _ => by simp [splitHeader]
  | b :: n, v, h => by
    have hb : b ≠ 58 := fun e => h (by simp [e])
    have ih := splitHeader_append n v (fun hm => h (by simp [hm]))
    rw [List.cons_append, splitHeader.eq_def]
    split
    · next e => cases n <;> simp at e
    · next e => injection e with e _; exact absurd e hb
    · next e => injection e with e _; exact absurd e hb
    · next x r _ _ e =>
      injection e with e1 e2
      subst e1; rw [← e2, ih]; rfl

/-- A header a client can read back: no CR anywhere, no colon in the name. -/
def Clean (p : Bytes × Bytes) : Prop := 13 ∉ p.1 ∧ 58 ∉ p.1 ∧ 13 ∉ p.2

theorem readHeaders_wire : ∀ (hs : Pairs) (body : Bytes) (fuel : Nat), (∀ p ∈ hs, Clean p) → hs.length < fuel →
    readHeaders fuel (hs.flatMap (fun p => p.1 ++ b!": " ++ p.2 ++ [13, 10]) ++ [13, 10] ++ body) = some (hs, body)
  | _, _, 0, _, hf => absurd hf (by omega)
  | [], body, fuel + 1, _, _ => by simp [readHeaders, takeLine]
  | p :: hs, body, fuel + 1, hc, hf => by
    obtain ⟨c1, c2, c3⟩ := hc p (by simp)
    have ih := readHeaders_wire hs body fuel (fun q hq => hc q (by simp [hq])) (by simpa using hf)
    have e : (p :: hs).flatMap (fun p => p.1 ++ b!": " ++ p.2 ++ [13, 10]) ++ [13, 10] ++ body =
        (p.1 ++ 58 :: 32 :: p.2) ++ 13 :: 10 :: (hs.flatMap (fun p => p.1 ++ b!": " ++ p.2 ++ [13, 10]) ++ [13, 10] ++ body) := by
      simp [List.flatMap_cons]
    rw [e]
    unfold readHeaders
    rw [takeLine_append _ _ (by simp [c1, c3])]
    have hne : p.1 ++ 58 :: 32 :: p.2 ≠ [] := by simp
    split
    · next h => simp at h
    · next h => injection h with h; injection h with h _; exact absurd h hne
    · next l rest _ h =>
      injection h with h
      injection h with h1 h2
      subst h1; subst h2
      rw [splitHeader_append p.1 p.2 c2, ih]

/-- **C17 (reading back).** A client that splits the bytes at CRLF and at the first colon gets exactly the
status line, the headers in order and the body, for every header list without CR and colons in names. -/
theorem C17_client_reads_response (line : Bytes) (hl : 13 ∉ line) (hs : Pairs) (hc : ∀ p ∈ hs, Clean p) (body : Bytes) :
    readResponse (wire (line ++ [13, 10]) hs body) = some (line, hs, body) := by
  have e : wire (line ++ [13, 10]) hs body =
      line ++ 13 :: 10 :: (hs.flatMap (fun p => p.1 ++ b!": " ++ p.2 ++ [13, 10]) ++ [13, 10] ++ body) := by simp [wire]
  unfold readResponse
  rw [e, takeLine_append _ _ hl]
  simp only
  rw [readHeaders_wire hs body _ hc]
  · rfl
  · have : ∀ (hs : Pairs), hs.length ≤ (hs.flatMap (fun p => p.1 ++ b!": " ++ p.2 ++ [13, 10])).length := by
      intro hs
      induction hs with
      | nil => simp
      | cons p hs ih => simp only [List.flatMap_cons, List.length_append, List.length_cons, List.length_nil]; omega
    have := this hs
    simp only [List.length_append]; omega

/-- **C17 refuted (injection).** Nothing stops a header value from containing CRLF: the client then reads
an additional header, for every name and value. -/
theorem C17_header_injection_refuted (line n v n' v' body : Bytes) :
    wire line [(n, v ++ [13, 10] ++ n' ++ b!": " ++ v')] body = wire line [(n, v), (n', v')] body := by
  simp [wire]

example : setSendPtr .v1_1 200 ⟨[⟨some b!"A", some b!"1"⟩, ⟨some b!"B", none⟩], 2⟩ 2 0 (.body (some b!"hi")) =
    some ⟨32, b!"HTTP/1.1 200 OK\r\nA: 1\r\nB: \r\n\r\nhi"⟩ := by decide +kernel

/-! ## C18 — Content-Length -/

theorem inv_set {h : HList} (hi : Inv h) (n : Nat) :
    ∃ h', setContentLength h n = some h' ∧ Inv h' ∧ (view h').lookup b!"Content-Length" = some (decimal n) := by
  have hg : Header.GoodName b!"Content-Length" := ⟨by simp, by simp⟩
  obtain ⟨h', e, i, v⟩ := Header.step_ok hi (.set b!"Content-Length" (contLenStr n)) hg
  refine ⟨h', e, i, ?_⟩
  rw [v]
  show (Header.setFirst _ _ _).lookup _ = _
  rw [Header.setFirst_lookup, if_pos rfl, (C53_digits_reserved_exact n).2]

theorem inv_enc {h : HList} (hi : Inv h) (encName : Coding → Bytes) (c : Coding) : Inv (addContentEncoding encName h c) :=
  (Header.add_ok hi (n := b!"Content-Encoding") ⟨by simp, by simp⟩ (encName c) false).1

/-- The response as it goes out is consistent: some bytes `bs` follow the header, the buffer holds nothing
else, and the first Content-Length header is their number. -/
def LengthRight (v : Version) (t count : Nat) (p : Prepared) : Prop :=
  ∃ line hs bs, statusLine v t = some line ∧ serialize v t count p = some ⟨(wire line hs bs).length, wire line hs bs⟩ ∧
    hs.lookup b!"Content-Length" = some (decimal bs.length)

theorem ready_right (v : Version) (t : Nat) (line : Bytes) (hl : statusLine v t = some line) {h : HList} (hi : Inv h) (b : Body)
    (bs : Bytes) (hb : b.bytes = some bs) (count : Nat) (hc : bs.length ≤ count ∨ ∀ c, b ≠ .file c) :
    ∃ h', setContentLength h bs.length = some h' ∧ LengthRight v t count (.ready b bs.length h') := by
  obtain ⟨h', e, i, lk⟩ := inv_set hi bs.length
  refine ⟨h', e, line, view h', bs, hl, ?_, lk⟩
  show setSendPtr v t h' bs.length count b = _
  rcases hc with hc | hc
  · exact C17_serialized_layout v t line hl h' i b bs hb count hc
  · have := C17_serialized_layout v t line hl h' i b bs hb (max count bs.length) (Nat.le_max_right _ _)
    rw [← this]
    cases b with
    | file c => exact absurd rfl (hc c)
    | body o => cases o <;> rfl
    | _ => rfl

variable (encName : Coding → Bytes) (compress : Coding → Bytes → Bytes) (overflow : Bytes → Bool)

/-- **C18, handler responses.** For every handler body, negotiation result, threshold and encoder: unless
the encoded body is too large, the response goes out with a Content-Length equal to the bytes sent after
the header. -/
theorem C18_handler_body_length (v : Version) (t : Nat) (line : Bytes) (hl : statusLine v t = some line) (threshold : Nat) (acc : Accepts)
    (dontEncode : Bool) (body : Bytes) (pf : Option File) (h : HList) (hi : Inv h) (count : Nat) :
    ∃ p, prepare encName compress overflow threshold acc dontEncode (some body) pf h = some p ∧
      (p = .tooLarge ∨ LengthRight v t count p) := by
  unfold prepare
  simp only [Bool.false_and, Bool.false_eq_true, if_false]
  cases dontEncode
  · simp only [Bool.false_eq_true, if_false]
    split
    · next c hc =>
      simp only
      split
      · obtain ⟨h', e, r⟩ := ready_right v t line hl (inv_enc hi encName c) (.body (some body)) body rfl count (Or.inr (by simp))
        rw [e]
        exact ⟨_, rfl, Or.inr r⟩
      · split
        · exact ⟨_, rfl, Or.inl rfl⟩
        · obtain ⟨h', e, r⟩ := ready_right v t line hl (inv_enc hi encName c) (.encoded (compress c body)) _ rfl count (Or.inr (by simp))
          rw [e]
          exact ⟨_, rfl, Or.inr r⟩
    · next hc =>
      simp only
      obtain ⟨h', e, r⟩ := ready_right v t line hl hi (.body (some body)) body rfl count (Or.inr (by simp))
      rw [e]
      exact ⟨_, rfl, Or.inr r⟩
  · simp only [if_true]
    obtain ⟨h', e, r⟩ := ready_right v t line hl hi (.body (some body)) body rfl count (Or.inr (by simp))
    rw [e]
    exact ⟨_, rfl, Or.inr r⟩

/-- **C18, static files (partial).** The same for a file, provided either its stored encoding is accepted,
or the negotiation chose a real coding and the file is long enough, or it has no stored encoding and no
`identity` coding is applied.  Missing: the two cases below. -/
theorem C18_static_file_length_partial (v : Version) (t : Nat) (line : Bytes) (hl : statusLine v t = some line) (threshold : Nat) (acc : Accepts)
    (f : File) (h : HList) (hi : Inv h)
    (hcase : (∃ c e, f.pre = some (c, e) ∧ acc.matching c = true) ∨
      (threshold ≤ f.content.length ∧ ∃ c, acc.decided = some c ∧ c ≠ identity) ∨
      (f.pre = none ∧ (acc.decided = some identity → f.content.length < threshold))) :
    ∃ p, prepare encName compress overflow threshold acc false none (some f) h = some p ∧
      (p = .tooLarge ∨ LengthRight v t f.content.length p) := by
  obtain ⟨content, pre⟩ := f
  unfold prepare
  simp only [Bool.false_eq_true, if_false]
  cases pre with
  | some q =>
    obtain ⟨c, e⟩ := q
    simp only [Bool.true_and]
    cases hm : acc.matching c with
    | true =>
      simp only [Bool.not_true, Bool.false_eq_true, if_false, if_true]
      obtain ⟨h', e', r⟩ := ready_right v t line hl (inv_enc hi encName c) (.encoded e) e rfl content.length (Or.inr (by simp))
      rw [e']
      exact ⟨_, rfl, Or.inr r⟩
    | false =>
      simp only [Bool.not_false, if_true, Bool.false_eq_true, if_false]
      rcases hcase with ⟨c', e', h1, h2⟩ | ⟨h1, d, h2, h3⟩ | ⟨h1, _⟩
      · simp only [Option.some.injEq, Prod.mk.injEq] at h1
        rw [← h1.1, hm] at h2; simp at h2
      · have h1 : threshold ≤ content.length := h1
        rw [if_pos h1, h2]
        simp only [if_neg h3]
        split
        · exact ⟨_, rfl, Or.inl rfl⟩
        · obtain ⟨h', e', r⟩ := ready_right v t line hl (inv_enc hi encName d) (.encoded (compress d content)) _ rfl content.length (Or.inr (by simp))
          rw [e']
          exact ⟨_, rfl, Or.inr r⟩
      · simp at h1
  | none =>
    simp only [Bool.false_and, Bool.false_eq_true, if_false]
    split
    · next d hd =>
      have hth : threshold ≤ content.length ∧ acc.decided = some d := by
        split at hd
        · next h => exact ⟨h, hd⟩
        · simp at hd
      have hne : d ≠ identity := by
        rcases hcase with ⟨c', e', h1, _⟩ | ⟨h1, d', h2, h3⟩ | ⟨_, h2⟩
        · simp at h1
        · rw [hth.2] at h2; rw [Option.some.inj h2]; exact h3
        · intro hid
          have h3 : content.length < threshold := h2 (by rw [hth.2, hid])
          omega
      simp only [if_neg hne]
      split
      · exact ⟨_, rfl, Or.inl rfl⟩
      · obtain ⟨h', e', r⟩ := ready_right v t line hl (inv_enc hi encName d) (.encoded (compress d content)) _ rfl content.length (Or.inr (by simp))
        rw [e']
        exact ⟨_, rfl, Or.inr r⟩
    · next hd =>
      simp only
      obtain ⟨h', e', r⟩ := ready_right v t line hl hi (.file content) content rfl content.length (Or.inl (Nat.le_refl _))
      rw [e']
      exact ⟨_, rfl, Or.inr r⟩

/-- **C18, no content.** A response without body announces 0 (below any positive threshold). -/
theorem C18_no_content_length (v : Version) (t : Nat) (line : Bytes) (hl : statusLine v t = some line) (threshold : Nat) (ht : 0 < threshold)
    (acc : Accepts) (dontEncode : Bool) (h : HList) (hi : Inv h) (count : Nat) :
    ∃ p, prepare encName compress overflow threshold acc dontEncode none none h = some p ∧ LengthRight v t count p := by
  unfold prepare
  simp only [Bool.false_and, Bool.false_eq_true, if_false]
  have ht' : ¬ threshold ≤ 0 := by omega
  obtain ⟨h', e', r⟩ := ready_right v t line hl hi .noContent [] rfl count (Or.inr (by simp))
  have e' : setContentLength h 0 = some h' := e'
  cases dontEncode
  · simp only [Bool.false_eq_true, if_false, if_neg ht', e']
    exact ⟨_, rfl, r⟩
  · simp only [if_true, e']
    exact ⟨_, rfl, r⟩

/-- **C18 refuted.** A client that only accepts `identity` crashes the worker by asking for any static
file at least as long as the encoding threshold (NULL body). -/
theorem C18_identity_file_crashes_refuted (v : Version) (t : Nat) (threshold : Nat) (f : File) (h : HList) (hi : Inv h)
    (hlen : threshold ≤ f.content.length) (acc : Accepts) (hd : acc.decided = some identity) (hm : ∀ c, acc.matching c = (c == identity))
    (hp : ∀ c e, f.pre = some (c, e) → c ≠ identity) :
    ∃ p, prepare encName compress overflow threshold acc false none (some f) h = some p ∧ ∀ count, serialize v t count p = none := by
  obtain ⟨content, pre⟩ := f
  have hlen : threshold ≤ content.length := hlen
  have key : ∀ p, (∃ n h', p = Prepared.ready (.body none) n h') → ∀ count, serialize v t count p = none := by
    rintro p ⟨n, h', rfl⟩ count
    simp only [serialize, setSendPtr]
    split <;> rfl
  unfold prepare
  simp only [Bool.false_eq_true, if_false]
  obtain ⟨h', e', _, _⟩ := inv_set (inv_enc hi encName identity) content.length
  cases pre with
  | none =>
    simp only [Bool.false_and, Bool.false_eq_true, if_false, if_pos hlen, hd, if_true, e']
    exact ⟨_, rfl, key _ ⟨_, _, rfl⟩⟩
  | some q =>
    obtain ⟨c, e⟩ := q
    have hmc : acc.matching c = false := by
      rw [hm c]; have := hp c e rfl; simpa using this
    simp only [hmc, Bool.true_and, Bool.not_false, if_true, Bool.false_eq_true, if_false, if_pos hlen, hd, e']
    exact ⟨_, rfl, key _ ⟨_, _, rfl⟩⟩

/-- **C18 refuted.** If the stored encoding of a file is not accepted and no coding was chosen, the
encoded bytes are sent all the same, with their length as Content-Length but with the length of the plain
file as the number of bytes sent: the connection carries uninitialised memory after the body. -/
theorem C18_unaccepted_encoding_sent_refuted (v : Version) (t : Nat) (line : Bytes) (hl : statusLine v t = some line) (threshold : Nat)
    (acc : Accepts) (hd : acc.decided = none) (content enc : Bytes) (c : Coding) (hm : acc.matching c = false)
    (hlt : enc.length < content.length) (h : HList) (hi : Inv h) :
    ∃ hs p, prepare encName compress overflow threshold acc false none (some ⟨content, some (c, enc)⟩) h = some p ∧
      hs.lookup b!"Content-Length" = some (decimal enc.length) ∧
      serialize v t content.length p = some ⟨(wire line hs enc).length + (content.length - enc.length), wire line hs enc⟩ := by
  unfold prepare
  simp only [hm, Bool.true_and, Bool.not_false, if_true, Bool.false_eq_true, if_false, hd, ite_self]
  obtain ⟨h', e', i, lk⟩ := inv_set hi enc.length
  rw [e']
  refine ⟨view h', _, rfl, lk, ?_⟩
  show setSendPtr v t h' content.length content.length (.encoded enc) = _
  have base := C17_serialized_layout v t line hl h' i (.encoded enc) enc rfl content.length (by omega)
  unfold setSendPtr at base ⊢
  rw [hl] at base ⊢
  simp only at base ⊢
  injection base with base
  injection base with b1 b2
  have hT := head_len line h'
  generalize line ++ (if h'.count = 0 then [] else h'.items.flatMap headerLine) ++ [13, 10] = head at hT b2 ⊢
  generalize line.length +
      (if h'.count = 0 then 0 else (h'.items.map fun f => (f.name.getD []).length + 2 + (f.value.getD []).length + 2).sum) + 2 = T at hT b1 b2 ⊢
  have h3 : enc.take (T + content.length - head.length) = enc := List.take_of_length_le (by omega)
  have h4 : head ++ enc = wire line (view h') enc := by
    rw [← b2]; congr 1; exact (List.take_of_length_le (by omega)).symm
  rw [h3, h4, ← b1]
  congr 2
  omega

example : (prepare (fun _ => b!"gzip") (fun _ b => b.take 2) (fun _ => false) 4 ⟨fun c => c == 1, some 1⟩ false (some b!"abcdef") none
    HList.init).bind (serialize .v1_1 200 0) =
    some ⟨64, b!"HTTP/1.1 200 OK\r\nContent-Encoding: gzip\r\nContent-Length: 2\r\n\r\nab"⟩ := by decide +kernel

end Fly.Response
