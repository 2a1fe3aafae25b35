import Verif.Log.Model
import Verif.Log.Spec
import Verif.Log.LockProps
import Verif.Response.Props

/-! # C106, C108, C109, C110: what log files say -/

namespace Fly.Log

open Response (decimal codeOfType explain statusTypes)

/-! ## Reading lines back -/

theorem readLines_text (t r : Bytes) (h : 10 ∉ t) : readLines (t ++ 10 :: r) = (t ++ [10]) :: readLines r := by
  induction t with
  | nil => simp [readLines]
  | cons c t ih =>
    have hc : ¬ c = 10 := fun h' => h (by simp [h'])
    have := ih (fun h' => h (List.mem_cons_of_mem _ h'))
    rw [List.cons_append, readLines, if_neg hc, this]; rfl

theorem readLines_line (l r : Bytes) (h : IsLine l) : readLines (l ++ r) = l :: readLines r := by
  obtain ⟨t, rfl, h1, _⟩ := h
  rw [List.append_assoc]; exact readLines_text t r h1

theorem readLines_flatten (ls : List Bytes) (h : ∀ l ∈ ls, IsLine l) : readLines ls.flatten = ls := by
  induction ls with
  | nil => rfl
  | cons l ls ih =>
    rw [List.flatten_cons, readLines_line l _ (h l (by simp)), ih (fun x hx => h x (by simp [hx]))]

theorem readLines_open (t : Bytes) (h : 10 ∉ t) (hn : t ≠ []) : readLines t = [t] := by
  induction t with
  | nil => exact absurd rfl hn
  | cons c t ih =>
    have hc : ¬ c = 10 := fun h' => h (by simp [h'])
    cases t with
    | nil => simp [readLines, hc]
    | cons d t =>
      have := ih (fun h' => h (List.mem_cons_of_mem _ h')) (by simp)
      rw [readLines, if_neg hc, this]

/-- Neither a line break nor NUL. -/
def Clean (s : Bytes) : Prop := 10 ∉ s ∧ 0 ∉ s

instance (s : Bytes) : Decidable (Clean s) := inferInstanceAs (Decidable (_ ∧ _))

theorem Clean.append {a b : Bytes} (ha : Clean a) (hb : Clean b) : Clean (a ++ b) := by
  refine ⟨fun h => ?_, fun h => ?_⟩
  · rcases List.mem_append.1 h with h | h
    · exact ha.1 h
    · exact hb.1 h
  · rcases List.mem_append.1 h with h | h
    · exact ha.2 h
    · exact hb.2 h

theorem decimal_clean (n : Nat) : Clean (decimal n) := by
  have h := Response.decimal_digits (n + 1) n [] (by simp)
  have h1 : ∀ b ∈ decimal n, isDigit b = true := h
  refine ⟨fun hm => ?_, fun hm => ?_⟩
  · have := h1 _ hm; revert this; decide
  · have := h1 _ hm; revert this; decide

theorem status_rows : ∀ s ∈ statusTypes, s ≠ 411 → codeOfType s = some s ∧ ∃ e, explain s = some e ∧ Clean e := by
  have h : ∀ s ∈ statusTypes, s ≠ 411 → codeOfType s = some s ∧ (match explain s with | some e => decide (Clean e) | none => false) = true := by
    decide +kernel
  intro s hs hn
  obtain ⟨h1, h2⟩ := h s hs hn
  refine ⟨h1, ?_⟩
  revert h2
  cases explain s with
  | none => intro h; cases h
  | some e => intro h; exact ⟨e, rfl, of_decide_eq_true h⟩

theorem takeWhile_all (p : Nat → Bool) (l : Bytes) (x : Nat) (hx : x ∈ l.takeWhile p) : p x = true := by
  induction l with
  | nil => simp at hx
  | cons c l ih =>
    rw [List.takeWhile_cons] at hx
    split at hx
    · rcases List.mem_cons.1 hx with rfl | h
      · assumption
      · exact ih h
    · simp at hx

theorem line1_clean (raw : Option Bytes) : Clean (line1 raw) := by
  cases raw with
  | none => exact ⟨by decide, by decide⟩
  | some r =>
    refine ⟨fun h => ?_, fun h => ?_⟩
    · have := takeWhile_all _ _ _ h; revert this; decide
    · have := takeWhile_all _ _ _ h; revert this; decide

/-- Addresses are numeric texts of `getnameinfo`. -/
def Facts.Clean (f : Facts) : Prop := Log.Clean f.host ∧ Log.Clean f.port ∧ Log.Clean f.myHost ∧ Log.Clean f.myPort

/-- The entry wanted for a response. -/
def wanted (f : Facts) (line phrase : Bytes) : Bytes :=
  f.host ++ b!":" ++ f.port ++ b!" (" ++ line ++ b!") --> " ++ f.myHost ++ b!":" ++ f.myPort ++ b!" (" ++ decimal f.status ++ b!" " ++ phrase ++ b!")\n"

theorem accessText_eq (f : Facts) (hs : f.status ∈ statusTypes) (hn : f.status ≠ 411) (line : Bytes) :
    ∃ ph, explain f.status = some ph ∧ Clean ph ∧ accessText f line = wanted f line ph := by
  obtain ⟨h1, e, h2, h3⟩ := status_rows f.status hs hn
  exact ⟨e, h2, h3, by simp only [accessText, h1, h2, wanted]⟩

theorem wanted_line (stamp : Bytes) (f : Facts) (line ph : Bytes) (hst : Clean stamp) (hf : f.Clean) (hl : Clean line) (hp : Clean ph) :
    ∃ t, stamp ++ wanted f line ph = t ++ [10] ∧ Clean t ∧
      wanted f line ph = f.host ++ b!":" ++ f.port ++ b!" (" ++ line ++ b!") --> " ++ f.myHost ++ b!":" ++ f.myPort ++ b!" (" ++ decimal f.status ++ b!" " ++ ph ++ b!")" ++ [10] := by
  obtain ⟨h1, h2, h3, h4⟩ := hf
  refine ⟨stamp ++ (f.host ++ b!":" ++ f.port ++ b!" (" ++ line ++ b!") --> " ++ f.myHost ++ b!":" ++ f.myPort ++ b!" (" ++ decimal f.status ++ b!" " ++ ph ++ b!")"), ?_, ?_, ?_⟩
  · have : (b!")\n" : Bytes) = b!")" ++ [10] := by decide
    simp only [wanted, this, List.append_assoc]
  · exact hst.append (((((((((((((h1.append (by decide)).append h2).append (by decide)).append hl).append (by decide)).append h3).append (by decide)).append h4).append
      (by decide)).append (decimal_clean _)).append (by decide)).append hp).append (by decide))
  · have : (b!")\n" : Bytes) = b!")" ++ [10] := by decide
    simp only [wanted, this, List.append_assoc]

/-- **C106** *(partial)*.  An entry of the access log for a response to an HTTP/1 request is one line: the time stamp, the peer's address,
the request line, the server's address, the status and its phrase.  Missing: entries of 297 bytes and more, HTTP/2 requests with a query or
a refused target, and `write` calls that write a part, refuted below; status 411, which no row of the table has. -/
theorem C106_one_line_partial (stamp : Bytes) (f : Facts) (raw : Option Bytes) (hst : Clean stamp) (hf : f.Clean) (hs : f.status ∈ statusTypes) (hn : f.status ≠ 411)
    (hshort : (accessText f (line1 raw)).length < 297) :
    ∃ phrase, explain f.status = some phrase ∧ stored (accessText f (line1 raw)) = wanted f (line1 raw) phrase ∧
      IsLine (stamp ++ stored (accessText f (line1 raw))) := by
  obtain ⟨ph, h1, h2, h3⟩ := accessText_eq f hs hn (line1 raw)
  have h4 : stored (accessText f (line1 raw)) = wanted f (line1 raw) ph := by
    rw [stored, if_neg (by omega), h3]
  obtain ⟨t, h5, h6, _⟩ := wanted_line stamp f (line1 raw) ph hst hf (line1_clean raw) h2
  exact ⟨ph, h1, h4, t, by rw [h4]; exact h5, h6.1, h6.2⟩

def demo : Facts := ⟨b!"192.0.2.7", b!"50000", b!"198.51.100.1", b!"8080", 200⟩

example : Clean (b!"2026-11-16 08:00:00 [UTC-0:00] (17): ") ∧ demo.Clean ∧ demo.status ∈ statusTypes ∧ demo.status ≠ 411 ∧
    (accessText demo (line1 (some (b!"GET /a HTTP/1.1\r\n")))).length < 297 ∧
    stored (accessText demo (line1 (some (b!"GET /a HTTP/1.1\r\n")))) = b!"192.0.2.7:50000 (GET /a HTTP/1.1) --> 198.51.100.1:8080 (200 OK)\n" := by
  refine ⟨by decide, ⟨by decide, by decide, by decide, by decide⟩, by decide, by decide, by decide +kernel, by decide +kernel⟩

/-- **C106**, reading *(partial)*: a log of such entries, read line by line, gives the entries, one for each response, in their order. -/
theorem C106_log_read_back_partial (es : List (Bytes × Facts × Option Bytes))
    (h : ∀ e ∈ es, Clean e.1 ∧ e.2.1.Clean ∧ e.2.1.status ∈ statusTypes ∧ e.2.1.status ≠ 411 ∧ (accessText e.2.1 (line1 e.2.2)).length < 297) :
    readLines (es.map fun e => e.1 ++ stored (accessText e.2.1 (line1 e.2.2))).flatten = es.map fun e => e.1 ++ stored (accessText e.2.1 (line1 e.2.2)) := by
  apply readLines_flatten
  intro l hl
  obtain ⟨e, he, rfl⟩ := List.mem_map.1 hl
  obtain ⟨h1, h2, h3, h4, h5⟩ := h e he
  obtain ⟨_, _, _, h6⟩ := C106_one_line_partial e.1 e.2.1 e.2.2 h1 h2 h3 h4 h5
  exact h6

/-- The text of an HTTP/1 request line is shown whole if it holds neither NUL, CR nor LF. -/
theorem C106_request_line_shown (l r : Bytes) (h : ∀ c ∈ l, c ≠ 0 ∧ c ≠ 13 ∧ c ≠ 10) : line1 (some (l ++ 13 :: 10 :: r)) = l := by
  simp only [line1]
  rw [List.takeWhile_append_of_pos]
  · simp
  · intro c hc
    have := h c hc
    simp [this.1, this.2.1, this.2.2]

example : ∀ c ∈ (b!"GET /a?b=c HTTP/1.1" : Bytes), c ≠ 0 ∧ c ≠ 13 ∧ c ≠ 10 := by decide

/-- **C106 refuted** for long entries (a request target of some 230 bytes is enough): the entry has no line break and ends with `...` and
NUL, and the next entry is on the same line. -/
theorem C106_long_entry_refuted (stamp : Bytes) (f : Facts) (raw : Option Bytes) (next : Bytes) (hst : Clean stamp) (hf : f.Clean) (hs : f.status ∈ statusTypes)
    (hn : f.status ≠ 411) (hlong : 297 ≤ (accessText f (line1 raw)).length) (hnext : IsLine next) :
    ¬ IsLine (stamp ++ stored (accessText f (line1 raw))) ∧
    readLines (stamp ++ stored (accessText f (line1 raw)) ++ next) = [stamp ++ stored (accessText f (line1 raw)) ++ next] := by
  obtain ⟨ph, h1, h2, h3⟩ := accessText_eq f hs hn (line1 raw)
  obtain ⟨t, h5, h6, h7⟩ := wanted_line [] f (line1 raw) ph ⟨by simp, by simp⟩ hf (line1_clean raw) h2
  rw [List.nil_append] at h5
  have hst' : stored (accessText f (line1 raw)) = t.take 296 ++ (b!"..." ++ [0]) := by
    rw [stored, if_pos hlong, h3, h5]
    rw [h3, h5, List.length_append] at hlong
    simp only [List.length_singleton] at hlong
    rw [List.take_append_of_le_length (by omega), List.append_assoc]
  have hno : 10 ∉ stamp ++ stored (accessText f (line1 raw)) := by
    rw [hst']
    intro h
    rcases List.mem_append.1 h with h | h
    · exact hst.1 h
    · rcases List.mem_append.1 h with h | h
      · exact h6.1 (List.mem_of_mem_take h)
      · revert h; decide
  refine ⟨?_, ?_⟩
  · rintro ⟨u, hu, _, _⟩
    exact hno (by rw [hu]; simp)
  · obtain ⟨n, rfl, hn1, _⟩ := hnext
    have := readLines_text (stamp ++ stored (accessText f (line1 raw)) ++ n) [] (by
      intro h
      rcases List.mem_append.1 h with h | h
      · exact hno h
      · exact hn1 h)
    rw [← List.append_assoc]
    exact this

example : 297 ≤ (accessText demo (line1 (some (b!"GET /" ++ List.replicate 250 97 ++ b!" HTTP/1.1\r\n")))).length := by decide +kernel

theorem cut_all (s : Bytes) (h : 0 ∉ s) : cut s = s := by
  unfold cut
  induction s with
  | nil => rfl
  | cons c s ih =>
    have hc : c ≠ 0 := fun h' => h (by simp [h'])
    rw [List.takeWhile_cons, if_pos (by simp [hc]), ih (fun h' => h (List.mem_cons_of_mem _ h'))]

/-- **C106**, HTTP/2 *(partial)*: a request without a query is shown as `METHOD target HTTP/2`. -/
theorem C106_h2_request_line_partial (m u : Bytes) (hu : 0 ∉ u) : line2 (some m) (some (u, u.length)) = m ++ b!" " ++ u ++ b!" HTTP/2" := by
  simp only [line2, cut_all u hu]
  rw [List.take_of_length_le]
  · have : (b!" HTTP/2" : Bytes) = b!" " ++ b!"HTTP/2" := by decide
    rw [this]; simp only [List.append_assoc]
  · simp only [List.length_append]
    have h1 : (b!" " : Bytes).length = 1 := by decide
    have h2 : (b!"HTTP/2" : Bytes).length = 6 := by decide
    omega

example : line2 (some (b!"GET")) (some (b!"/a", 2)) = b!"GET /a HTTP/2" := by decide

/-- **C106 refuted** for HTTP/2 requests with a query: of `?query HTTP/2` seven bytes are kept.  Requests whose queries agree in their
first six bytes are indistinguishable in the log, and the version is not shown. -/
theorem C106_h2_query_cut_refuted (m path q : Bytes) (hp : 0 ∉ path) (hq : 0 ∉ q) (hl : 6 ≤ q.length) :
    line2 (some m) (some (path ++ b!"?" ++ q, path.length)) = m ++ b!" " ++ path ++ b!"?" ++ q.take 6 := by
  have h0 : 0 ∉ path ++ b!"?" ++ q := by
    intro h
    rcases List.mem_append.1 h with h | h
    · rcases List.mem_append.1 h with h | h
      · exact hp h
      · revert h; decide
    · exact hq h
  have e1 : (b!" " : Bytes) = [32] := by decide
  have e2 : (b!"?" : Bytes) = [63] := by decide
  simp only [line2, cut_all _ h0, e1, e2]
  have : (m ++ [32] ++ (path ++ [63] ++ q) ++ [32] ++ b!"HTTP/2") = (m ++ [32] ++ path ++ [63] ++ q.take 6) ++ (q.drop 6 ++ [32] ++ b!"HTTP/2") := by
    conv => lhs; rw [← List.take_append_drop 6 q]
    simp only [List.append_assoc]
  rw [this, List.take_append_of_le_length, List.take_of_length_le]
  · simp only [List.length_append, List.length_take, List.length_singleton]; omega
  · simp only [List.length_append, List.length_take, List.length_singleton]; omega

example : line2 (some (b!"GET")) (some (b!"/a?token=1", 2)) = line2 (some (b!"GET")) (some (b!"/a?token=2&admin", 2)) := by decide

theorem accessText_tail (f : Facts) (line : Bytes) : ∃ tail, accessText f line = f.host ++ b!":" ++ f.port ++ b!" (" ++ line ++ tail :=
  ⟨_, by simp only [accessText, List.append_assoc]; rfl⟩

/-- **C106 refuted** for HTTP/2 requests whose target is refused: it is logged as received, so a client writes any line it likes into the log. -/
theorem C106_h2_forged_entry_refuted (stamp : Bytes) (f : Facts) (forged : Bytes) (hst : Clean stamp) (hf : f.Clean) (hfo : Clean forged)
    (hshort : (accessText f (line2 (some (b!"GET")) (some (b!"/\n" ++ forged ++ b!"\n", (b!"/\n" ++ forged ++ b!"\n" : Bytes).length)))).length < 297) :
    forged ++ [10] ∈ readLines (stamp ++ stored (accessText f (line2 (some (b!"GET")) (some (b!"/\n" ++ forged ++ b!"\n", (b!"/\n" ++ forged ++ b!"\n" : Bytes).length))))) := by
  have h0 : 0 ∉ (b!"/\n" ++ forged ++ b!"\n" : Bytes) := by
    intro h
    rcases List.mem_append.1 h with h | h
    · rcases List.mem_append.1 h with h | h
      · revert h; decide
      · exact hfo.2 h
    · revert h; decide
  rw [stored, if_neg (by omega), C106_h2_request_line_partial _ _ h0]
  obtain ⟨h1, h2, _, _⟩ := hf
  obtain ⟨tail, ht⟩ := accessText_tail f (b!"GET" ++ b!" " ++ (b!"/\n" ++ forged ++ b!"\n") ++ b!" HTTP/2")
  rw [ht]
  have hA : Clean (stamp ++ f.host ++ b!":" ++ f.port ++ b!" (" ++ b!"GET" ++ b!" " ++ b!"/") :=
    ((((((hst.append h1).append (by decide)).append h2).append (by decide)).append (by decide)).append (by decide)).append (by decide)
  have := readLines_text _ (forged ++ 10 :: (b!" HTTP/2" ++ tail)) hA.1
  rw [readLines_text _ _ hfo.1] at this
  have key : ∀ (X Y : Bytes) (a : Bytes) (r : List Bytes), X = Y → readLines Y = a :: (forged ++ [10]) :: r → forged ++ [10] ∈ readLines X := by
    intro X Y a r hXY hY
    rw [hXY, hY]; simp
  refine key _ _ _ _ ?_ this
  simp only [List.append_assoc, List.cons_append, List.nil_append]

example : Clean (b!"10.0.0.1:1 (GET / HTTP/1.1) --> 10.0.0.2:80 (200 OK)") ∧
    (accessText demo (line2 (some (b!"GET")) (some (b!"/\n" ++ b!"10.0.0.1:1 (GET / HTTP/1.1) --> 10.0.0.2:80 (200 OK)" ++ b!"\n",
      (b!"/\n" ++ b!"10.0.0.1:1 (GET / HTTP/1.1) --> 10.0.0.2:80 (200 OK)" ++ b!"\n" : Bytes).length)))).length < 297 := by
  refine ⟨by decide, by decide +kernel⟩

/-! ## Writing -/

/-- **C106**, writing *(partial)*: whatever number of interrupted calls comes first, a `write` that takes everything writes the entry. -/
theorem C106_written_partial (content : Bytes) (k n : Nat) (hn : content.length ≤ n) (r : List W) :
    writeLoop content 0 (List.replicate k .intr ++ .wrote n :: r) = (content, .done) := by
  induction k with
  | zero =>
    have : (content.take (content.length - 0)).take n = content := by
      rw [Nat.sub_zero, List.take_of_length_le (Nat.le_refl _), List.take_of_length_le hn]
    simp only [List.replicate_zero, List.nil_append, writeLoop, this, Nat.zero_add, if_true]
  | succ k ih => rw [List.replicate_succ, List.cons_append, writeLoop]; exact ih

example : writeLoop (b!"abc\n") 0 [.intr, .intr, .wrote 4] = (b!"abc\n", .done) := by decide

/-- **C106 refuted** when the system writes an entry in two pieces (a nearly full disk, a signal): the second piece is the beginning of
the entry again, and its end, with the line break, never arrives; success is reported. -/
theorem C106_partial_write_refuted (content : Bytes) (k n : Nat) (hc : IsLine content) (h0 : 0 < k) (hk : k < content.length) (hn : content.length - k ≤ n) :
    writeLoop content 0 [.wrote k, .wrote n] = (content.take k ++ content.take (content.length - k), .done) ∧
    10 ∉ (writeLoop content 0 [.wrote k, .wrote n]).1 := by
  have h1 : (content.take (content.length - 0)).take k = content.take k := by
    rw [Nat.sub_zero, List.take_of_length_le (Nat.le_refl _)]
  have h2 : (content.take (content.length - k)).take n = content.take (content.length - k) := by
    rw [List.take_take]; congr 1; omega
  have l1 : (content.take k).length = k := by rw [List.length_take]; omega
  have l2 : (content.take (content.length - k)).length = content.length - k := by rw [List.length_take]; omega
  have e : writeLoop content 0 [.wrote k, .wrote n] = (content.take k ++ content.take (content.length - k), .done) := by
    simp only [writeLoop, h1, l1, Nat.zero_add, h2, l2]
    rw [if_neg (by omega), if_pos (by omega)]
  refine ⟨e, ?_⟩
  rw [e]
  obtain ⟨t, rfl, ht, _⟩ := hc
  rw [List.length_append, List.length_singleton] at *
  intro h
  have hsub : ∀ j, j ≤ t.length → 10 ∉ (t ++ [10]).take j := by
    intro j hj hm
    rw [List.take_append_of_le_length hj] at hm
    exact ht (List.mem_of_mem_take hm)
  rcases List.mem_append.1 h with h | h
  · exact hsub _ (by omega) h
  · exact hsub _ (by omega) h

example : writeLoop (b!"abcd\n") 0 [.wrote 3, .wrote 2] = (b!"abcab", .done) ∧ IsLine (b!"abcd\n") :=
  ⟨by decide, b!"abcd", by decide, by decide, by decide⟩

/-! ## C108: time stamps -/

theorem decimal_small (n : Nat) (hn : n < 100) : decimal n = if n < 10 then [48 + n] else [48 + n / 10, 48 + n % 10] := by
  revert n; decide +kernel

/-- **C108** *(partial)*.  In a zone without summer time that differs from UTC by whole hours, an entry shows the time in UTC and the offset of
the zone. -/
theorem C108_utc_and_offset_partial (z : Zone) (t : Int) (hz : ∀ u, z.isDst u = false) (hh : z.std % 3600 = 0) (h1 : t ≠ -1) (h2 : t - z.std ≠ -1) :
    ∃ s, logtime z t = some s ∧ s.shown = t ∧ offset s.plus s.h s.m = z.std := by
  have ht : t + z.std - z.std = t := by omega
  have e : logtime z t = some ⟨t, decide (t - z.std - t < 0), (t - z.std - t).natAbs / 3600, (t - z.std - t).natAbs % 3600⟩ := by
    simp only [logtime, Zone.mktime, Zone.off, hz, if_false, ht, Bool.false_eq_true]
    rw [if_neg (by omega), if_neg (by omega)]
    simp only [Option.some.injEq, Stamp.mk.injEq, and_true]
    omega
  refine ⟨_, e, rfl, ?_⟩
  simp only [offset]
  by_cases hp : t - z.std - t < 0
  · rw [decide_eq_true hp, if_pos rfl]; omega
  · rw [decide_eq_false hp, if_neg (by decide)]; omega

def jst : Zone := ⟨32400, 32400, fun _ => false⟩

example : logtime jst 1000000000 = some ⟨1000000000, true, 9, 0⟩ ∧ (∀ u, jst.isDst u = false) ∧ jst.std % 3600 = 0 := ⟨by decide, fun _ => rfl, by decide⟩

/-- **C108** *(partial)*.  The text of the stamp: the time in UTC, the sign, the hours in decimal and two digits of minutes. -/
theorem C108_text_partial (date : Int → Bytes) (z : Zone) (t : Int) (n : Nat) (hz : ∀ u, z.isDst u = false) (hn : n < 100) (h1 : t ≠ -1) (h2 : t - z.std ≠ -1) :
    (z.std = 3600 * n → 0 < n → (logtime z t).map (stampText date) =
      some (date t ++ b!" [UTC+" ++ (if n < 10 then [48 + n] else [48 + n / 10, 48 + n % 10]) ++ b!":00]")) ∧
    (z.std = -(3600 * n) → (logtime z t).map (stampText date) =
      some (date t ++ b!" [UTC-" ++ (if n < 10 then [48 + n] else [48 + n / 10, 48 + n % 10]) ++ b!":00]")) := by
  have hd : decimal n = if n < 10 then [48 + n] else [48 + n / 10, 48 + n % 10] := decimal_small n hn
  have h0 : decimal 0 = [48] := by decide
  have ht : t + z.std - z.std = t := by omega
  have e : logtime z t = if t - z.std - t = -1 then none else some ⟨t - z.std + z.std, decide (t - z.std - t < 0), (t - z.std - t).natAbs / 3600, (t - z.std - t).natAbs % 3600⟩ := by
    simp only [logtime, Zone.mktime, Zone.off, hz, if_false, ht, Bool.false_eq_true]
    rw [if_neg (by omega)]
  constructor
  · intro hs hp
    have a1 : (t - z.std - t).natAbs / 3600 = n := by omega
    have a2 : (t - z.std - t).natAbs % 3600 = 0 := by omega
    have a3 : t - z.std + z.std = t := by omega
    rw [e, if_neg (by omega), a1, a2, a3, decide_eq_true (show t - z.std - t < 0 by omega)]
    simp [stampText, hd, h0]
  · intro hs
    have a1 : (t - z.std - t).natAbs / 3600 = n := by omega
    have a2 : (t - z.std - t).natAbs % 3600 = 0 := by omega
    have a3 : t - z.std + z.std = t := by omega
    rw [e, if_neg (by omega), a1, a2, a3, decide_eq_false (show ¬ t - z.std - t < 0 by omega)]
    simp [stampText, hd, h0]

example : (logtime jst 1000000000).map (stampText fun _ => b!"2001-09-09 01:46:40") = some b!"2001-09-09 01:46:40 [UTC+9:00]" := by decide +kernel

/-- **C108 refuted** for one second of 1969 or 1970: there is no stamp, and no entry, because the value of `mktime` is the one that
means an error. -/
theorem C108_error_value_refuted (z : Zone) (hz : ∀ u, z.isDst u = false) : logtime z (z.std - 1) = none ∧ logtime z (-1) = none := by
  have h2 : -1 + z.std - z.std = -1 := by omega
  have h1 : z.std - 1 - z.std = -1 := by omega
  simp only [logtime, Zone.mktime, Zone.off, hz, if_false, Bool.false_eq_true, h1, h2, true_or, or_true, if_true, and_self]

/-- **C108 refuted** where the offset is not a number of whole hours (India, Nepal, Newfoundland, central Australia): the "minutes"
are the remaining seconds of the hour, so they are 60 or more and the offset shown is not the zone's. -/
theorem C108_minutes_refuted (z : Zone) (t : Int) (hz : ∀ u, z.isDst u = false) (hh : z.std % 3600 ≠ 0) (hm : z.std % 60 = 0) (h1 : t ≠ -1) (h2 : t - z.std ≠ -1) :
    ∃ s, logtime z t = some s ∧ 60 ≤ s.m ∧ offset s.plus s.h s.m ≠ z.std := by
  have ht : t + z.std - z.std = t := by omega
  have e : logtime z t = some ⟨t, decide (t - z.std - t < 0), (t - z.std - t).natAbs / 3600, (t - z.std - t).natAbs % 3600⟩ := by
    simp only [logtime, Zone.mktime, Zone.off, hz, if_false, ht, Bool.false_eq_true]
    rw [if_neg (by omega), if_neg (by omega)]
    simp only [Option.some.injEq, Stamp.mk.injEq, and_true]
    omega
  refine ⟨_, e, ?_, ?_⟩
  · simp only; omega
  · simp only [offset]
    by_cases hp : t - z.std - t < 0
    · rw [decide_eq_true hp, if_pos rfl]; omega
    · rw [decide_eq_false hp, if_neg (by decide)]; omega

def ist : Zone := ⟨19800, 19800, fun _ => false⟩

example : logtime ist 1000000000 = some ⟨1000000000, true, 5, 1800⟩ ∧ (∀ u, ist.isDst u = false) ∧ ist.std % 3600 ≠ 0 ∧ ist.std % 60 = 0 :=
  ⟨by decide, fun _ => rfl, by decide, by decide⟩

/-- **C108 refuted** during summer time: the time shown is neither the time in UTC nor the local time, and the offset shown is that of
winter. -/
theorem C108_summer_time_refuted (z : Zone) (t : Int) (hd : z.isDst t = true) (hd' : z.isDst (t - z.std) = true) (hne : z.dst ≠ z.std) (hs : z.std ≠ 0)
    (hh : z.std % 3600 = 0) (h1 : t ≠ -1) (h2 : t - z.std ≠ -1) :
    ∃ s, logtime z t = some s ∧ s.shown ≠ t ∧ s.shown ≠ t + z.dst ∧ offset s.plus s.h s.m = z.std := by
  have ht : t + z.dst - z.dst = t := by omega
  have e : logtime z t = some ⟨t - z.std + z.dst, decide (t - z.std - t < 0), (t - z.std - t).natAbs / 3600, (t - z.std - t).natAbs % 3600⟩ := by
    simp only [logtime, Zone.mktime, Zone.off, hd, hd', if_true, if_false, ht, Bool.false_eq_true]
    rw [if_neg (by omega), if_neg (by omega)]
  refine ⟨_, e, ?_, ?_, ?_⟩
  · simp only; omega
  · simp only; omega
  · simp only [offset]
    by_cases hp : t - z.std - t < 0
    · rw [decide_eq_true hp, if_pos rfl]; omega
    · rw [decide_eq_false hp, if_neg (by decide)]; omega

def cet : Zone := ⟨3600, 7200, fun t => decide (985996800 ≤ t ∧ t < 1004230800)⟩

example : cet.isDst 990000000 = true ∧ cet.isDst (990000000 - cet.std) = true ∧ logtime cet 990000000 = some ⟨990003600, true, 1, 0⟩ := by decide

/-- **C108 refuted** as a time stamp in the customary form, local time followed by its offset: wherever the offset is not zero, such a
reading gives another instant. -/
theorem C108_not_local_time_refuted (z : Zone) (t : Int) (hz : ∀ u, z.isDst u = false) (hh : z.std % 3600 = 0) (h0 : z.std ≠ 0) (h1 : t ≠ -1) (h2 : t - z.std ≠ -1) :
    ∃ s, logtime z t = some s ∧ s.shown - offset s.plus s.h s.m ≠ t := by
  obtain ⟨s, e, h3, h4⟩ := C108_utc_and_offset_partial z t hz hh h1 h2
  exact ⟨s, e, by omega⟩

example : jst.std ≠ 0 := by decide

/-- **C108**, order: in a zone without summer time, later entries show later times. -/
theorem C108_monotone_partial (z : Zone) (t u : Int) (a b : Stamp) (hz : ∀ u, z.isDst u = false) (ha : logtime z t = some a) (hb : logtime z u = some b) (h : t < u) :
    a.shown < b.shown := by
  have key : ∀ (v : Int) (s : Stamp), logtime z v = some s → s.shown = v := by
    intro v s hs
    simp only [logtime, Zone.mktime, Zone.off, hz, if_false, Bool.false_eq_true] at hs
    split at hs
    · cases hs
    · split at hs
      · cases hs
      · simp only [Option.some.injEq] at hs
        rw [← hs]; simp only; omega
  rw [key t a ha, key u b hb]; exact h

example : logtime jst 5 = some ⟨5, true, 9, 0⟩ ∧ logtime jst 6 = some ⟨6, true, 9, 0⟩ := by decide

/-! ## C109: files and destinations -/

/-- **C109**, files *(partial)*: the log files are in the configured directory under their names, whenever the path is shorter than 4096
bytes. -/
theorem C109_path_partial (dir name : Bytes) (h : dir.length + 1 + name.length < 4096) : logPath dir name = some (dir ++ b!"/" ++ name, true) := by
  rw [logPath, if_neg (by omega), if_neg (by omega), if_neg (by omega), decide_eq_true h]

/-- Longer paths are refused, with one exception. -/
theorem C109_long_path_refused (dir name : Bytes) (h : 4096 < dir.length + 1 + name.length) : logPath dir name = none := by
  rw [logPath]
  by_cases h1 : 4096 < dir.length
  · rw [if_pos h1]
  · rw [if_neg h1]
    by_cases h2 : 4096 < dir.length + 1
    · rw [if_pos h2]
    · rw [if_neg h2, if_pos h]

/-- **C109 refuted** for a path of exactly 4096 bytes: it is not refused but fills the buffer without its terminating NUL. -/
theorem C109_unterminated_path_refuted (dir name : Bytes) (h : dir.length + 1 + name.length = 4096) : logPath dir name = some (dir ++ b!"/" ++ name, false) := by
  rw [logPath, if_neg (by omega), if_neg (by omega), if_neg (by omega), decide_eq_false (by omega)]

example : logPath (b!"/var/log/fly") (b!"fly_access.log") = some (b!"/var/log/fly/fly_access.log", true) ∧
    (List.replicate 4081 47 : Bytes).length + 1 + (b!"fly_access.log" : Bytes).length = 4096 := by
  refine ⟨by decide, ?_⟩
  rw [List.length_replicate]; decide

/-- **C109**, destinations *(partial)*: without the option for standard error, an entry goes to the file if there is one and to standard
output if that is asked for, and nowhere else. -/
theorem C109_destinations_partial (file so : Bool) (stamp text : Bytes) (h0 : 0 ∉ text) :
    logOut file so false stamp text = ⟨if file then [stamp ++ text] else [], if so then [text] else [], []⟩ := by
  simp [logOut, cut_all text h0]

/-- **C109 refuted** with the option for standard error: nothing is written there; the entry is written to standard output, twice if
both are asked for. -/
theorem C109_stderr_refuted (file so : Bool) (stamp text : Bytes) (h0 : 0 ∉ text) :
    (logOut file so true stamp text).stderr = [] ∧ (logOut file so true stamp text).stdout = List.replicate (if so then 2 else 1) text := by
  cases so <;> simp [logOut, cut_all text h0, List.replicate]

example : 0 ∉ (b!"entry\n" : Bytes) ∧ (logOut true true true (b!"s") (b!"entry\n")).stdout = [b!"entry\n", b!"entry\n"] := by decide

/-- **C109**, errors *(partial)*: when the error log is a file, a message that ends a worker reaches it and the terminals asked for, once each. -/
theorem C109_error_destinations_partial (so se : Bool) (text : Bytes) :
    directOut true so se text = ⟨[text], if so then [text] else [], if se then [text] else []⟩ := rfl

/-- **C109 refuted** when no log directory is configured: a message that ends a worker reaches none of the terminals, although they are asked for. -/
theorem C109_error_lost_refuted (so se : Bool) (text : Bytes) : directOut false so se text = ⟨[], [], []⟩ := rfl

/-- Ordinary entries are not lost in this way. -/
theorem C109_entry_without_file (stamp text : Bytes) (h0 : 0 ∉ text) : logOut false true false stamp text = ⟨[], [text], []⟩ :=
  C109_destinations_partial false true stamp text h0

/-! ## C110: last words -/

theorem decimal_length_lt (n k : Nat) (h : n < 10 ^ k) (hk : 0 < k) : (decimal n).length ≤ k := by
  have key : ∀ (f n : Nat) (acc : Bytes) (k : Nat), n < 10 ^ k → 0 < k → (Response.printLd f n acc).length ≤ k + acc.length := by
    intro f
    induction f with
    | zero => intro n acc k _ _; simp only [Response.printLd]; omega
    | succ f ih =>
      intro n acc k hn hk
      rw [Response.printLd]
      split
      · rw [List.length_cons]; omega
      · match k, hk, hn with
        | 1, _, hn => omega
        | k + 2, _, hn =>
          have := ih (n / 10) ((48 + n % 10) :: acc) (k + 1) (by rw [Nat.pow_succ] at hn; omega) (by omega)
          rw [List.length_cons] at this; omega
  have := key (n + 1) n [] k h hk
  simpa [decimal] using this

/-- **C110** *(partial)*.  A message that ends a worker is one line of the error log, with the process id and the first 199 bytes of the message
(process ids have at most 11 digits).  Missing: emergencies, refuted below. -/
theorem C110_error_recorded_partial (pid : Nat) (msg : Bytes) (hp : pid < 10 ^ 11) :
    errLine pid (errContent msg) = b!"[" ++ decimal pid ++ errMid ++ msg.take 199 ++ b!"\n" := by
  have hd := decimal_length_lt pid 11 hp (by omega)
  rw [errLine, errContent, List.take_of_length_le]
  simp only [List.length_append]
  have h1 : (b!"[" : Bytes).length = 1 := by decide
  have h2 : errMid.length + 14 = errPad.length := by decide +kernel
  have h3 : (b!"\n" : Bytes).length = 1 := by decide
  have h4 : 1 ≤ errPad.length := by decide +kernel
  omega

example : errLine 4711 (errContent (b!"accept error")) = b!"[4711] Occurred error. Worker process is gone. accept error\n" := by decide +kernel

/-- **C110**, emergencies *(partial)*: an emergency raised with a prepared error is recorded, cut to 199 bytes. -/
theorem C110_emergency_partial (pid : Nat) (date why msg : Bytes) (hm : msg.length ≤ 199) :
    emergency false pid date why msg =
      .logged ((b!"[" ++ decimal pid ++ b!"](" ++ date ++ emergMid ++ msg ++ b!") (" ++ why ++ b!")\n").take 199) := by
  rw [emergency, if_neg (by omega), if_neg (by decide)]

example : emergency false 7 (b!"Mon, 16 Nov 2026 08:00:00 GMT") (b!"Success") (b!"oops") =
    .logged (b!"[7](Mon, 16 Nov 2026 08:00:00 GMT): Emergency Error. Process is killed. (oops) (Success)\n") := by decide +kernel

/-- **C110 refuted** for these: with a message of 130 bytes and a usual date the reason given by the system and the line break are lost. -/
theorem C110_emergency_line_cut_refuted (pid : Nat) (date why msg : Bytes) (hm : msg.length ≤ 199) (hd : date.length = 29) (hmsg : 130 ≤ msg.length)
    (h10 : 10 ∉ msg) (h10' : 10 ∉ date) :
    ∃ line, emergency false pid date why msg = .logged line ∧ 10 ∉ line ∧
      line = (b!"[" ++ decimal pid ++ b!"](" ++ date ++ emergMid ++ msg).take 199 := by
  have hdec : 0 < (decimal pid).length := by
    have : decimal pid ≠ [] := Response.printLd_ne_nil (pid + 1) pid [] (by omega)
    exact List.length_pos_iff.2 this
  have h2 : (b!"](" : Bytes).length = 2 := by decide
  have h1 : (b!"[" : Bytes).length = 1 := by decide
  have h3 : emergMid.length = 40 := by decide +kernel
  refine ⟨_, C110_emergency_partial pid date why msg hm, ?_, ?_⟩
  · have hh : 10 ∉ (b!"[" ++ decimal pid ++ b!"](" ++ date ++ emergMid ++ msg : Bytes) := by
      intro h
      simp only [List.mem_append] at h
      rcases h with ((((h | h) | h) | h) | h) | h
      · revert h; decide
      · exact (decimal_clean pid).1 h
      · revert h; decide
      · exact h10' h
      · revert h; decide +kernel
      · exact h10 h
    rw [List.append_assoc _ (b!") ("), List.append_assoc _ _ (b!")\n"), List.take_append_of_le_length]
    · exact fun h => hh (List.mem_of_mem_take h)
    · simp only [List.length_append]; omega
  · rw [List.append_assoc _ (b!") ("), List.append_assoc _ _ (b!")\n"), List.take_append_of_le_length]
    simp only [List.length_append]; omega

example : (b!"Mon, 16 Nov 2026 08:00:00 GMT" : Bytes).length = 29 ∧ 10 ∉ (List.replicate 130 97 : Bytes) ∧ 10 ∉ (b!"Mon, 16 Nov 2026 08:00:00 GMT" : Bytes) := by
  decide +kernel

/-- **C110 refuted** for emergencies raised with a format (all of `FLY_EMERGENCY_ERROR`, e.g. when memory is exhausted): whatever the message, the line
is composed over the end of the message it quotes, which is undefined. -/
theorem C110_formatted_emergency_refuted (pid : Nat) (date why msg : Bytes) : emergency true pid date why msg = .undef := by
  rw [emergency]
  by_cases h : 1000 < msg.length + (msg.length + 200)
  · rw [if_pos h]
  · rw [if_neg h, if_pos rfl]

end Fly.Log
