import Verif.Send.Spec
import Verif.Buffer.Props

/-! # Sending: C15 (flow control), C16 (every byte exactly once), C66 (header frames) -/

namespace Fly.Send

/-! ## C16 — bytes arrive exactly once -/

theorem bodyRun_spec (body : Bytes) : ∀ (ss : List Sys) (total : Nat) (w : Win), total ≤ body.length →
    (bodyRun body total w ss).1 <+: body.drop total ∧
    ((bodyRun body total w ss).2.1 = true → (bodyRun body total w ss).1 = body.drop total) ∧
    (bodyRun body total w ss).2.2 = w.use (bodyRun body total w ss).1.length
  | [], total, w, ht => by
    simp only [bodyRun, Win.use]
    refine ⟨List.nil_prefix, ?_, by simp⟩
    intro h
    have h : body.length ≤ total := by simpa using h
    exact (List.drop_of_length_le h).symm
  | s :: ss, total, w, ht => by
    unfold bodyRun
    split
    · next h => exact ⟨List.nil_prefix, fun _ => (List.drop_of_length_le h).symm, by simp [Win.use]⟩
    · next h =>
      cases s with
      | block => exact bodyRun_spec body ss total w ht
      | intr => exact bodyRun_spec body ss total w ht
      | fail => exact ⟨List.nil_prefix, by simp, by simp [Win.use]⟩
      | sent n =>
        simp only
        generalize hout : (body.drop total).take n = out
        have hl : out.length ≤ body.length - total := by
          rw [← hout, List.length_take, List.length_drop]; omega
        have ih := bodyRun_spec body ss (total + out.length) (w.use out.length) (by omega)
        have hsplit : body.drop total = out ++ body.drop (total + out.length) := by
          have h1 : out.length = min n (body.length - total) := by rw [← hout, List.length_take, List.length_drop]
          rw [← hout, ← List.drop_drop]
          conv => lhs; rw [← List.take_append_drop n (body.drop total)]
          congr 1
          rw [hout, h1]
          by_cases hn : n ≤ body.length - total
          · rw [Nat.min_eq_left hn]
          · rw [Nat.min_eq_right (by omega), List.drop_of_length_le (by rw [List.length_drop]; omega),
              List.drop_of_length_le (by rw [List.length_drop]; omega)]
        refine ⟨?_, ?_, ?_⟩
        · rw [hsplit]; exact (List.prefix_append_right_inj out).2 ih.1
        · intro hc; rw [hsplit, ih.2.1 hc]
        · rw [ih.2.2]; simp only [Win.use, List.length_append]; congr 1 <;> omega

theorem bodyRun_done (body : Bytes) : ∀ (ss : List Sys) (total : Nat) (w : Win), total ≤ body.length →
    ((bodyRun body total w ss).1 = body.drop total → (bodyRun body total w ss).2.1 = true) ∧
    (.fail ∉ ss → body.length - total ≤ taking ss → (bodyRun body total w ss).2.1 = true)
  | [], total, w, ht => by
    simp only [bodyRun, decide_eq_true_eq, taking]
    refine ⟨fun h => ?_, fun _ h => by omega⟩
    have := congrArg List.length h
    simp only [List.length_nil, List.length_drop] at this
    omega
  | s :: ss, total, w, ht => by
    unfold bodyRun
    split
    · exact ⟨fun _ => rfl, fun _ _ => rfl⟩
    · next h =>
      cases s with
      | block =>
        refine ⟨(bodyRun_done body ss total w ht).1, fun hf hl => (bodyRun_done body ss total w ht).2 (fun h => hf (by simp [h])) hl⟩
      | intr =>
        refine ⟨(bodyRun_done body ss total w ht).1, fun hf hl => (bodyRun_done body ss total w ht).2 (fun h => hf (by simp [h])) hl⟩
      | fail =>
        refine ⟨fun e => ?_, fun hf => absurd (by simp) hf⟩
        have := congrArg List.length e
        simp only [List.length_nil, List.length_drop] at this
        omega
      | sent n =>
        simp only
        have hl : ((body.drop total).take n).length = min n (body.length - total) := by rw [List.length_take, List.length_drop]
        have ih := bodyRun_done body ss (total + ((body.drop total).take n).length) (w.use ((body.drop total).take n).length) (by omega)
        refine ⟨fun e => ih.1 ?_, fun hf ht' => ih.2 (fun h => hf (by simp [h])) ?_⟩
        · have e2 := congrArg (List.drop ((body.drop total).take n).length) e
          rw [List.drop_left, List.drop_drop] at e2
          exact e2
        · cases n with
          | zero => simp only [taking] at ht'; omega
          | succ n => simp only [taking] at ht'; omega

/-- **C16, HTTP/2 bodies.** For every schedule of partial writes, blocking and interrupts: what has gone
out is always a prefix of the body; the sender is done exactly when it is the whole body; and it is done when
the connection did not fail and took something often enough. -/
theorem C16_h2_body_exactly_once (body : Bytes) (w : Win) (ss : List Sys) :
    (bodyRun body 0 w ss).1 <+: body ∧ ((bodyRun body 0 w ss).2.1 = true ↔ (bodyRun body 0 w ss).1 = body) ∧
    (.fail ∉ ss → body.length ≤ taking ss → (bodyRun body 0 w ss).2.1 = true) := by
  have h1 := bodyRun_spec body ss 0 w (Nat.zero_le _)
  have h2 := bodyRun_done body ss 0 w (Nat.zero_le _)
  rw [List.drop_zero] at h1 h2
  exact ⟨h1.1, ⟨h1.2.1, h2.1⟩, h2.2⟩

example : bodyRun b!"hello world" 0 ⟨100, 100⟩ [.sent 3, .block, .block, .sent 4, .intr, .block, .sent 99] =
    (b!"hello world", true, ⟨89, 89⟩) := by decide

theorem frame_payload_ok (hdr payload : Bytes) : ∀ (ss : List Sys) (total : Nat), (∀ s ∈ ss, s ≠ .block) → total ≤ payload.length →
    (frameRun hdr payload true total ss).2 = true → (frameRun hdr payload true total ss).1 = payload.drop total
  | [], total, _, ht => by
    simp only [frameRun, Bool.true_and, decide_eq_true_eq]
    intro h; exact (List.drop_of_length_le h).symm
  | s :: ss, total, hb, ht => by
    unfold frameRun
    split
    · next h => intro _; exact (List.drop_of_length_le (by simpa using h)).symm
    · next h =>
      have hb' : ∀ s ∈ ss, s ≠ .block := fun s hs => hb s (by simp [hs])
      cases s with
      | block => exact absurd rfl (hb .block (by simp))
      | intr => exact frame_payload_ok hdr payload ss total hb' ht
      | fail => simp
      | sent n =>
        simp only [if_true]
        intro hc
        generalize hout : (payload.drop total).take n = out at hc ⊢
        have h1 : out.length = min n (payload.length - total) := by rw [← hout, List.length_take, List.length_drop]
        rw [frame_payload_ok hdr payload ss (total + out.length) hb' (by omega) hc]
        rw [← hout, ← List.drop_drop]
        conv => rhs; rw [← List.take_append_drop n (payload.drop total)]
        congr 1
        rw [hout, h1]
        by_cases hn : n ≤ payload.length - total
        · rw [Nat.min_eq_left hn]
        · rw [Nat.min_eq_right (by omega), List.drop_of_length_le (by rw [List.length_drop]; omega),
            List.drop_of_length_le (by rw [List.length_drop]; omega)]

theorem frame_header_ok (hdr payload : Bytes) : ∀ (ss : List Sys) (total : Nat), (∀ s ∈ ss, s ≠ .block) → total < hdr.length →
    (frameRun hdr payload false total ss).2 = true → (frameRun hdr payload false total ss).1 = hdr.drop total ++ payload
  | [], total, _, ht => by simp [frameRun]
  | s :: ss, total, hb, ht => by
    unfold frameRun
    simp only [Bool.false_and, Bool.false_eq_true, if_false]
    have hb' : ∀ s ∈ ss, s ≠ .block := fun s hs => hb s (by simp [hs])
    cases s with
    | block => exact absurd rfl (hb .block (by simp))
    | intr => exact frame_header_ok hdr payload ss total hb' ht
    | fail => simp
    | sent n =>
      simp only
      intro hc
      generalize hout : (hdr.drop total).take n = out at hc ⊢
      have h1 : out.length = min n (hdr.length - total) := by rw [← hout, List.length_take, List.length_drop]
      have hsplit : hdr.drop total = out ++ hdr.drop (total + out.length) := by
        rw [← hout, ← List.drop_drop]
        conv => lhs; rw [← List.take_append_drop n (hdr.drop total)]
        congr 1
        rw [hout, h1]
        by_cases hn : n ≤ hdr.length - total
        · rw [Nat.min_eq_left hn]
        · rw [Nat.min_eq_right (by omega), List.drop_of_length_le (by rw [List.length_drop]; omega),
            List.drop_of_length_le (by rw [List.length_drop]; omega)]
      by_cases hend : hdr.length ≤ total + out.length
      · rw [if_pos hend] at hc ⊢
        rw [frame_payload_ok hdr payload ss 0 hb' (Nat.zero_le _) hc, hsplit, List.drop_of_length_le hend]
        simp
      · rw [if_neg hend] at hc ⊢
        rw [frame_header_ok hdr payload ss (total + out.length) hb' (by omega) hc, hsplit]
        simp

theorem frame_payload_done (hdr payload : Bytes) : ∀ (ss : List Sys) (total : Nat), (∀ s ∈ ss, s ≠ .block ∧ s ≠ .fail) → total ≤ payload.length →
    payload.length - total ≤ taking ss → (frameRun hdr payload true total ss).2 = true
  | [], total, _, ht, hl => by
    simp only [taking] at hl
    simp only [frameRun, Bool.true_and, decide_eq_true_eq]
    omega
  | s :: ss, total, hb, ht, hl => by
    unfold frameRun
    split
    · rfl
    · next h =>
      have hb' : ∀ s ∈ ss, s ≠ .block ∧ s ≠ .fail := fun s hs => hb s (by simp [hs])
      cases s with
      | block => exact absurd rfl (hb .block (by simp)).1
      | intr => exact frame_payload_done hdr payload ss total hb' ht hl
      | fail => exact absurd rfl (hb .fail (by simp)).2
      | sent n =>
        simp only [if_true]
        have h1 : ((payload.drop total).take n).length = min n (payload.length - total) := by rw [List.length_take, List.length_drop]
        refine frame_payload_done hdr payload ss _ hb' (by omega) ?_
        cases n <;> simp only [taking] at hl <;> omega

theorem frame_header_done (hdr payload : Bytes) : ∀ (ss : List Sys) (total : Nat), (∀ s ∈ ss, s ≠ .block ∧ s ≠ .fail) → total < hdr.length →
    hdr.length - total + payload.length ≤ taking ss → (frameRun hdr payload false total ss).2 = true
  | [], total, _, ht, hl => by simp only [taking] at hl; omega
  | s :: ss, total, hb, ht, hl => by
    unfold frameRun
    simp only [Bool.false_and, Bool.false_eq_true, if_false]
    have hb' : ∀ s ∈ ss, s ≠ .block ∧ s ≠ .fail := fun s hs => hb s (by simp [hs])
    cases s with
    | block => exact absurd rfl (hb .block (by simp)).1
    | intr => exact frame_header_done hdr payload ss total hb' ht hl
    | fail => exact absurd rfl (hb .fail (by simp)).2
    | sent n =>
      simp only
      have h1 : ((hdr.drop total).take n).length = min n (hdr.length - total) := by rw [List.length_take, List.length_drop]
      split
      · refine frame_payload_done hdr payload ss 0 hb' (Nat.zero_le _) ?_
        cases n <;> simp only [taking] at hl <;> omega
      · refine frame_header_done hdr payload ss _ hb' (by omega) ?_
        cases n <;> simp only [taking] at hl <;> omega

/-- **C16, HTTP/2 frames (partial).** If the connection blocks only before the first byte, every other
frame is written exactly once whatever the partial writes, and is written if the connection does not fail and takes something often
enough.  Missing: blocking in the middle (`C16_h2_frame_resent_refuted`). -/
theorem C16_h2_frame_exactly_once_partial (hdr payload : Bytes) (hh : hdr ≠ []) (k : Nat) (ss : List Sys) (hb : ∀ s ∈ ss, s ≠ .block) :
    ((frameRun hdr payload false 0 (List.replicate k .block ++ ss)).2 = true →
      (frameRun hdr payload false 0 (List.replicate k .block ++ ss)).1 = hdr ++ payload) ∧
    (.fail ∉ ss → hdr.length + payload.length ≤ taking ss → (frameRun hdr payload false 0 (List.replicate k .block ++ ss)).2 = true) := by
  have hl : 0 < hdr.length := List.length_pos_iff.2 hh
  induction k with
  | zero =>
    refine ⟨fun hc => by simpa using frame_header_ok hdr payload ss 0 hb hl hc, fun hf ht => ?_⟩
    exact frame_header_done hdr payload ss 0 (fun s hs => ⟨hb s hs, fun e => hf (e ▸ hs)⟩) hl (by omega)
  | succ k ih =>
    rw [List.replicate_succ, List.cons_append]
    unfold frameRun
    simp only [Bool.false_and, Bool.false_eq_true, if_false]
    exact ih

example : frameRun b!"HEADER..." b!"payload" false 0 [.block, .sent 4, .sent 5, .intr, .sent 2, .sent 9] =
    (b!"HEADER...payload", true) := by decide

/-- **C16 refuted.** Whatever the frame: if its payload is cut after `n` bytes by blocking, those bytes are
sent a second time. -/
theorem C16_h2_frame_resent_refuted (hdr payload : Bytes) (hh : hdr ≠ []) (n : Nat) (hn : n < payload.length) :
    frameRun hdr payload false 0 [.sent hdr.length, .sent n, .block, .sent payload.length] =
      (hdr ++ (payload.take n ++ payload), true) := by
  have hp : ¬ payload.length ≤ 0 := by omega
  have hp2 : ¬ payload.length ≤ n := by omega
  have hp3 : payload ≠ [] := by intro h; simp [h] at hp
  have hp4 : min n payload.length = n := by omega
  simp [frameRun, hp2, hp3, hp4, List.length_take]

example : frameRun b!"H" b!"ab" false 0 [.sent 1, .sent 1, .block, .sent 2] = (b!"Haab", true) := by decide

/-- **C16, HTTP/1 (partial).** A response is written exactly once if the connection takes all of it in one
call (after any number of blocked calls).  Missing: every other schedule
(`C16_h1_partial_write_refuted`). -/
theorem C16_h1_exactly_once_partial (data : Bytes) (k n : Nat) (hn : data.length ≤ n) (ss : List Sys) :
    h1Run data 0 (List.replicate k .block ++ .sent n :: ss) = (data, true) := by
  induction k with
  | zero =>
    simp only [List.replicate_zero, List.nil_append]
    unfold h1Run
    split
    · next h =>
      have e : data = [] := List.eq_nil_of_length_eq_zero (by omega)
      rw [e]
    · simp only [Nat.sub_zero, Nat.zero_add, Nat.min_eq_right hn]
      have : h1Run data data.length ss = ([], true) := by cases ss <;> simp [h1Run]
      rw [this]; simp
  | succ k ih =>
    rw [List.replicate_succ, List.cons_append]
    unfold h1Run
    split
    · next h =>
      have e : data = [] := List.eq_nil_of_length_eq_zero (by omega)
      rw [e]
    · exact ih

/-- **C16 refuted.** Whatever the response: if the first call takes `n` bytes and the second the rest, the
peer receives the first bytes twice and never the end; the sender reports success. -/
theorem C16_h1_partial_write_refuted (data : Bytes) (n : Nat) (h0 : 0 < n) (hn : n < data.length) :
    h1Run data 0 [.sent n, .sent data.length] = (data.take n ++ data.take (data.length - n), true) ∧
    (data[n]? ≠ data[0]? → (h1Run data 0 [.sent n, .sent data.length]).1 ≠ data) := by
  have e : h1Run data 0 [.sent n, .sent data.length] = (data.take n ++ data.take (data.length - n), true) := by
    have h1 : ¬ data.length ≤ 0 := by omega
    have h2 : min n data.length = n := by omega
    have h3 : ¬ data.length ≤ n := by omega
    have h4 : min data.length (data.length - n) = data.length - n := by omega
    have h5 : data.length ≤ n + (data.length - n) := by omega
    simp only [h1Run, if_neg h1, Nat.sub_zero, h2, Nat.zero_add, if_neg h3, h4, decide_eq_true h5, List.append_nil]
  refine ⟨e, fun hne heq => hne ?_⟩
  rw [e] at heq
  have h6 : (data.take n ++ data.take (data.length - n))[n]? = data[0]? := by
    rw [List.getElem?_append_right (by rw [List.length_take]; omega), List.length_take, Nat.min_eq_left (by omega), Nat.sub_self,
      List.getElem?_take_of_lt (by omega)]
  rw [← h6]
  exact (congrArg (·[n]?) heq).symm

example : h1Run b!"HTTP/1.1 200 OK" 0 [.sent 5, .sent 15] = (b!"HTTP/HTTP/1.1 2", true) := by decide

/-- **C16 refuted (blocking).** The same happens when the connection blocks after `n` bytes: they are sent
again. -/
theorem C16_h1_blocked_write_refuted (data : Bytes) (n : Nat) (h0 : 0 < n) (hn : n < data.length) :
    h1Run data 0 [.sent n, .block, .sent data.length] = (data.take n ++ data, true) := by
  have h1 : ¬ data.length ≤ 0 := by omega
  have h2 : min n data.length = n := by omega
  have h3 : ¬ data.length ≤ n := by omega
  simp only [h1Run, if_neg h1, Nat.sub_zero, h2, Nat.zero_add, if_neg h3, Nat.min_self, List.take_length, Nat.le_refl, decide_true,
    List.append_nil]

theorem data_header_ok (hdr : Bytes) : ∀ (ss : List Sys) (total : Nat), (∀ s ∈ ss, s ≠ .block) → total ≤ hdr.length →
    (dataHeaderRun true hdr total ss).2 = true → (dataHeaderRun true hdr total ss).1 = hdr.drop total
  | [], total, _, ht => by
    simp only [dataHeaderRun, decide_eq_true_eq]
    intro h; exact (List.drop_of_length_le h).symm
  | s :: ss, total, hb, ht => by
    unfold dataHeaderRun
    split
    · next h => intro _; exact (List.drop_of_length_le h).symm
    · next h =>
      have hb' : ∀ s ∈ ss, s ≠ .block := fun s hs => hb s (by simp [hs])
      cases s with
      | block => exact absurd rfl (hb .block (by simp))
      | intr => simp
      | fail => simp
      | sent n =>
        simp only [if_true]
        intro hc
        generalize hout : (hdr.drop total).take n = out at hc ⊢
        have h1 : out.length = min n (hdr.length - total) := by rw [← hout, List.length_take, List.length_drop]
        rw [data_header_ok hdr ss (total + out.length) hb' (by omega) hc]
        rw [← hout, ← List.drop_drop]
        conv => rhs; rw [← List.take_append_drop n (hdr.drop total)]
        congr 1
        rw [hout, h1]
        by_cases hn : n ≤ hdr.length - total
        · rw [Nat.min_eq_left hn]
        · rw [Nat.min_eq_right (by omega), List.drop_of_length_le (by rw [List.length_drop]; omega),
            List.drop_of_length_le (by rw [List.length_drop]; omega)]

theorem data_header_done (hdr : Bytes) : ∀ (ss : List Sys) (total : Nat), (∀ s ∈ ss, ∃ n, s = .sent n) → total ≤ hdr.length →
    hdr.length - total ≤ taking ss → (dataHeaderRun true hdr total ss).2 = true
  | [], total, _, ht, hl => by
    simp only [taking] at hl
    simp only [dataHeaderRun, decide_eq_true_eq]
    omega
  | s :: ss, total, hb, ht, hl => by
    unfold dataHeaderRun
    split
    · rfl
    · next h =>
      obtain ⟨n, rfl⟩ := hb s (by simp)
      simp only [if_true]
      have h1 : ((hdr.drop total).take n).length = min n (hdr.length - total) := by rw [List.length_take, List.length_drop]
      refine data_header_done hdr ss _ (fun s hs => hb s (by simp [hs])) (by omega) ?_
      cases n <;> simp only [taking] at hl <;> omega

/-- **C16, DATA header over TLS (partial).** Exactly once if nothing blocks; and written if every call takes something until the end. -/
theorem C16_h2_data_header_tls_partial (hdr : Bytes) (ss : List Sys) (hb : ∀ s ∈ ss, s ≠ .block) :
    ((dataHeaderRun true hdr 0 ss).2 = true → (dataHeaderRun true hdr 0 ss).1 = hdr) ∧
    ((∀ s ∈ ss, ∃ n, s = .sent n) → hdr.length ≤ taking ss → (dataHeaderRun true hdr 0 ss).2 = true) :=
  ⟨fun h => data_header_ok hdr ss 0 hb (Nat.zero_le _) h, fun h hl => data_header_done hdr ss 0 h (Nat.zero_le _) hl⟩

example : dataHeaderRun true b!"123456789" 0 [.sent 4, .sent 0, .sent 9] = (b!"123456789", true) := by decide

/-- **C16 refuted.** Over plain TCP a partly written DATA frame header is started again. -/
theorem C16_h2_data_header_resent_refuted (hdr : Bytes) (n : Nat) (h0 : 0 < n) (hn : n < hdr.length) :
    dataHeaderRun false hdr 0 [.sent n, .sent hdr.length] = (hdr.take n ++ hdr, true) := by
  have h1 : ¬ hdr.length ≤ 0 := by omega
  have h2 : min n hdr.length = n := by omega
  have h3 : ¬ hdr.length ≤ n := by omega
  simp [dataHeaderRun, h2, h3, List.length_take]
  intro h; simp [h] at hn

/-! ## C15 — flow control -/

/-- **C15.** The windows fall by exactly the bytes written, for every schedule. -/
theorem C15_windows_account_for_bytes (body : Bytes) (w : Win) (ss : List Sys) :
    (bodyRun body 0 w ss).2.2 = ⟨w.stream - (bodyRun body 0 w ss).1.length, w.conn - (bodyRun body 0 w ss).1.length⟩ :=
  (bodyRun_spec body ss 0 w (Nat.zero_le _)).2.2

/-- **C15 (partial).** A response smaller than both windows goes out as one DATA frame with END_STREAM, and
no schedule makes it exceed the windows.  Missing: larger responses
(`C15_window_exceeded_refuted`) and frames above the peer's maximum (`C15_frame_size_exceeded_refuted`). -/
theorem C15_small_response_within_windows_partial (body : Bytes) (w : Win) (hb : body ≠ [])
    (h1 : (body.length : Int) < w.stream) (h2 : (body.length : Int) < w.conn) (ss : List Sys) :
    startData w body.length = .frame body.length true ∧
    0 < (bodyRun body 0 w ss).2.2.stream ∧ 0 < (bodyRun body 0 w ss).2.2.conn := by
  have hl : 0 < body.length := List.length_pos_iff.2 hb
  refine ⟨?_, ?_⟩
  · unfold startData
    rw [if_neg (by omega), if_neg (by omega)]
    congr 1
    rw [decide_eq_true_eq]
    split <;> assumption
  · have hp := (C16_h2_body_exactly_once body w ss).1.length_le
    rw [C15_windows_account_for_bytes]
    simp only
    omega

/-- **C15.** Nothing is started while a window is closed. -/
theorem C15_closed_window_waits (w : Win) (len : Nat) : startData w len = .wait ↔ (w.stream ≤ 0 ∨ w.conn ≤ 0) := by
  unfold startData
  constructor
  · intro h
    split at h
    · assumption
    · split at h <;> simp at h
  · intro h; rw [if_pos h]

/-- **C15 refuted.** A response at least as long as an open window goes out all the same, in one frame
larger than the window if it is longer, and without END_STREAM: no later frame ends the stream. -/
theorem C15_window_exceeded_refuted (w : Win) (len : Nat) (h1 : 0 < w.stream) (h2 : 0 < w.conn)
    (hl : w.stream ≤ len ∨ w.conn ≤ len) : startData w len = .frame len false := by
  unfold startData
  rw [if_neg (by omega), if_neg (by omega)]
  congr 1
  rw [decide_eq_false_iff_not]
  split <;> omega

example : startData ⟨10, 65535⟩ 1000 = .frame 1000 false := by decide
example : (bodyRun (List.replicate 1000 97) 0 ⟨10, 65535⟩ [.sent 1000]).2.2 = ⟨-990, 64535⟩ := by decide +kernel

/-- **C15 refuted.** The peer's maximum frame size is not consulted: for every maximum there is a response
inside both windows sent as one larger frame. -/
theorem C15_frame_size_exceeded_refuted (maxFrame : Nat) :
    startData ⟨maxFrame + 2, maxFrame + 2⟩ (maxFrame + 1) = .frame (maxFrame + 1) true := by
  unfold startData
  rw [if_neg (by simp; omega), if_neg (by omega)]
  congr 1
  simp

/-- **C15 refuted.** A response with an empty body is neither given a DATA frame nor a HEADERS frame with
END_STREAM (that is only set for responses without content). -/
theorem C15_empty_body_never_ended_refuted (w : Win) (h1 : 0 < w.stream) (h2 : 0 < w.conn) (maxFrame : Nat) (fields : List Bytes) :
    startData w 0 = .nothing ∧ ∀ f ∈ headerFrames maxFrame false fields, f.flags % 2 = 0 := by
  refine ⟨by unfold startData; rw [if_neg (by omega), if_pos rfl], ?_⟩
  have : ∀ (fields : List Bytes) (acc : Bytes) (over : Bool), ∀ f ∈ splitHeaders maxFrame false fields acc over, f.flags % 2 = 0 := by
    intro fields
    induction fields with
    | nil => intro acc over f hf; simp [splitHeaders] at hf; subst hf; simp
    | cons p ps ih =>
      intro acc over f hf
      unfold splitHeaders at hf
      split at hf
      · rcases List.mem_cons.1 hf with rfl | hf
        · simp
        · exact ih _ _ f hf
      · exact ih _ _ f hf
  exact this fields [] false

/-! ## C66 — header frames -/

/-- HEADERS first, then CONTINUATION frames; END_HEADERS on the last frame only. -/
def WellFramed : List OutFrame → Bool → Prop
  | [], _ => False
  | [f], over => f.type = (if over then 9 else 1) ∧ f.flags / 4 % 2 = 1
  | f :: fs, over => f.type = (if over then 9 else 1) ∧ f.flags / 4 % 2 = 0 ∧ WellFramed fs true

theorem split_spec (m : Nat) (nc : Bool) : ∀ (fields : List Bytes) (acc : Bytes) (over : Bool),
    ((splitHeaders m nc fields acc over).flatMap (·.payload) = acc ++ fields.flatten) ∧
    WellFramed (splitHeaders m nc fields acc over) over ∧
    (acc.length ≤ m → (∀ p ∈ fields, p.length ≤ m) → ∀ f ∈ splitHeaders m nc fields acc over, f.payload.length ≤ m) ∧
    splitHeaders m nc fields acc over ≠ []
  | [], acc, over => by
    refine ⟨by simp [splitHeaders], ?_, ?_, by simp [splitHeaders]⟩
    · simp only [splitHeaders, WellFramed]
      refine ⟨trivial, ?_⟩
      cases nc <;> rfl
    · intro h _ f hf; simp [splitHeaders] at hf; subst hf; exact h
  | p :: ps, acc, over => by
    unfold splitHeaders
    split
    · obtain ⟨i1, i2, i3, i4⟩ := split_spec m nc ps p true
      refine ⟨by simp [i1], ?_, ?_, by simp⟩
      · cases hs : splitHeaders m nc ps p true with
        | nil => exact absurd hs i4
        | cons g gs =>
          rw [hs] at i2
          exact ⟨rfl, by simp, i2⟩
      · intro h hp f hf
        rcases List.mem_cons.1 hf with rfl | hf
        · exact h
        · exact i3 (hp p (by simp)) (fun q hq => hp q (by simp [hq])) f hf
    · next hlt =>
      obtain ⟨i1, i2, i3, i4⟩ := split_spec m nc ps (acc ++ p) over
      refine ⟨by simp [i1], i2, ?_, i4⟩
      intro h hp
      exact i3 (by rw [List.length_append]; omega) (fun q hq => hp q (by simp [hq]))

/-- **C66.** For every list of encoded header fields: the frames' payloads concatenate to the header
block; the first frame is HEADERS, the others CONTINUATION, END_HEADERS is on the last only; and no frame
is longer than the maximum unless a single field is. -/
theorem C66_header_block_framing (maxFrame : Nat) (noContent : Bool) (fields : List Bytes) :
    (headerFrames maxFrame noContent fields).flatMap (·.payload) = fields.flatten ∧
    WellFramed (headerFrames maxFrame noContent fields) false ∧
    ((∀ p ∈ fields, p.length ≤ maxFrame) → ∀ f ∈ headerFrames maxFrame noContent fields, f.payload.length ≤ maxFrame) := by
  obtain ⟨h1, h2, h3, _⟩ := split_spec maxFrame noContent fields [] false
  exact ⟨h1, h2, h3 (Nat.zero_le _)⟩

example : headerFrames 6 false [b!"abc", b!"de", b!"fgh", b!"i"] = [⟨1, 0, b!"abcde"⟩, ⟨9, 4, b!"fghi"⟩] := by decide

/-- **C66 refuted.** A single field longer than the peer's maximum makes an oversized frame (after an
empty HEADERS frame). -/
theorem C66_long_field_refuted (maxFrame : Nat) (p : Bytes) (h : maxFrame < p.length) :
    headerFrames maxFrame false [p] = [⟨1, 0, []⟩, ⟨9, 4, p⟩] := by
  simp [headerFrames, splitHeaders, Nat.le_of_lt h]

/-- **C66 refuted.** The block is assembled in a buffer of 100 chunks of 10 bytes (src/v2.c:3197-3199) and
the buffer's refusals are not looked at (src/v2.c:2338, 2369, 2391): no history of buffer operations leaves a
header block of more than 1000 bytes in it, far below the frame size at which a block would be split. -/
theorem C66_block_over_1000_bytes_lost_refuted (mem : Nat → Bytes) (hm : ∀ n, (mem n).length = n) (ops : List Buffer.Op)
    (b0 : Buffer.Buf) (h0 : Buffer.init mem 1 100 10 = some b0) (hv : Buffer.Valid mem b0 [] ops) :
    (Buffer.specRun [] ops).length ≤ 1000 ∧ 1000 < 16384 := by
  obtain ⟨b1, h1, h2⟩ := Buffer.C06_buffer_count_and_capacity mem hm 100 10 (by omega) (by omega) ops
  rw [h0] at h1
  cases h1
  obtain ⟨_, _, _, _, h3⟩ := h2 hv
  exact ⟨h3, by omega⟩

end Fly.Send
