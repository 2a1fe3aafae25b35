import Verif.H2Credit.Spec
import Verif.H2Frame.Props

/-! # WINDOW_UPDATE frames as the client reads them -/

namespace Fly.H2Credit

/-- All that wait have allowed sizes, and none has begun to go out. -/
def Good (q : List Waiting) : Prop := ∀ f ∈ q, Allowed f.size ∧ f.inPayload = false

def total (q : List Waiting) : Nat := (q.map Waiting.size).sum

theorem total_eraseIdx (q : List Waiting) (i : Nat) (f : Waiting) (h : q[i]? = some f) : total q = total (q.eraseIdx i) + f.size := by
  induction q generalizing i with
  | nil => simp at h
  | cons a q ih =>
    cases i with
    | zero => simp at h; subst h; simp [total]; omega
    | succ i =>
      simp at h
      have := ih i h
      simp [total] at this ⊢; omega

theorem combine_spec (fuel : Nat) (q : List Waiting) (u : Nat) (hq : Good q) (hu : Allowed u) :
    Good (combine fuel q u).1 ∧ Allowed (combine fuel q u).2 ∧ total (combine fuel q u).1 + (combine fuel q u).2 = total q + u ∧ (combine fuel q u).1.length ≤ q.length := by
  induction fuel generalizing q u with
  | zero => exact ⟨hq, hu, rfl, Nat.le_refl _⟩
  | succ fuel ih =>
    unfold combine
    split
    · exact ⟨hq, hu, rfl, Nat.le_refl _⟩
    · next i hi =>
      have hi' := hi
      rw [List.findIdx?_eq_some_iff_getElem] at hi'
      obtain ⟨hlt, hp, _⟩ := hi'
      split
      · next f hs =>
        have hmem : f ∈ q := List.mem_of_getElem? hs
        obtain ⟨⟨hf1, hf2⟩, _⟩ := hq f hmem
        obtain ⟨hu1, hu2⟩ := hu
        have hqs : q[i] = f := by rw [List.getElem?_eq_getElem hlt] at hs; simpa using hs
        rw [hqs] at hp
        simp only [decide_eq_true_eq, H2.windowSizeMax] at hp
        have hsum : (u + f.size) % 2 ^ 32 = u + f.size := Nat.mod_eq_of_lt (by omega)
        rw [hsum] at hp ⊢
        have hp' : u + f.size ≤ 2147483647 := of_decide_eq_true hp
        have ht := total_eraseIdx q i f hs
        obtain ⟨g1, g2, g3, g4⟩ := ih (q.eraseIdx i) (u + f.size) (fun x hx => hq x (List.mem_of_mem_eraseIdx hx)) ⟨by omega, hp'⟩
        have hle := List.length_eraseIdx_le q i
        exact ⟨g1, g2, by omega, by omega⟩
      · exact ⟨hq, hu, rfl, Nat.le_refl _⟩

theorem credit_spec {q : List Waiting} {u : Nat} (hq : Good q) (hu : Allowed u) : Good (credit q u) ∧ total (credit q u) = total q + u ∧ (credit q u).length ≤ q.length + 1 := by
  obtain ⟨g1, g2, g3, g4⟩ := combine_spec q.length q u hq hu
  have hr := H2.read31nb_windowPayload (combine q.length q u).2 (by have := g2.2; unfold H2.windowSizeMax; omega)
  unfold credit
  simp only
  rw [hr]
  refine ⟨?_, ?_, ?_⟩
  · intro f hf
    rcases List.mem_append.1 hf with h | h
    · exact g1 f h
    · rw [List.mem_singleton.1 h]; exact ⟨g2, rfl⟩
  · rw [← g3]; simp [total]
  · simp; omega

theorem header_wire {sid : Nat} (hs : sid < 2 ^ 31) : header sid = H2.wireHeader 4 8 0 false sid := by
  unfold header typeWindowUpdate H2.frameHeader H2.wireHeader
  have e : sid / 256 ^ 3 % 256 = sid / 16777216 := by rw [show (256 : Nat) ^ 3 = 16777216 from rfl]; omega
  simp [H2.toBE, e]

theorem payload_wire {u : Nat} (hu : u ≤ 2147483647) : H2.windowPayload u false = [u / 16777216, u / 65536 % 256, u / 256 % 256, u % 256] := by
  unfold H2.windowPayload
  have e : u / 256 ^ 3 % 256 = u / 16777216 := by rw [show (256 : Nat) ^ 3 = 16777216 from rfl]; omega
  simp [H2.toBE, e]

theorem header_length (sid : Nat) : (header sid).length = 9 := by simp [header, H2.frameHeader, H2.toBE]

theorem payload_length (u : Nat) : (H2.windowPayload u false).length = 4 := by simp [H2.windowPayload, H2.toBE]

/-- Whole frames go out. -/
theorem push_whole {sid : Nat} (hs : sid < 2 ^ 31) : ∀ (n : Nat) (q : List Waiting), Good q →
    push sid (13 * n) q = ((((q.take n).map fun f => wireUpdate sid f.size)).flatten, q.drop n)
  | n, [], _ => by simp [push]
  | 0, f :: q, hq => by
    have hf := (hq f (by simp)).2
    simp [push, hf, header_length]
  | n + 1, f :: q, hq => by
    obtain ⟨⟨_, hf1⟩, hf⟩ := hq f (by simp)
    have ih := push_whole hs n q (fun g hg => hq g (by simp [hg]))
    unfold push
    simp only [hf, Bool.false_eq_true, if_false]
    rw [if_neg (by rw [header_length]; omega), if_neg (by rw [header_length, payload_length]; omega), header_length, payload_length, show 13 * (n + 1) - 9 - 4 = 13 * n by omega, ih, header_wire hs, payload_wire hf1]
    simp [wireUpdate]

theorem run_whole {sid : Nat} (hs : sid < 2 ^ 31) : ∀ (h : List Step) (q : List Waiting), Good q → Whole h →
    ∃ (ss : List Nat) (waits : List Waiting), run sid q h = ((ss.map (wireUpdate sid)).flatten, waits) ∧ (∀ s ∈ ss, Allowed s) ∧ Good waits ∧ ss.sum + total waits = total q + granted h ∧ waits.length ≤ q.length + h.length
  | [], q, hq, _ => ⟨[], q, rfl, by simp, hq, by simp [granted], by simp⟩
  | .credit u :: h, q, hq, hw => by
    obtain ⟨c1, c2, c3⟩ := credit_spec hq hw.1
    obtain ⟨ss, waits, e, a, g, t, l⟩ := run_whole hs h (credit q u) c1 hw.2
    refine ⟨ss, waits, e, a, g, ?_, ?_⟩
    · rw [t, c2]; simp only [granted]; omega
    · simp only [List.length_cons]; omega
  | .push k :: h, q, hq, hw => by
    obtain ⟨n, hn⟩ : ∃ n, k = 13 * n := ⟨k / 13, by have := hw.1; omega⟩
    have hp := push_whole hs n q hq
    obtain ⟨ss, waits, e, a, g, t, l⟩ := run_whole hs h (q.drop n) (fun f hf => hq f (List.mem_of_mem_drop hf)) hw.2
    refine ⟨(q.take n).map Waiting.size ++ ss, waits, ?_, ?_, g, ?_, ?_⟩
    · unfold run
      rw [hn, hp]
      simp only
      rw [e]
      simp [Function.comp_def]
    · intro s hs'
      rcases List.mem_append.1 hs' with h | h
      · obtain ⟨f, hf, rfl⟩ := List.mem_map.1 h
        exact (hq f (List.mem_of_mem_take hf)).1
      · exact a s h
    · have hsplit : total q = ((q.take n).map Waiting.size).sum + total (q.drop n) := by
        conv => lhs; rw [← List.take_append_drop n q]
        simp only [total, List.map_append, List.sum_append]
      rw [List.sum_append, hsplit]
      simp only [granted]
      omega
    · rw [List.length_drop] at l
      simp only [List.length_cons]; omega

theorem run_append (sid : Nat) : ∀ (h h' : List Step) (q : List Waiting),
    run sid q (h ++ h') = ((run sid q h).1 ++ (run sid (run sid q h).2 h').1, (run sid (run sid q h).2 h').2)
  | [], h', q => by simp [run]
  | .credit u :: h, h', q => by simp only [List.cons_append, run]; exact run_append sid h h' _
  | .push k :: h, h', q => by
    simp only [List.cons_append, run]
    rw [run_append sid h h' _]
    simp

/-! ## C210 -/

/-- **C210 (partial).** If the socket never stops inside a frame, the client reads nothing but WINDOW_UPDATE frames with allowed increments, and they add up to what has been credited and does not wait; once the socket
has taken all that can wait, they add up to all that has been credited.  Missing: a socket that stops inside a frame (`C210_begun_update_replaced_refuted`). -/
theorem C210_credit_reaches_client_partial (sid : Nat) (hs : sid < 2 ^ 31) (h : List Step) (hw : Whole h) :
    (∃ ss : List Nat, (run sid [] h).1 = (ss.map (wireUpdate sid)).flatten ∧ (∀ s ∈ ss, Allowed s) ∧ ss.sum + ((run sid [] h).2.map Waiting.size).sum = granted h) ∧
    ∀ n, h.length ≤ n → ∃ ss : List Nat, run sid [] (h ++ [.push (13 * n)]) = ((ss.map (wireUpdate sid)).flatten, []) ∧ (∀ s ∈ ss, Allowed s) ∧ ss.sum = granted h := by
  obtain ⟨ss, waits, e, a, g, t, l⟩ := run_whole hs h [] (by intro f hf; cases hf) hw
  have ht : total [] = 0 := rfl
  constructor
  · refine ⟨ss, by rw [e], a, ?_⟩
    rw [e]
    show ss.sum + total waits = _
    omega
  · intro n hn
    have hp := push_whole hs n waits g
    simp only [List.length_nil] at l
    refine ⟨ss ++ waits.map Waiting.size, ?_, ?_, ?_⟩
    · rw [run_append, e]
      simp only [run]
      rw [hp, List.take_of_length_le (by omega), List.drop_of_length_le (by omega)]
      simp [Function.comp_def]
    · intro s hs'
      rcases List.mem_append.1 hs' with h | h
      · exact a s h
      · obtain ⟨f, hf, rfl⟩ := List.mem_map.1 h
        exact (g f hf).1
    · rw [List.sum_append]
      show ss.sum + total waits = _
      omega

/-- What is written if a WINDOW_UPDATE has begun to go out when the next one comes. -/
theorem begun_run (sid : Nat) (hs : sid < 2 ^ 31) (u v : Nat) (hu : 1 ≤ u) (hv : 1 ≤ v) (hsum : u + v ≤ 2147483647) (j : Nat) (hj : j < 4) :
    run sid [] [.credit u, .push (9 + j), .credit v, .push 13] = ((wireUpdate sid u).take (9 + j) ++ wireUpdate sid (u + v), []) := by
  have c1 : credit [] u = [⟨u, false⟩] := by
    unfold credit combine
    simp only [List.length_nil, List.nil_append]
    rw [H2.read31nb_windowPayload _ (by unfold H2.windowSizeMax; omega)]
  have p1 : push sid (9 + j) [⟨u, false⟩] = (H2.wireHeader 4 8 0 false sid ++ (H2.windowPayload u false).take j, [⟨u, true⟩]) := by
    unfold push
    simp only [Bool.false_eq_true, if_false]
    rw [if_neg (by rw [header_length]; omega), if_pos (by rw [header_length, payload_length]; omega), header_length, show 9 + j - 9 = j by omega, header_wire hs]
  have c2 : credit [⟨u, true⟩] v = [⟨u + v, false⟩] := by
    have hm : (v + u) % 2 ^ 32 = v + u := Nat.mod_eq_of_lt (by omega)
    have hc : combine 1 [⟨u, true⟩] v = ([], v + u) := by
      unfold combine
      have : decide ((v + u) % 2 ^ 32 ≤ H2.windowSizeMax) = true := by
        rw [hm, decide_eq_true_eq]; unfold H2.windowSizeMax; omega
      simp only [List.findIdx?_cons, this, if_true]
      simp only [List.getElem?_cons_zero, List.eraseIdx_cons_zero, hm, combine]
    unfold credit
    rw [show [({ size := u, inPayload := true } : Waiting)].length = 1 from rfl, hc]
    simp only [List.nil_append]
    rw [H2.read31nb_windowPayload _ (by unfold H2.windowSizeMax; omega), Nat.add_comm]
  have p2 := push_whole hs 1 [⟨u + v, false⟩] (by intro f hf; rw [List.mem_singleton.1 hf]; exact ⟨⟨by show 1 ≤ u + v; omega, by show u + v ≤ _; omega⟩, rfl⟩)
  simp only [run, c1, p1, c2]
  rw [show (13 : Nat) = 13 * 1 from rfl, p2, payload_wire (by omega : u ≤ 2147483647)]
  have hwl : (H2.wireHeader 4 8 0 false sid).length = 9 := by simp [H2.wireHeader]
  have htk : (wireUpdate sid u).take (9 + j) = H2.wireHeader 4 8 0 false sid ++ [u / 16777216, u / 65536 % 256, u / 256 % 256, u % 256].take j := by
    unfold wireUpdate
    rw [List.take_append, hwl, List.take_of_length_le (by rw [hwl]; omega), show 9 + j - 9 = j by omega]
  rw [htk]
  simp

/-- **C210 refuted.** If the socket stops inside the payload of a WINDOW_UPDATE and more is credited meanwhile, the frame is taken back although its beginning has gone out, and the combined frame follows inside it. -/
theorem C210_begun_update_replaced_refuted (sid : Nat) (hs : sid < 2 ^ 31) (u v : Nat) (hu : 1 ≤ u) (hv : 1 ≤ v) (hsum : u + v ≤ 2147483647) (j : Nat) (hj : j < 4) :
    (run sid [] [.credit u, .push (9 + j), .credit v, .push 13]) = ((wireUpdate sid u).take (9 + j) ++ wireUpdate sid (u + v), []) ∧
      ¬ ∃ ss : List Nat, (∀ s ∈ ss, Allowed s) ∧ ss.sum = u + v ∧ (run sid [] [.credit u, .push (9 + j), .credit v, .push 13]).1 = (ss.map (wireUpdate sid)).flatten := by
  have e := begun_run sid hs u v hu hv hsum j hj
  refine ⟨e, ?_⟩
  rintro ⟨ss, _, _, h⟩
  rw [e] at h
  have hlen : ∀ ss : List Nat, ((ss.map (wireUpdate sid)).flatten).length = 13 * ss.length := by
    intro ss
    induction ss with
    | nil => rfl
    | cons s t ih => rw [List.map_cons, List.flatten_cons, List.length_append, ih]; simp [wireUpdate, H2.wireHeader]; omega
  have := congrArg List.length h
  rw [hlen] at this
  simp [wireUpdate, H2.wireHeader] at this
  omega

/-- **C210 refuted.** If it stops right behind the header, the client reads an increment of 1032 bytes, whatever has been credited: the beginning of the next header. -/
theorem C210_wrong_increment_refuted (sid : Nat) (hs : sid < 2 ^ 31) (u v : Nat) (hu : 1 ≤ u) (hv : 1 ≤ v) (hsum : u + v ≤ 2147483647) :
    (run sid [] [.credit u, .push 9, .credit v, .push 13]).1.take 13 = wireUpdate sid 1032 := by
  rw [begun_run sid hs u v hu hv hsum 0 (by omega)]
  simp [wireUpdate, H2.wireHeader]

/-- **C210 refuted.** Nothing need be credited meanwhile: wherever inside the frame the socket stops, the bytes of the header, or of the payload, that have gone out go out again. -/
theorem C210_stopped_send_repeats_refuted (sid : Nat) (hs : sid < 2 ^ 31) (u : Nat) (hu : Allowed u) (j : Nat) :
    (j < 9 → run sid [] [.credit u, .push j, .push 13] = ((wireUpdate sid u).take j ++ wireUpdate sid u, [])) ∧
      (9 ≤ j → j < 13 → run sid [] [.credit u, .push j, .push 4] = ((wireUpdate sid u).take j ++ (wireUpdate sid u).drop 9, [])) := by
  obtain ⟨hu1, hu2⟩ := hu
  have c1 : credit [] u = [⟨u, false⟩] := by
    unfold credit combine
    simp only [List.length_nil, List.nil_append]
    rw [H2.read31nb_windowPayload _ (by unfold H2.windowSizeMax; omega)]
  have hwl : (H2.wireHeader 4 8 0 false sid).length = 9 := by simp [H2.wireHeader]
  constructor
  · intro hj
    have p1 : push sid j [⟨u, false⟩] = ((H2.wireHeader 4 8 0 false sid).take j, [⟨u, false⟩]) := by
      unfold push
      simp only [Bool.false_eq_true, if_false]
      rw [if_pos (by rw [header_length]; omega), header_wire hs]
    have p2 := push_whole hs 1 [⟨u, false⟩] (by intro f hf; rw [List.mem_singleton.1 hf]; exact ⟨⟨hu1, hu2⟩, rfl⟩)
    simp only [run, c1, p1]
    rw [show (13 : Nat) = 13 * 1 from rfl, p2]
    have htk : (wireUpdate sid u).take j = (H2.wireHeader 4 8 0 false sid).take j := by
      unfold wireUpdate
      rw [List.take_append_of_le_length (by rw [hwl]; omega)]
    rw [htk]
    simp
  · intro hj hj'
    have p1 : push sid j [⟨u, false⟩] = (H2.wireHeader 4 8 0 false sid ++ (H2.windowPayload u false).take (j - 9), [⟨u, true⟩]) := by
      unfold push
      simp only [Bool.false_eq_true, if_false]
      rw [if_neg (by rw [header_length]; omega), if_pos (by rw [header_length, payload_length]; omega), header_length, header_wire hs]
    have p2 : push sid 4 [⟨u, true⟩] = (H2.windowPayload u false, []) := by
      unfold push
      simp [payload_length, push]
    simp only [run, c1, p1, p2]
    have htk : (wireUpdate sid u).take j = H2.wireHeader 4 8 0 false sid ++ [u / 16777216, u / 65536 % 256, u / 256 % 256, u % 256].take (j - 9) := by
      unfold wireUpdate
      rw [List.take_append, hwl, List.take_of_length_le (by rw [hwl]; omega)]
    rw [htk, payload_wire hu2]
    have hd : (wireUpdate sid u).drop 9 = [u / 16777216, u / 65536 % 256, u / 256 % 256, u % 256] := by unfold wireUpdate; exact List.drop_left' hwl
    rw [hd]
    simp

example : run 3 [] [.credit 7, .push 2, .push 13] = ([0, 0] ++ wireUpdate 3 7, []) := (C210_stopped_send_repeats_refuted 3 (by decide) 7 ⟨by decide, by decide⟩ 2).1 (by decide)

example : Whole [.credit 100, .credit 65535, .push 13, .credit 2147483647, .credit 5, .push 13] := by simp [Whole, Allowed]

example : (run 5 [] [.credit 100, .credit 65535, .push 13, .credit 2147483647, .credit 5, .push 13]) = (wireUpdate 5 65635 ++ wireUpdate 5 2147483647, [⟨5, false⟩]) := by decide

/-- 16384 bytes and then 10 are credited; the client is told of 1032. -/
example : (run 0 [] [.credit 16384, .push 9, .credit 10, .push 13]).1.take 13 = wireUpdate 0 1032 := C210_wrong_increment_refuted 0 (by decide) 16384 10 (by decide) (by decide) (by decide)

end Fly.H2Credit
