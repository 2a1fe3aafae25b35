import Verif.H2Body.Spec

/-! # C104: HTTP/2 response bodies are sent as announced; C105: clients that go away harm nobody else -/

namespace Fly.H2B

open Send (Sys)
open Response (File Coding Accepts identity)

/-! ## The loops over calm connections -/

theorem calm_tail {s : Sys} {ss : List Sys} (h : Calm (s :: ss)) : Calm ss := fun x hx => h x (by simp [hx])

theorem takes_lt {what : Bytes} (n : Nat) (ss : List Sys) (d : Nat) (hd : 0 < d) (h : takes ss < d - (what.take n).length)
    (hw : what.length = d) : takes (.sent n :: ss) < d := by
  cases n with
  | zero => simp only [takes]; omega
  | succ n =>
    simp only [takes, List.length_take] at *
    omega

theorem bodyRun_from (tls : Bool) (b : Bytes) : ∀ (ss : List Sys) (total : Nat), total ≤ b.length → Calm ss →
    ((bodyRun tls b total ss).st = .done ∧ (bodyRun tls b total ss).out = b.drop total) ∨
    ((bodyRun tls b total ss).st = .more ∧ (bodyRun tls b total ss).out <+: b.drop total ∧ takes ss < b.length - total) := by
  intro ss
  induction ss with
  | nil =>
    intro total ht _
    rw [bodyRun]
    by_cases h : b.length ≤ total
    · left; rw [if_pos h]; exact ⟨rfl, (List.drop_eq_nil_of_le h).symm⟩
    · right; rw [if_neg h]; exact ⟨rfl, List.nil_prefix, by simp only [takes]; omega⟩
  | cons s ss ih =>
    intro total ht hc
    rw [bodyRun]
    by_cases h : b.length ≤ total
    · left; rw [if_pos h]; exact ⟨rfl, (List.drop_eq_nil_of_le h).symm⟩
    rw [if_neg h]
    cases s with
    | block => exact ih total ht (calm_tail hc)
    | intr => exact absurd rfl (hc .intr (by simp)).1
    | fail => exact absurd rfl (hc .fail (by simp)).2
    | sent n =>
      have hl : ((b.drop total).take n).length ≤ b.length - total := by simp; omega
      have hsplit : b.drop total = (b.drop total).take n ++ b.drop (total + ((b.drop total).take n).length) := by
        rw [← List.drop_drop]
        conv => lhs; rw [← List.take_append_drop ((b.drop total).take n).length (b.drop total)]
        congr 1
        rw [List.length_take, List.take_eq_take_iff]
        omega
      rcases ih (total + ((b.drop total).take n).length) (by omega) (calm_tail hc) with ⟨h1, h2⟩ | ⟨h1, h2, h3⟩
      · left
        refine ⟨h1, ?_⟩
        simp only [Run.after]
        rw [h2, ← hsplit]
      · right
        refine ⟨h1, ?_, ?_⟩
        · simp only [Run.after]
          obtain ⟨t, ht'⟩ := h2
          exact ⟨t, by rw [List.append_assoc, ht', ← hsplit]⟩
        · exact takes_lt (what := b.drop total) n ss _ (by omega) (by omega) (by simp)

theorem bodyRun_delivers (tls : Bool) (b : Bytes) : Delivers (bodyRun tls b 0) b := by
  intro ss hc
  simpa using bodyRun_from tls b ss 0 (Nat.zero_le _) hc

theorem delivers_congr {r r' : List Sys → Run} {w : Bytes} (h : ∀ ss, Calm ss → r' ss = r ss) (hd : Delivers r w) : Delivers r' w := by
  intro ss hc
  rw [h ss hc]
  exact hd ss hc

theorem encodedRun_eq (tls : Bool) (b : Bytes) : ∀ (ss : List Sys) (total : Nat), Calm ss → encodedRun tls b total ss = bodyRun tls b total ss := by
  intro ss
  induction ss with
  | nil => intro _ _; rfl
  | cons s ss ih =>
    intro total hc
    rw [encodedRun, bodyRun]
    split
    · rfl
    · cases s with
      | block => exact ih total (calm_tail hc)
      | intr => exact absurd rfl (hc .intr (by simp)).1
      | fail => exact absurd rfl (hc .fail (by simp)).2
      | sent n => simp only [ih _ (calm_tail hc)]

theorem filePlain_eq (tls : Bool) (b : Bytes) : ∀ (ss : List Sys) (total : Nat), Calm ss →
    filePlain b b.length total total ss = bodyRun tls b total ss := by
  intro ss
  induction ss with
  | nil => intro _ _; rfl
  | cons s ss ih =>
    intro total hc
    rw [filePlain, bodyRun]
    split
    · rfl
    · rename_i h
      have hd : (b.drop total).take (b.length - total) = b.drop total := List.take_of_length_le (by simp)
      simp only [hd]
      cases s with
      | block => exact ih total (calm_tail hc)
      | intr => exact absurd rfl (hc .intr (by simp)).1
      | fail => exact absurd rfl (hc .fail (by simp)).2
      | sent n =>
        simp only
        rw [if_neg (by simp; omega), ih _ (calm_tail hc)]

theorem readSize_ge (count total : Nat) : bufLen ≤ readSize count total := by
  rw [readSize]
  by_cases h : (count + 18446744073709551616 - total) % 18446744073709551616 < bufLen
  · rw [if_pos h]; exact Nat.le_refl _
  · rw [if_neg h]; omega

theorem fileTls_eq (b : Bytes) (hb : b.length ≤ 4096) : ∀ (ss : List Sys) (total : Nat), Calm ss →
    fileTls b b.length total ss = bodyRun true b total ss := by
  intro ss
  induction ss with
  | nil => intro _ _; rfl
  | cons s ss ih =>
    intro total hc
    rw [fileTls, bodyRun]
    split
    · rfl
    · rename_i h
      have hr : 4096 ≤ readSize b.length total := readSize_ge _ _
      have hd : (b.drop total).take (readSize b.length total) = b.drop total :=
        List.take_of_length_le (by simp only [List.length_drop]; omega)
      simp only [hd]
      rw [if_neg (by simp only [bufLen, List.length_drop]; omega), if_neg (by simp; omega)]
      cases s with
      | block => exact ih total (calm_tail hc)
      | intr => exact absurd rfl (hc .intr (by simp)).1
      | fail => exact absurd rfl (hc .fail (by simp)).2
      | sent n => simp only [ih _ (calm_tail hc)]

theorem delivers_nothing (tls : Bool) (disk : Bytes) (p : Plan) (h : p.len = 0) : Delivers (payload tls disk p) [] := by
  intro ss _
  left
  rw [payload, if_pos h]
  exact ⟨rfl, rfl⟩

theorem right_body (tls : Bool) (disk b : Bytes) (c : Option Coding) : Right tls disk ⟨.body (some b), b.length, b.length, c⟩ b := by
  refine ⟨rfl, rfl, ?_⟩
  by_cases h : b.length = 0
  · rw [List.length_eq_zero_iff] at h
    subst h
    exact delivers_nothing _ _ _ rfl
  · refine delivers_congr (r := bodyRun tls b 0) ?_ (bodyRun_delivers tls b)
    intro ss _
    rw [payload, if_neg h]

theorem right_encoded (tls : Bool) (disk b : Bytes) (c : Option Coding) : Right tls disk ⟨.encoded b, b.length, b.length, c⟩ b := by
  refine ⟨rfl, rfl, ?_⟩
  by_cases h : b.length = 0
  · rw [List.length_eq_zero_iff] at h
    subst h
    exact delivers_nothing _ _ _ rfl
  · refine delivers_congr (r := bodyRun tls b 0) ?_ (bodyRun_delivers tls b)
    intro ss hc
    rw [payload, if_neg h]
    exact encodedRun_eq tls b ss 0 hc

theorem right_file (tls : Bool) (b : Bytes) (c : Option Coding) (ht : tls = true → b.length ≤ 4096) :
    Right tls b ⟨.file b, b.length, b.length, c⟩ b := by
  refine ⟨rfl, rfl, ?_⟩
  by_cases h : b.length = 0
  · rw [List.length_eq_zero_iff] at h
    subst h
    exact delivers_nothing _ _ _ rfl
  · refine delivers_congr (r := bodyRun tls b 0) ?_ (bodyRun_delivers tls b)
    intro ss hc
    rw [payload, if_neg h]
    cases tls with
    | true => exact fileTls_eq b (ht rfl) ss 0 hc
    | false => exact filePlain_eq false b ss 0 hc

/-! ## C104 -/

variable (compress : Coding → Bytes → Bytes) (overflow : Bytes → Bool)

/-- **C104 (partial, application responses).** For every body, negotiation result, threshold and encoder: unless its encoding is too long, the
body (or its encoding, with the coding announced) is sent with a `content-length` and a DATA frame of its length, exactly once
over every calm connection. -/
theorem C104_handler_body_partial (tls : Bool) (disk : Bytes) (threshold : Nat) (acc : Accepts) (dontEncode : Bool) (body : Bytes)
    (pf rcbs : Option File) :
    ∃ r, prepare compress overflow threshold acc dontEncode (some body) pf rcbs = some r ∧
      (r = .tooLarge ∨ ∃ p, r = .ready p ∧
        ((p.coding = none ∨ p.coding = some identity) ∧ Right tls disk p body ∨
         ∃ c, p.coding = some c ∧ Right tls disk p (compress c body))) := by
  have e : prepare compress overflow threshold acc dontEncode (some body) pf rcbs =
    (if dontEncode then some (.ready ⟨.body (some body), body.length, body.length, none⟩)
     else
      match (if threshold ≤ body.length then acc.decided else none) with
      | some c =>
        if c = identity then some (.ready ⟨.body (some body), body.length, body.length, some c⟩)
        else if overflow (compress c body) then some .tooLarge
        else some (.ready ⟨.encoded (compress c body), (compress c body).length, (compress c body).length, some c⟩)
      | none => some (.ready ⟨.body (some body), body.length, body.length, none⟩)) := by
    rw [prepare]
    cases dontEncode
    · simp only [source, Option.isSome_none, Bool.false_and, Bool.false_eq_true, if_false, Bool.not_true]
      generalize (if threshold ≤ body.length then acc.decided else none) = x
      cases x <;> rfl
    · rfl
  rw [e]
  split
  · exact ⟨_, rfl, Or.inr ⟨_, rfl, Or.inl ⟨Or.inl rfl, right_body _ _ _ _⟩⟩⟩
  · split
    · rename_i c _
      split
      · rename_i hc
        exact ⟨_, rfl, Or.inr ⟨_, rfl, Or.inl ⟨Or.inr (by rw [hc]), right_body _ _ _ _⟩⟩⟩
      · split
        · exact ⟨_, rfl, Or.inl rfl⟩
        · exact ⟨_, rfl, Or.inr ⟨_, rfl, Or.inr ⟨c, rfl, right_encoded _ _ _ _⟩⟩⟩
    · exact ⟨_, rfl, Or.inr ⟨_, rfl, Or.inl ⟨Or.inl rfl, right_body _ _ _ _⟩⟩⟩

/-- **C104 (partial, files).** The same for a file that is as it was mounted, if its stored encoding is accepted, or a real coding was
negotiated and applies, or it has no stored encoding, no coding applies, and TLS is not used or the file has at most 4096 bytes.
Missing: the cases refuted below. -/
theorem C104_file_partial (tls : Bool) (threshold : Nat) (acc : Accepts) (f : File) (rcbs : Option File)
    (hcase : (∃ c e, f.pre = some (c, e) ∧ acc.matching c = true) ∨
      (threshold ≤ f.content.length ∧ ∃ c, acc.decided = some c ∧ c ≠ identity) ∨
      (f.pre = none ∧ (f.content.length < threshold ∨ acc.decided = none) ∧ (tls = true → f.content.length ≤ 4096))) :
    ∃ r, prepare compress overflow threshold acc false none (some f) rcbs = some r ∧
      (r = .tooLarge ∨ ∃ p, r = .ready p ∧
        (p.coding = none ∧ Right tls f.content p f.content ∨
         ∃ c, p.coding = some c ∧ (Right tls f.content p (compress c f.content) ∨
           ∃ e, f.pre = some (c, e) ∧ Right tls f.content p e))) := by
  obtain ⟨content, pre⟩ := f
  cases pre with
  | some q =>
    obtain ⟨c, e⟩ := q
    cases hm : acc.matching c with
    | true =>
      have e1 : prepare compress overflow threshold acc false none (some ⟨content, some (c, e)⟩) rcbs =
          some (.ready ⟨.encoded e, e.length, e.length, some c⟩) := by
        simp only [prepare, source, hm]
        rfl
      rw [e1]
      exact ⟨_, rfl, Or.inr ⟨_, rfl, Or.inr ⟨c, rfl, Or.inr ⟨e, rfl, right_encoded _ _ _ _⟩⟩⟩⟩
    | false =>
      rcases hcase with ⟨c', e', h1, h2⟩ | ⟨h1, d, h2, h3⟩ | ⟨h1, _⟩
      · simp only [Option.some.injEq, Prod.mk.injEq] at h1
        rw [← h1.1, hm] at h2; simp at h2
      · have h1 : threshold ≤ content.length := h1
        have e1 : prepare compress overflow threshold acc false none (some ⟨content, some (c, e)⟩) rcbs =
            (if overflow (compress d content) then some .tooLarge
             else some (.ready ⟨.encoded (compress d content), (compress d content).length, (compress d content).length, some d⟩)) := by
          simp only [prepare, source, hm, Option.isSome_some, Bool.not_false, Bool.true_and, if_true, if_pos h1, h2,
            Bool.false_eq_true, if_false, if_neg h3, Bool.not_true]
        rw [e1]
        split
        · exact ⟨_, rfl, Or.inl rfl⟩
        · exact ⟨_, rfl, Or.inr ⟨_, rfl, Or.inr ⟨d, rfl, Or.inl (right_encoded _ _ _ _)⟩⟩⟩
      · simp at h1
  | none =>
    rcases hcase with ⟨c', e', h1, h2⟩ | ⟨h1, d, h2, h3⟩ | ⟨_, h1, h2⟩
    · simp at h1
    · have h1 : threshold ≤ content.length := h1
      have e1 : prepare compress overflow threshold acc false none (some ⟨content, none⟩) rcbs =
          (if overflow (compress d content) then some .tooLarge
           else some (.ready ⟨.encoded (compress d content), (compress d content).length, (compress d content).length, some d⟩)) := by
        simp only [prepare, source, Option.isSome_none, Bool.false_and, Bool.false_eq_true, if_false, if_pos h1, h2, if_neg h3, Bool.not_true]
      rw [e1]
      split
      · exact ⟨_, rfl, Or.inl rfl⟩
      · exact ⟨_, rfl, Or.inr ⟨_, rfl, Or.inr ⟨d, rfl, Or.inl (right_encoded _ _ _ _)⟩⟩⟩
    · have hx : (if threshold ≤ content.length then acc.decided else none) = none := by
        rcases h1 with h | h
        · have h : content.length < threshold := h
          rw [if_neg (by omega)]
        · rw [h, ite_self]
      have e1 : prepare compress overflow threshold acc false none (some ⟨content, none⟩) rcbs =
          some (.ready ⟨.file content, content.length, content.length, none⟩) := by
        simp only [prepare, source, Option.isSome_none, Bool.false_and, Bool.false_eq_true, if_false, hx]
      rw [e1]
      exact ⟨_, rfl, Or.inr ⟨_, rfl, Or.inl ⟨rfl, right_file tls content none h2⟩⟩⟩

/-- A client without interest in codings. -/
def plainClient : Accepts := ⟨fun _ => false, none⟩

example : prepare (fun _ b => b) (fun _ => false) 10 plainClient false none (some ⟨b!"abcdef", none⟩) none =
    some (.ready ⟨.file b!"abcdef", 6, 6, none⟩) := by decide +kernel

example : payload false b!"abcdef" ⟨.file b!"abcdef", 6, 6, none⟩ [.sent 2, .block, .sent 1, .sent 100] = ⟨b!"abcdef", .done⟩ := by
  decide +kernel

/-- **C104 (responses without content).** Nothing is announced and nothing sent. -/
theorem C104_no_content_partial (tls : Bool) (disk : Bytes) (threshold : Nat) (ht : 0 < threshold) (acc : Accepts) (dontEncode : Bool) :
    ∃ p, prepare compress overflow threshold acc dontEncode none none none = some (.ready p) ∧ p.coding = none ∧ Right tls disk p [] := by
  refine ⟨⟨.noContent, 0, 0, none⟩, ?_, rfl, rfl, rfl, delivers_nothing _ _ _ rfl⟩
  rw [prepare]
  cases dontEncode
  · simp only [source, Option.isSome_none, Bool.false_and, Bool.false_eq_true, if_false, if_neg (Nat.not_le.2 ht)]
  · rfl

/-! ### What goes wrong -/

/-- **C104 refuted (stack overrun).** Every file of more than 4096 bytes sent over TLS writes more than 4096 bytes to a buffer of 4096 bytes on the
stack, at the first attempt to send. -/
theorem C104_file_over_tls_overruns_refuted (content : Bytes) (h : 4096 < content.length) (h2 : content.length < 18446744073709551616)
    (cl : Nat) (c : Option Coding) (s : Sys) (ss : List Sys) :
    payload true content ⟨.file content, content.length, cl, c⟩ (s :: ss) = ⟨[], .overrun⟩ := by
  rw [payload, if_neg (by simp only; omega)]
  simp only [if_true]
  rw [fileTls, if_neg (by omega)]
  have hr : readSize content.length 0 = content.length := by
    rw [readSize]
    have : (content.length + 18446744073709551616 - 0) % 18446744073709551616 = content.length := by
      rw [Nat.sub_zero, Nat.add_mod_right, Nat.mod_eq_of_lt h2]
    simp only [this, bufLen]
    rw [if_neg (by omega)]
  simp only [List.drop_zero, hr, List.take_length]
  rw [if_pos (by rw [bufLen]; exact h)]

/-- **C104 refuted (whole path).** So for every client that asks over TLS, without content codings, for a mounted file of more than 4096 bytes. -/
theorem C104_any_larger_file_overruns_refuted (threshold : Nat) (acc : Accepts) (ha : acc.decided = none) (content : Bytes)
    (h : 4096 < content.length) (h2 : content.length < 18446744073709551616) :
    ∃ p, prepare compress overflow threshold acc false none (some ⟨content, none⟩) none = some (.ready p) ∧
      ∀ s ss, payload true content p (s :: ss) = ⟨[], .overrun⟩ := by
  refine ⟨⟨.file content, content.length, content.length, none⟩, ?_, fun s ss =>
    C104_file_over_tls_overruns_refuted content h h2 _ _ s ss⟩
  simp only [prepare, source, Option.isSome_none, Bool.false_and, Bool.false_eq_true, if_false, ha, ite_self]

example : 4096 < (List.replicate 5000 65).length := by rw [List.length_replicate]; omega

/-- **C104 refuted (files that became shorter).** A file that lost its end after it was mounted makes the worker spin for ever, over every connection
that takes what is there and one call more. -/
theorem C104_truncated_file_spins_refuted (disk : Bytes) (count : Nat) (h : disk.length < count) (n : Nat) (hn : disk.length ≤ n) (ss : List Sys) :
    (filePlain disk count 0 0 (.sent n :: .sent n :: ss)).st = .spin := by
  have h0 : ∀ (total off : Nat) (s : List Sys), disk.length ≤ off → total < count →
      filePlain disk count total off (.sent n :: s) = ⟨[], .spin⟩ := by
    intro total off s h1 h2
    rw [filePlain, if_neg (by omega)]
    simp only [List.drop_eq_nil_of_le h1, List.take_nil, if_true]
  by_cases hd : disk = []
  · subst hd
    rw [h0 0 0 _ (by simp) (by simpa using h)]
  · rw [filePlain, if_neg (by omega)]
    have e : (disk.drop 0).take (count - 0) = disk := by
      rw [List.drop_zero]; exact List.take_of_length_le (by omega)
    simp only [e]
    rw [if_neg hd]
    simp only [Run.after]
    rw [List.take_of_length_le hn, h0 _ _ _ (by omega) (by omega)]

example : (filePlain b!"ab" 5 0 0 [.sent 9, .sent 9]).st = .spin := by decide +kernel

/-- **C104 refuted (files that became longer).** A file that grew after it was mounted is sent over TLS with more bytes than its DATA frame has: what
follows the frame is no frame. -/
theorem C104_grown_file_breaks_framing_refuted (content more : Bytes) (hc : 0 < content.length) (hm : more ≠ [])
    (h : (content ++ more).length ≤ 4096) (cl : Nat) (c : Option Coding) (ss : List Sys) :
    payload true (content ++ more) ⟨.file content, content.length, cl, c⟩ (.sent 4096 :: ss) = ⟨content ++ more, .done⟩ := by
  rw [payload, if_neg (by simp only; omega)]
  simp only [if_true]
  rw [fileTls, if_neg (by omega)]
  have hlen : (content ++ more).length = content.length + more.length := List.length_append
  have hr : 4096 ≤ readSize content.length 0 := readSize_ge _ _
  have e : ((content ++ more).drop 0).take (readSize content.length 0) = content ++ more := by
    rw [List.drop_zero]; exact List.take_of_length_le (by omega)
  simp only [e]
  rw [if_neg (by rw [bufLen]; omega), if_neg (by intro e; rw [e] at hlen; simp at hlen; omega)]
  simp only [Run.after]
  rw [List.take_of_length_le (by omega)]
  have : fileTls (content ++ more) content.length (0 + (content ++ more).length) ss = ⟨[], .done⟩ := by
    cases ss with
    | nil => rw [fileTls, if_pos (by omega)]
    | cons s ss => rw [fileTls, if_pos (by omega)]
  rw [this, List.append_nil]

/-- **C104 refuted (default contents).** The content configured for a status, not encoded, makes the worker spin for ever without TLS. -/
theorem C104_default_content_spins_refuted (disk content : Bytes) (h : content ≠ []) (cl : Nat) (c : Option Coding) (n : Nat) (ss : List Sys) :
    payload false disk ⟨.default content, content.length, cl, c⟩ (.sent n :: ss) = ⟨[], .spin⟩ := by
  have : content.length ≠ 0 := by simpa using h
  rw [payload, if_neg this]
  simp only [Bool.false_eq_true, if_false]
  rw [defaultPlain, if_neg this]

/-- **C104 refuted (default contents).** Over TLS, of a default content between 4097 and 8192 bytes at most 4096 are sent. -/
theorem C104_default_content_cut_refuted (content : Bytes) (h1 : 4096 < content.length) (h2 : content.length ≤ 8192) (cl : Nat)
    (c : Option Coding) (s : Sys) (ss : List Sys) :
    payload true content ⟨.default content, content.length, cl, c⟩ (.sent 4096 :: s :: ss) = ⟨content.take 4096, .undef⟩ := by
  rw [payload, if_neg (by simp only; omega)]
  simp only [if_true]
  rw [defaultTls, if_neg (by omega)]
  have hr : readSize 0 0 = 4096 := by decide
  simp only [Nat.add_zero, List.drop_zero, hr]
  have hl : (content.take 4096).length = 4096 := by rw [List.length_take]; omega
  rw [if_neg (by rw [bufLen, hl]; omega), if_neg (by intro e; rw [e] at hl; simp at hl)]
  simp only [List.take_take, Nat.min_self, hl, Nat.zero_add]
  rw [defaultTls, if_neg (by omega)]
  have e2 : content.drop (4096 + 4096) = [] := List.drop_eq_nil_of_le (by omega)
  simp only [e2, List.take_nil, List.length_nil]
  rw [if_neg (by rw [bufLen]; omega)]
  simp only [if_true, Run.after, List.append_nil]

/-- **C104 refuted (frame length).** If the stored encoding of a file is not accepted and no coding applies, the DATA frame is announced with
the length of the file, but the stored encoding is sent in it, with its own length as `content-length` and no
`content-encoding`: the frames that follow are taken for the rest of the file. -/
theorem C104_frame_length_refuted (tls : Bool) (disk : Bytes) (threshold : Nat) (acc : Accepts) (content enc : Bytes) (k : Coding)
    (hm : acc.matching k = false) (hd : content.length < threshold ∨ acc.decided = none) (hc : content ≠ []) (rcbs : Option File) :
    ∃ p, prepare compress overflow threshold acc false none (some ⟨content, some (k, enc)⟩) rcbs = some (.ready p) ∧
      p.len = content.length ∧ p.contentLength = enc.length ∧ p.coding = none ∧ Delivers (payload tls disk p) enc := by
  have hx : (if threshold ≤ content.length then acc.decided else none) = none := by
    rcases hd with h | h
    · rw [if_neg (by omega)]
    · rw [h, ite_self]
  refine ⟨⟨.encoded enc, content.length, enc.length, none⟩, ?_, rfl, rfl, rfl, ?_⟩
  · simp only [prepare, source, hm, Option.isSome_some, Bool.not_false, Bool.true_and, if_true, Bool.false_eq_true, if_false, hx]
  · refine delivers_congr (r := bodyRun tls enc 0) ?_ (bodyRun_delivers tls enc)
    intro ss h
    rw [payload, if_neg (by simpa using hc)]
    exact encodedRun_eq tls enc ss 0 h

example : (prepare (fun _ b => b) (fun _ => false) 100 plainClient false none (some ⟨b!"aaaaaaaa", some (1, b!"zz")⟩) none) =
    some (.ready ⟨.encoded b!"zz", 8, 2, none⟩) := by decide +kernel

/-- **C104 refuted (identity).** A file for which the coding `identity` was negotiated makes the worker follow a null pointer. -/
theorem C104_identity_file_undefined_refuted (tls : Bool) (disk : Bytes) (threshold : Nat) (acc : Accepts) (content : Bytes)
    (h : threshold ≤ content.length) (h0 : content ≠ []) (hd : acc.decided = some identity) (rcbs : Option File) (ss : List Sys) :
    ∃ p, prepare compress overflow threshold acc false none (some ⟨content, none⟩) rcbs = some (.ready p) ∧
      payload tls disk p ss = ⟨[], .undef⟩ := by
  refine ⟨⟨.body none, content.length, content.length, some identity⟩, ?_, ?_⟩
  · simp only [prepare, source, Option.isSome_none, Bool.false_and, Bool.false_eq_true, if_false, if_pos h, hd, if_true]
  · rw [payload, if_neg (by simpa using h0)]

/-! ## C105 -/

/-- **C105 (partial).** While the body of an application function or an encoding is sent over TLS, or a body without TLS, no behaviour of the
connection ends the worker, makes it spin or leads to undefined behaviour. -/
theorem C105_body_survives_partial (tls : Bool) (b : Bytes) : ∀ (ss : List Sys) (total : Nat),
    (bodyRun tls b total ss).st = .done ∨ (bodyRun tls b total ss).st = .more ∨ (bodyRun tls b total ss).st = .gone := by
  intro ss
  induction ss with
  | nil => intro total; rw [bodyRun]; split <;> simp
  | cons s ss ih =>
    intro total
    rw [bodyRun]
    split
    · simp
    · cases s with
      | block => exact ih total
      | intr =>
        cases tls
        · exact ih total
        · simp
      | fail => simp
      | sent n => exact ih _

/-- **C105 (partial).** The same for encodings over TLS. -/
theorem C105_encoded_survives_partial (b : Bytes) : ∀ (ss : List Sys) (total : Nat),
    (encodedRun true b total ss).st = .done ∨ (encodedRun true b total ss).st = .more ∨ (encodedRun true b total ss).st = .gone := by
  intro ss
  induction ss with
  | nil => intro total; rw [encodedRun]; split <;> simp
  | cons s ss ih =>
    intro total
    rw [encodedRun]
    split
    · simp
    · cases s with
      | block => exact ih total
      | intr => simp
      | fail => simp
      | sent n => exact ih _

example : (bodyRun false b!"abc" 0 [.sent 1, .fail]).st = .gone := by decide +kernel

/-- **C105 refuted.** A client that closes its connection while a file is sent to it without TLS ends the worker process, with all its other
connections, at whatever point of the transfer. -/
theorem C105_client_ends_worker_refuted (disk : Bytes) (count : Nat) : ∀ (k : Nat) (ss : List Sys), k < count → k < disk.length →
    (filePlain disk count 0 0 (List.replicate k (.sent 1) ++ .fail :: ss)).st = .fatal := by
  have key : ∀ (k total : Nat) (ss : List Sys), total + k < count → total + k < disk.length →
      (filePlain disk count total total (List.replicate k (.sent 1) ++ .fail :: ss)).st = .fatal := by
    intro k
    induction k with
    | zero =>
      intro total ss h1 h2
      rw [List.replicate_zero, List.nil_append, filePlain, if_neg (by omega)]
    | succ k ih =>
      intro total ss h1 h2
      rw [List.replicate_succ, List.cons_append, filePlain, if_neg (by omega)]
      have hd : (((disk.drop total).take (count - total)).take 1).length = 1 := by simp; omega
      simp only
      rw [if_neg (by intro e; rw [e] at hd; simp at hd)]
      simp only [Run.after, hd]
      exact ih (total + 1) ss (by omega) (by omega)
  intro k ss h1 h2
  exact key k 0 ss (by omega) (by omega)

/-- **C105 refuted.** A signal handled while encoded content is sent without TLS moves the position before the buffer. -/
theorem C105_signal_undefined_refuted (enc : Bytes) (total : Nat) (h : total < enc.length) (ss : List Sys) :
    (encodedRun false enc total (.intr :: ss)).st = .undef := by
  rw [encodedRun, if_neg (by omega)]
  rfl

end Fly.H2B
