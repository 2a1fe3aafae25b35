import Verif.H2Ack.Lemmas
import Verif.H2Frame.Props

/-! # C149 – C151: the exchange of settings -/

namespace Fly.H2A
open Fly.H2 (Settings)

/-- The settings of a new connection (src/v2.h:113-141), for the examples. -/
def fresh : Settings := ⟨4096, 1, 100, 65535, 16384, 4294967295, 65535⟩

/-! ## C149 — an acknowledgement leaves the client's settings in force -/

/-- **C149 (partial).** If the administrator configured no settings, then on every history without undefined
behaviour the client's settings in force are what its SETTINGS frames asked for, and the same as in the history
without acknowledgements (which always runs through).  Missing: configured settings (`C149_acknowledgement_overwrites_refuted`). -/
theorem C149_unconfigured_partial (p : Settings) (h : List Step) (s : St) (o : List Sent) (hr : run [] (St.init p) h = some (s, o)) :
    ∃ s' o', run [] (St.init p) (withoutAcks h) = some (s', o') ∧ s.peer = s'.peer ∧ s.peer = asked p h := by
  obtain ⟨s', o', e, _, _⟩ := run_calm [] (withoutAcks h) (inv_init p) (calm_withoutAcks h [])
  refine ⟨s', o', e, ?_⟩
  have hb : ∀ a, ((St.init p).at a).payload = [] := fun _ => rfl
  have h1 := run_bare h hb hr
  refine ⟨?_, h1⟩
  rw [h1, run_bare _ hb e, asked_withoutAcks]

example : ((run [] (St.init fresh) [.settings [(4, 1000), (1, 0)] [], .other, .flush 5, .ack, .ack]).map
    fun r => (value r.1.peer 4, value r.1.peer 1, r.2.map (·.kind))) = some (some 1000, some 0, [.settings, .settingsAck, .other]) := by decide

theorem ackPayload_setting (p : Settings) (id v : Nat) (h1 : id < 2 ^ 16) (h2 : v < 2 ^ 32) (rest : Bytes) :
    ackPayload p (Fly.H2.settingBytes id v ++ rest) = ackPayload (ackSetting p id (v % 65536)) rest := by
  have e : Fly.H2.settingBytes id v =
      [id / 256 % 256, id % 256, v / 16777216 % 256, v / 65536 % 256, v / 256 % 256, v % 256] := by
    simp [Fly.H2.settingBytes, Fly.H2.toBE]
  rw [e]
  simp only [List.cons_append, List.nil_append, ackPayload]
  congr 2
  · simp [Fly.H2.be]; omega
  · simp [Fly.H2.be]; omega

theorem value_ackSetting (p : Settings) (id w : Nat) (h1 : 1 ≤ id) (h6 : id ≤ 6) (hw : w < 65536) : value (ackSetting p id w) id = some w := by
  have : id = 1 ∨ id = 2 ∨ id = 3 ∨ id = 4 ∨ id = 5 ∨ id = 6 := by omega
  rcases this with h | h | h | h | h | h <;> subst h
  · rfl
  · rfl
  · rfl
  · rfl
  · unfold ackSetting Fly.H2.frameSizeMax
    simp only [Nat.reduceEqDiff, if_false, if_true]
    rw [if_neg (by omega)]; rfl
  · rfl

/-- The state after SETTINGS, sending and acknowledgement. -/
theorem exchange (env : List (Nat × Nat)) (p : Settings) (l : List (Nat × Nat)) (mem : Bytes) (n : Nat) :
    ∃ s o, run env (St.init p) [.settings l mem, .flush (n + 2), .ack] = some (s, o) ∧
      s.peer = ackPayload (peerSettings p l).1 (Fly.H2.settingsPayload (mem.take (6 * env.length)) env) := by
  have hc : Calm [] [.settings l mem, .flush (n + 2), .ack] := by
    simp [Calm, waits]
  obtain ⟨s, o, e, _, _⟩ := run_calm env _ (inv_init p) hc
  refine ⟨s, o, e, ?_⟩
  simp only [run, step, Option.bind_some] at e
  obtain ⟨s1, o1, e1, i1, _, hp, hy, hat⟩ := flush_inv (n + 2) (inv_settings (inv_init p) env mem l)
  rw [e1] at e
  simp only [Option.bind_some] at e
  have hc1 : s1.count = 1 := by rw [i1.count, hy]; rfl
  have hy1 : s1.yetack = [0] := by rw [hy]; rfl
  have hat0 : (s1.at 0).payload = Fly.H2.settingsPayload (mem.take (6 * env.length)) env := by
    rw [hat]; rfl
  have hl : Block.frame 0 ∈ s1.live := (i1.liveF 0).2 (.inr (by rw [hy1]; exact List.mem_cons_self))
  unfold onAck at e
  rw [if_neg (by omega), hy1] at e
  unfold ackLoop at e
  rw [if_pos hl] at e
  simp only [ackLoop, Option.map_some, Option.bind_some, Option.some.injEq, Prod.mk.injEq] at e
  rw [← e.1]
  show ackPayload s1.peer (s1.at 0).payload = _
  rw [hat0, hp]; rfl

/-- **C149 refuted.** The server's own setting, cut to 16 bits, takes the place of what the client asked for:
if one setting is configured, then after the client's SETTINGS frame `l`, whatever it asks for, after the answers have been sent and
the client has acknowledged them as it must, the client's value in force for that setting is the server's. -/
theorem C149_acknowledgement_overwrites_refuted (p : Settings) (id v : Nat) (h1 : 1 ≤ id) (h6 : id ≤ 6) (hv : v < 2 ^ 32)
    (l : List (Nat × Nat)) (mem : Bytes) (hm : 6 ≤ mem.length) (n : Nat) :
    ∃ s o, run [(id, v)] (St.init p) [.settings l mem, .flush (n + 2), .ack] = some (s, o) ∧ value s.peer id = some (v % 65536) := by
  obtain ⟨s, o, e, hp⟩ := exchange [(id, v)] p l mem n
  refine ⟨s, o, e, ?_⟩
  have hpay : Fly.H2.settingsPayload (mem.take (6 * [(id, v)].length)) [(id, v)] = Fly.H2.settingBytes id v ++ [] := by
    have := mem
    match mem, hm with
    | _ :: _ :: _ :: _ :: _ :: _ :: _, _ => simp [Fly.H2.settingsPayload, Fly.Buffer.writeAt, Fly.H2.settingBytes, Fly.H2.toBE]
  rw [hp, hpay, ackPayload_setting _ _ _ (by omega) hv]
  exact value_ackSetting _ _ _ h1 h6 (Nat.mod_lt _ (by omega))

/-- **C149 refuted.** So a generous window of the server, 64 KiB or a multiple of it, closes the client's: the
window for new responses becomes 0. -/
theorem C149_window_closed_refuted (p : Settings) (k : Nat) (hk : k < 65536) (l : List (Nat × Nat)) (mem : Bytes) (hm : 6 ≤ mem.length) :
    ∃ s o, run [(4, 65536 * k)] (St.init p) [.settings l mem, .flush 2, .ack] = some (s, o) ∧ s.peer.initialWindowSize = 0 := by
  obtain ⟨s, o, e, h⟩ := C149_acknowledgement_overwrites_refuted p 4 (65536 * k) (by omega) (by omega) (by omega) l mem hm 0
  refine ⟨s, o, e, ?_⟩
  rw [Nat.mul_mod_right] at h
  exact Option.some.inj h

example : ((run [(4, 65536)] (St.init fresh) [.settings [(4, 200000)] [7, 7, 7, 7, 7, 7], .flush 2]).map fun r => value r.1.peer 4) = some (some 200000) ∧
    ((run [(4, 65536)] (St.init fresh) [.settings [(4, 200000)] [7, 7, 7, 7, 7, 7], .flush 2, .ack]).map fun r => value r.1.peer 4) = some (some 0) := by decide

/-- **C149 refuted.** With two settings configured, bytes of memory that nobody wrote become the client's
settings: what the second half of the payload's memory held, read as a setting. -/
theorem C149_stray_memory_refuted (p : Settings) (a b : Nat × Nat) (ha : b.1 < 2 ^ 16 ∧ b.2 < 2 ^ 32) (id v : Nat) (h1 : 1 ≤ id) (h6 : id ≤ 6) (hv : v < 2 ^ 32)
    (l : List (Nat × Nat)) (junk : Bytes) (hj : junk.length = 6) :
    ∃ s o, run [a, b] (St.init p) [.settings l (junk ++ Fly.H2.settingBytes id v), .flush 2, .ack] = some (s, o) ∧
      value s.peer id = some (v % 65536) := by
  obtain ⟨s, o, e, hp⟩ := exchange [a, b] p l (junk ++ Fly.H2.settingBytes id v) 0
  refine ⟨s, o, e, ?_⟩
  have hpay : Fly.H2.settingsPayload ((junk ++ Fly.H2.settingBytes id v).take (6 * [a, b].length)) [a, b] =
      Fly.H2.settingBytes b.1 b.2 ++ (Fly.H2.settingBytes id v ++ []) := by
    have hl : (Fly.H2.settingBytes id v).length = 6 := by simp [Fly.H2.settingBytes, Fly.H2.toBE]
    have ht : (junk ++ Fly.H2.settingBytes id v).take (6 * [a, b].length) = junk ++ Fly.H2.settingBytes id v :=
      List.take_of_length_le (by rw [List.length_append, hl, hj]; simp)
    rw [ht]
    have := Fly.H2.C59_only_last_setting_sent_refuted [a] b.1 b.2 (junk ++ Fly.H2.settingBytes id v) (by rw [List.length_append, hj]; omega)
    rw [List.drop_append_of_le_length (by omega), List.drop_of_length_le (by omega)] at this
    simpa using this
  rw [hp, hpay, ackPayload_setting _ _ _ ha.1 ha.2, ackPayload_setting _ _ _ (by omega) hv]
  exact value_ackSetting _ _ _ h1 h6 (Nat.mod_lt _ (by omega))

example : ((run [(3, 100), (6, 20000)] (St.init fresh) [.settings [] ([9, 9, 9, 9, 9, 9] ++ [0, 4, 0, 0, 0, 3]), .flush 2, .ack]).map
    fun r => (value r.1.peer 4, value r.1.peer 3, value r.1.peer 6)) = some (some 3, some 100, some 20000) := by decide

/-! ## C150 — frames waiting to be sent outlive an acknowledgement -/

/-- **C150 (partial).** If no acknowledgement comes while a SETTINGS frame of the server is still waiting to be
sent, released memory is never used, and the frames are sent once each, in the order in which they were
queued.  Missing: an acknowledgement that overtakes a frame (`C150_overtaking_refuted`). -/
theorem C150_calm_partial (env : List (Nat × Nat)) (p : Settings) (h : List Step) (hc : Calm [] h) :
    ∃ s o, run env (St.init p) h = some (s, o) ∧ o.map (fun x => x.kind == .settings) = told [] h := by
  obtain ⟨s, o, e, _, m⟩ := run_calm env h (inv_init p) hc
  exact ⟨s, o, e, m⟩

example : Calm [] [.settings [] [], .flush 1, .other, .ack, .flush 3, .settings [(4, 5)] [], .flush 2, .ack, .ack] ∧
    told [] [.settings [] [], .flush 1, .other, .ack, .flush 3, .settings [(4, 5)] [], .flush 2, .ack, .ack] = [true, false, false, true, false] := by
  simp [Calm, waits, told]

/-- Needless acknowledgements are ignored: a second one changes nothing. -/
theorem C150_second_ack_ignored (env : List (Nat × Nat)) (p : Settings) (h : List Step) (hc : Calm [] (h ++ [.ack])) :
    run env (St.init p) (h ++ [.ack, .ack]) = run env (St.init p) (h ++ [.ack]) ∧ (run env (St.init p) (h ++ [.ack])).isSome := by
  have hsplit : ∀ (h : List Step) (w : List Bool), Calm w (h ++ [.ack]) → Calm w h ∧ true ∉ waitsAll w h := by
    intro h
    induction h with
    | nil => intro w hc; exact ⟨trivial, hc.1⟩
    | cons x h ih =>
      intro w hc
      cases x with
      | ack => obtain ⟨h1, h2⟩ := ih w hc.2; exact ⟨⟨hc.1, h1⟩, h2⟩
      | settings l mem => exact ih _ hc
      | other => exact ih _ hc
      | flush n => exact ih _ hc
  obtain ⟨hc', hw⟩ := hsplit h [] hc
  obtain ⟨s, o, e, i, _⟩ := run_calm env h (inv_init p) hc'
  obtain ⟨s1, e1, i1, hy⟩ := onAck_inv i hw
  have hc1 : s1.count = 0 := by rw [i1.count, hy]; rfl
  have e2 : onAck s1 = some s1 := by unfold onAck; rw [if_pos hc1]
  have r1 : run env s [.ack] = some (s1, []) := by simp [run, step, e1]
  have r2 : run env s [.ack, .ack] = some (s1, []) := by simp [run, step, e1, e2]
  rw [run_append, run_append, e]
  simp [r1, r2]

example : Calm [] ([.settings [] [], .flush 2] ++ [.ack]) := by simp [Calm, waits]

/-- **C150 refuted.** An acknowledgement that arrives together with a SETTINGS frame releases the server's
answer to that frame before it has been sent; sending it uses the released memory.  This holds after every
calm history `h`, whatever was configured. -/
theorem C150_overtaking_refuted (env : List (Nat × Nat)) (p : Settings) (h : List Step) (hc : Calm [] h) (l : List (Nat × Nat)) (mem : Bytes)
    (n : Nat) (hn : (waitsAll [] h).length < n) :
    run env (St.init p) (h ++ [.settings l mem, .ack, .flush n]) = none := by
  obtain ⟨s, o, e, i, _⟩ := run_calm env h (inv_init p) hc
  rw [run_append, e]
  simp only [Option.bind_some]
  have i2 := inv_settings i env mem l
  obtain ⟨s2, e2, h1, h2, h3, h4, h5, h6⟩ := ackLoop_some (onSettings env mem l s).yetack (onSettings env mem l s)
    (fun a ha => (i2.liveF a).2 (.inr ha)) i2.ndA
  have hy : s.next ∈ (onSettings env mem l s).yetack := by simp [onSettings, sendServerSettings, enqueue]
  have hcnt : (onSettings env mem l s).count ≠ 0 := by
    rw [i2.count]
    have := List.length_pos_of_mem hy
    omega
  have ea : onAck (onSettings env mem l s) = some s2 := by unfold onAck; rw [if_neg hcnt]; exact e2
  have hsend : s2.send = s.send ++ s.next :: [s.next + 1] := by rw [h2]; simp [onSettings, sendServerSettings, enqueue]
  have hlen : s.send.length < n := by
    have := congrArg List.length i.wait
    rw [List.length_map] at this
    omega
  have hf : flush n s2 = none := flush_none n hsend (fun hm => ((h5 _).1 hm).2 hy) hlen
  have : run env s [.settings l mem, .ack, .flush n] = none := by simp [run, step, ea, hf]
  rw [this]; rfl

/-- **C150 refuted.** A client that keeps to the protocol can do this: it sends SETTINGS, reads the answers,
and sends its acknowledgement right after new SETTINGS. -/
theorem C150_overtaking_compliant_refuted (env : List (Nat × Nat)) (p : Settings) (l l' : List (Nat × Nat)) (mem mem' : Bytes) (n : Nat) :
    Compliant [] 0 [.settings l mem, .flush 2, .settings l' mem', .ack, .flush (n + 1)] ∧
    run env (St.init p) [.settings l mem, .flush 2, .settings l' mem', .ack, .flush (n + 1)] = none := by
  constructor
  · simp [Compliant, waits]
  · exact C150_overtaking_refuted env p [.settings l mem, .flush 2] (by simp [Calm]) l' mem' (n + 1) (by simp [waitsAll, waits])

example : (run [] (St.init fresh) [.settings [] [], .flush 2, .settings [(4, 100000)] [], .ack]).isSome = true ∧
    run [] (St.init fresh) [.settings [] [], .flush 2, .settings [(4, 100000)] [], .ack, .flush 1] = none := by
  constructor
  · decide
  · exact (C150_overtaking_compliant_refuted [] fresh [] [(4, 100000)] [] [] 0).2

/-! ## C151 — the memory of frames is given back -/

/-- **C151 (partial).** If no settings are configured: when after a calm history everything waiting has been
sent and the client acknowledges, no frame is left in memory.  Missing: configured settings
(`C151_payloads_kept_refuted`). -/
theorem C151_given_back_partial (env : List (Nat × Nat)) (p : Settings) (h : List Step) (hc : Calm [] h) (n : Nat) (hn : (waitsAll [] h).length ≤ n) :
    ∃ s o, run env (St.init p) (h ++ [.flush n, .ack]) = some (s, o) ∧ (∀ a, .frame a ∉ s.live) ∧ (env = [] → s.live = []) := by
  obtain ⟨s, o, e, i, _⟩ := run_calm env h (inv_init p) hc
  obtain ⟨s1, o1, e1, i1, _, _⟩ := flush_inv n i
  rw [List.drop_of_length_le hn] at i1
  obtain ⟨s2, e2, i2, hy⟩ := onAck_inv i1 (by simp)
  have hf : ∀ a, Block.frame a ∉ s2.live := by
    intro a ha
    have hs2 : s2.send = [] := List.map_eq_nil_iff.1 i2.wait
    rcases (i2.liveF a).1 ha with hm | hm
    · rw [hs2] at hm; cases hm
    · rw [hy] at hm; cases hm
  have r : run env s [.flush n, .ack] = some (s2, o1) := by simp [run, step, e1, e2]
  have rr : run env (St.init p) (h ++ [.flush n, .ack]) = some (s2, o ++ o1) := by rw [run_append, e]; simp [r]
  refine ⟨s2, o ++ o1, rr, hf, ?_⟩
  intro he
  subst he
  have hb := no_payload (h ++ [.flush n, .ack]) (s := St.init p) (s' := s2) (o := o ++ o1) (fun _ => by simp [St.init]) rr
  apply List.eq_nil_iff_forall_not_mem.2
  intro b hb'
  cases b with
  | frame a => exact hf a hb'
  | payload a => exact hb a hb'

example : Calm [] [.settings [] [], .other, .flush 1] ∧ (waitsAll [] [.settings [] [], .other, .flush 1]).length ≤ 2 := by
  simp [Calm, waits, waitsAll]

/-- **C151 refuted.** If settings are configured, the payload of every SETTINGS frame the server ever sent stays
in memory for as long as the connection lasts, acknowledged or not: as many payloads as SETTINGS frames of
the client. -/
theorem C151_payloads_kept_refuted (env : List (Nat × Nat)) (hne : env ≠ []) (p : Settings) (h : List Step) (hro : Roomy env h)
    (s : St) (o : List Sent) (hr : run env (St.init p) h = some (s, o)) :
    (s.live.filter Block.isPayload).length = h.countP Step.isSettings := by
  have := (run_held env hne h (s := St.init p) (k := 0) ⟨fun a ha => by simp [St.init] at ha, rfl⟩ hro hr).len
  omega

example : ((run [(4, 65535)] (St.init fresh) [.settings [] [0, 0, 0, 0, 0, 0], .flush 2, .ack, .settings [] [0, 0, 0, 0, 0, 0], .flush 2, .ack]).map
    fun r => r.1.live) = some [.payload 2, .payload 0] := by decide

/-! ## C56: which SETTINGS are acknowledged -/

theorem peerSettings_ok (l : List (Nat × Nat)) (hl : ∀ q ∈ l, q.1 ≠ 5 ∧ q.1 ≠ 6) : ∀ p, (peerSettings p l).2 = true ↔ ∀ q ∈ l, Allowed q := by
  induction l with
  | nil => intro p; simp [peerSettings]
  | cons q l ih =>
    intro p
    obtain ⟨id, v⟩ := q
    have h0 := hl _ (List.mem_cons_self ..)
    have ih := ih fun q hq => hl q (List.mem_cons_of_mem _ hq)
    simp only at h0
    rw [List.forall_mem_cons]
    generalize (∀ q ∈ l, Allowed q) = Q at ih ⊢
    unfold peerSettings Fly.H2.applySetting
    simp only [Allowed, Fly.H2.windowSizeMax]
    by_cases h1 : id = 1
    · simp [h1, ih]
    by_cases h2 : id = 2
    · by_cases hv : v = 0 ∨ v = 1
      · have : v ≤ 1 := by omega
        simp [h2, hv, ih, this]
      · simp only [h2, hv]; simp; omega
    by_cases h3 : id = 3
    · simp [h3, ih]
    by_cases h4 : id = 4
    · by_cases hv : v ≤ 2147483647
      · have : ¬ 2147483647 < v := by omega
        simp [h4, this, ih, hv]
      · have : 2147483647 < v := by omega
        simp [h4, this, hv]
    simp [h1, h2, h3, h4, h0.1, h0.2, ih]

/-- **C56 (partial).** The two frames that answer a SETTINGS frame: the server's own settings, then an acknowledgement if all
values are allowed and another frame (GOAWAY) otherwise.  Missing: MAX_FRAME_SIZE and MAX_HEADER_LIST_SIZE
(`C56_zero_frame_size_accepted_refuted`, `C56_small_header_list_size_refused_refuted`). -/
theorem C56_acknowledged_partial (env : List (Nat × Nat)) (p : Settings) (l : List (Nat × Nat)) (mem : Bytes) (hl : ∀ q ∈ l, q.1 ≠ 5 ∧ q.1 ≠ 6) :
    ∃ s own k, run env (St.init p) [.settings l mem, .flush 2] = some (s, [⟨.settings, own⟩, ⟨k, []⟩]) ∧
      (k = .settingsAck ↔ ∀ q ∈ l, Allowed q) ∧ (k = .other ↔ ¬ ∀ q ∈ l, Allowed q) := by
  have key := peerSettings_ok l hl p
  have hr : ∃ s, run env (St.init p) [.settings l mem, .flush 2] =
      some (s, [⟨.settings, Fly.H2.settingsPayload (mem.take (6 * env.length)) env⟩, ⟨if (peerSettings p l).2 then .settingsAck else .other, []⟩]) := by
    cases hb : (Fly.H2.settingsPayload (mem.take (6 * env.length)) env).isEmpty <;>
      simp [run, step, onSettings, sendServerSettings, enqueue, St.init, flush, hb, pbfree]
  obtain ⟨s, hr⟩ := hr
  refine ⟨s, _, _, hr, ?_, ?_⟩
  · rw [← key]; cases (peerSettings p l).2 <;> simp
  · rw [← key]; cases (peerSettings p l).2 <;> simp

example : ∃ s, run [] (St.init fresh) [.settings [(1, 4096), (4, 70000)] [], .flush 2] = some (s, [⟨.settings, []⟩, ⟨.settingsAck, []⟩]) :=
  ⟨_, rfl⟩
example : ∃ s, run [] (St.init fresh) [.settings [(1, 4096), (2, 7)] [], .flush 2] = some (s, [⟨.settings, []⟩, ⟨.other, []⟩]) := ⟨_, rfl⟩

end Fly.H2A
