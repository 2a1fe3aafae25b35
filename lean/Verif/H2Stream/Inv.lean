import Verif.H2Stream.Lemmas
set_option linter.all false

namespace Fly.H2S

def noDispatch (o : List Out) : Prop := ∀ sid hs b d, Out.dispatch sid hs b d ∉ o

theorem respond_root (f : Frame) (x y : Ctx) (hh : x.s.headers = none) (h : respond f x = some y) : y = x := by
  unfold respond at h
  rw [hh] at h
  split at h
  · simp at h
  · simp only [Option.some.injEq] at h; exact h.symm

theorem quiet_nd {o : List Out} (h : ∀ a ∈ o, quiet a = true) : noDispatch o := by
  intro sid hs b d hm
  have := h _ hm
  simp [quiet] at this

theorem wu_nd {o : List Out} (h : ∀ a ∈ o, ∃ s n, a = Out.windowUpdate s n) : noDispatch o := by
  intro sid hs b d hm
  obtain ⟨s, n, h⟩ := h _ hm
  cases h

theorem nd_append {a b : List Out} (h1 : noDispatch a) (h2 : noDispatch b) : noDispatch (a ++ b) := by
  intro sid hs bd d hm
  rcases List.mem_append.1 hm with hm | hm
  · exact h1 _ _ _ _ hm
  · exact h2 _ _ _ _ hm

theorem pushPromise_out (f : Frame) (x y : Ctx) (h' : onPushPromise f x = some y) :
    Core x y ∧ y.s.headers = x.s.headers ∧ y.c.goaway = true ∧ ∃ o, y.o = x.o ++ o ∧ ∀ a ∈ o, quiet a = true := by
  unfold onPushPromise at h'
  simp only [Option.some.injEq] at h'; subst h'
  have e1 := q_when f (f.sid == 0) (Ctx.connErr protocolError) x (fun _ => q_connErr _ _ _)
  generalize x.when (f.sid == 0) (Ctx.connErr protocolError) = x1 at e1 ⊢
  have e2 := q_when f (!(x1.s.st == .open_ || x1.s.st == .halfRemote)) (Ctx.connErr protocolError) x1 (fun _ => q_connErr _ _ _)
  generalize x1.when (!(x1.s.st == .open_ || x1.s.st == .halfRemote)) (Ctx.connErr protocolError) = x2 at e2 ⊢
  have e3 := (q_connErr f protocolError x2).trans (q_connErr f protocolError (x2.connErr protocolError))
  have q := e1.trans (e2.trans e3)
  obtain ⟨o, eo, ko⟩ := q.out
  refine ⟨q.core.trans ⟨rfl, rfl, rfl, rfl, rfl, rfl, rfl, rfl, fun _ => rfl, fun _ _ => rfl⟩, q.headers, rfl, o ++ [.emergency], ?_, ?_⟩
  · simp only [Ctx.emergency, eo, List.append_assoc]
  · intro a ha; rcases List.mem_append.1 ha with ha | ha
    · exact ko a ha
    · simp at ha; subst ha; rfl

/-- Handling a frame for the connection itself. -/
theorem handle_root (f : Frame) (x y : Ctx) (h : handle f x = some y) (hid : x.s.id = 0) (hf : f.sid = 0)
    (hh : x.s.headers = none) :
    Core x y ∧ y.s.headers = none ∧ ∃ o, y.o = x.o ++ o ∧ openedIds o = [] ∧ noDispatch o ∧
      (y.c.goaway = false → f.type ≠ 0 ∧ ∀ sid, creditFor sid o = 0) := by
  by_cases h0 : f.type = 0
  · have h' : onData f x = some y := by unfold handle at h; rw [h0] at h; exact h
    obtain ⟨x1, x2, b, q1, g1, hpd, hbf, hbt⟩ := onData_cases f h0 x y h'
    obtain ⟨c2, cc2, s2, p2, r2, hd2, ⟨o2, e2, cr2, op2, w2⟩, bd2, dm2⟩ := parseData_cases _ _ _ _ _ hpd
    obtain ⟨o1, e1, k1⟩ := q1.out
    have hg : x2.c.goaway = true := c2.goaway (g1 hid)
    have hh2 : x2.s.headers = none := by rw [hd2, q1.headers, hh]
    cases b with
    | false =>
      have hy := hbf rfl; subst hy
      refine ⟨q1.core.trans (c2.trans ⟨rfl, rfl, rfl, rfl, rfl, rfl, rfl, rfl, fun _ => rfl, fun _ _ => rfl⟩), hh2,
        o1 ++ o2 ++ [.emergency], by simp [Ctx.emergency, e2, e1], ?_, ?_, by simp [Ctx.emergency]⟩
      · rw [openedIds_append, openedIds_append, openedIds_quiet o1 k1, op2]; rfl
      · exact nd_append (nd_append (quiet_nd k1) (wu_nd w2)) (quiet_nd (by simp [quiet]))
    | true =>
      obtain ⟨x3, q3, g3, eo3, hr⟩ := hbt rfl
      have := respond_root f x3 y (by rw [q3.headers, hh2]) hr
      subst this
      refine ⟨q1.core.trans (c2.trans q3.core), by rw [q3.headers, hh2], o1 ++ o2, by rw [eo3, e2, e1, List.append_assoc], ?_, ?_, ?_⟩
      · rw [openedIds_append, openedIds_quiet o1 k1, op2]; rfl
      · exact nd_append (quiet_nd k1) (wu_nd w2)
      · intro g; rw [g3, hg] at g; simp at g
  · by_cases h1 : f.type = 1
    · have h' : onHeaders f x = some y := by unfold handle at h; rw [h1] at h; exact h
      obtain ⟨x1, x3, q1, hn, q3, hr⟩ := onHeaders_cases f h1 x y h'
      obtain ⟨o1, e1, k1⟩ := q1.out
      obtain ⟨o3, e3, k3⟩ := q3.out
      have hh1 : x1.s.headers = none := by rw [q1.headers, hh]
      have hh3 : x3.s.headers = none := by rw [q3.headers]; show x1.s.headers.map _ = none; rw [hh1]; rfl
      have := respond_root f x3 y hh3 hr
      subst this
      have k13 : ∀ a ∈ o1 ++ o3, quiet a = true := by
        intro a ha; rcases List.mem_append.1 ha with ha | ha
        · exact k1 a ha
        · exact k3 a ha
      have c12 : Core x ({ x1 with s := { x1.s with headers := x1.s.headers.map (· ++ f.hdrs) } } : Ctx) :=
        q1.core.trans ⟨rfl, rfl, rfl, rfl, rfl, rfl, rfl, rfl, fun h => h, fun h => h⟩
      exact ⟨c12.trans q3.core, hh3, o1 ++ o3, by rw [e3]; show x1.o ++ o3 = _; rw [e1, List.append_assoc], openedIds_quiet _ k13,
        quiet_nd k13, fun _ => ⟨h0, fun sid => creditFor_quiet sid _ k13⟩⟩
    · by_cases h9 : f.type = 9
      · have h' : onContinuation f x = some y := by unfold handle at h; rw [h9] at h; exact h
        obtain ⟨x1, hne, _, _⟩ := onCont_cases f h9 x y h'
        exact absurd hf hne
      · by_cases h5 : f.type = 5
        · have h' : onPushPromise f x = some y := by unfold handle at h; rw [h5] at h; exact h
          obtain ⟨c, e, g, o, eo, ko⟩ := pushPromise_out f x y h'
          exact ⟨c, by rw [e, hh], o, eo, openedIds_quiet _ ko, quiet_nd ko, fun g' => by rw [g] at g'; simp at g'⟩
        · have q := handle_other f x y h h0 h1 h5 h9
          obtain ⟨o, eo, ko⟩ := q.out
          exact ⟨q.core, by rw [q.headers, hh], o, eo, openedIds_quiet _ ko, quiet_nd ko, fun _ => ⟨h0, fun sid => creditFor_quiet sid _ ko⟩⟩

/-- What holds of a connection after the frames `fs`, until it is given up. -/
structure Inv (fs : List Frame) (c : Conn) : Prop where
  count : c.count = c.streams.length + 1
  nodup : (c.streams.map (·.id)).Nodup
  range : ∀ s ∈ c.streams, s.id % 2 = 1 ∧ s.id ≤ c.maxSid
  fresh : ∀ f ∈ fs, f.sid ≤ c.maxSid
  sok : ∀ s ∈ c.streams, SOK fs s
  rootHd : c.root.headers = none
  rootId : c.root.id = 0
  conc : ∀ m, c.maxConc = some m → c.count ≤ max m 1
  ended : c.ended = true → c.goaway = true

theorem Inv.init (mb : Nat) (mc : Option Nat) : Inv [] { Conn.init mb with maxConc := mc } := by
  refine ⟨rfl, by simp [Conn.init], by simp [Conn.init], by simp, by simp [Conn.init], rfl, rfl, ?_, by simp [Conn.init]⟩
  intro m _
  show 1 ≤ max m 1
  omega

/-- Outputs of one frame: streams opened. -/
def OpenStep (c c' : Conn) (o : List Out) : Prop :=
  (openedIds o = [] ∧ c'.maxSid = c.maxSid) ∨
  ∃ sid, openedIds o = [sid] ∧ c.maxSid < sid ∧ sid % 2 = 1 ∧ c'.maxSid = sid

theorem fresh_stream (fs : List Frame) (sid : Nat) (h : ∀ f ∈ fs, f.sid ≠ sid) : SOK fs { id := sid } := by
  refine ⟨by simp, by simp, by simp, ?_, ?_⟩
  · have : hdrsOf sid fs = [] := by
      unfold hdrsOf
      rw [List.flatMap_eq_nil_iff]
      intro f hf
      have hf := List.mem_filter.1 hf
      have := h f hf.1
      simp [this] at hf
    simp [this]
  · intro _ _
    have : dataOf sid fs = [] := by
      unfold dataOf
      rw [List.flatMap_eq_nil_iff]
      intro f hf
      have hf := List.mem_filter.1 hf
      have := h f hf.1
      simp [this] at hf
    simp [this]

theorem map_replace_ids (l : List Stream) (s : Stream) :
    (l.map fun t => if t.id = s.id then s else t).map (·.id) = l.map (·.id) := by
  rw [List.map_map]
  apply List.map_congr_left
  intro t _
  simp only [Function.comp]
  split
  · next h => exact h.symm
  · rfl

/-- What one frame does, from a stream that is there. -/
structure StepOK (fs : List Frame) (f : Frame) (c c' : Conn) (o : List Out) : Prop where
  inv : c'.goaway = false → Inv (fs ++ [f]) c'
  opened : OpenStep c c' o
  good : DispatchGood (fs ++ [f]) o
  credit : PlainData f → c'.goaway = false → ∀ sid, creditFor sid o = if f.type = 0 ∧ (sid = 0 ∨ sid = f.sid) then f.length else 0
  goaway : c.goaway = true → c'.goaway = true
  maxConc : c'.maxConc = c.maxConc

theorem nd_good {fs : List Frame} {o : List Out} (h : noDispatch o) : DispatchGood fs o :=
  fun sid hs b d hm => absurd hm (h sid hs b d)

/-- `process` on a stream present in `c` (or the root). -/
theorem process_spec (fs : List Frame) (f : Frame) (c : Conn) (s : Stream) (o0 : List Out) (c' : Conn) (o' : List Out)
    (hI : Inv fs c) (hfr : f.sid ≤ c.maxSid) (hs : search c f.sid = some s) (h : process f ⟨c, s, o0⟩ = some (c', o')) :
    ∃ o, o' = o0 ++ o ∧ openedIds o = [] ∧ DispatchGood (fs ++ [f]) o ∧
      (PlainData f → c'.goaway = false → ∀ sid, creditFor sid o = if f.type = 0 ∧ (sid = 0 ∨ sid = f.sid) then f.length else 0) ∧
      c'.maxSid = c.maxSid ∧ c'.maxConc = c.maxConc ∧ (c.goaway = true → c'.goaway = true) ∧ (c'.goaway = false → Inv (fs ++ [f]) c') := by
  have hfresh : ∀ g ∈ fs ++ [f], g.sid ≤ c.maxSid := by
    intro g hg
    rcases List.mem_append.1 hg with hg | hg
    · exact hI.fresh g hg
    · simp at hg; subst hg; exact hfr
  unfold process at h
  split at h
  · simp only [Option.some.injEq, Prod.mk.injEq] at h
    obtain ⟨rfl, rfl⟩ := h
    have hgo : (Ctx.commit (Ctx.connErr protocolError ⟨c, s, o0⟩)).goaway = true := by unfold Ctx.commit; split <;> rfl
    refine ⟨[.goaway protocolError], rfl, rfl, nd_good (quiet_nd (by simp [quiet])), ?_, ?_, ?_, fun _ => hgo, ?_⟩
    · intro _ hg; rw [hgo] at hg; simp at hg
    · unfold Ctx.commit; split <;> rfl
    · unfold Ctx.commit; split <;> rfl
    · intro hg; rw [hgo] at hg; simp at hg
  · rw [Option.map_eq_some_iff] at h
    obtain ⟨y, hy, h⟩ := h
    simp only [Prod.mk.injEq] at h
    obtain ⟨rfl, rfl⟩ := h
    have hms : (Ctx.commit y).maxSid = y.c.maxSid := by unfold Ctx.commit; split <;> rfl
    have hmc : (Ctx.commit y).maxConc = y.c.maxConc := by unfold Ctx.commit; split <;> rfl
    have hgo : (Ctx.commit y).goaway = y.c.goaway := by unfold Ctx.commit; split <;> rfl
    by_cases h0 : f.sid = 0
    · have hsr : s = c.root := by
        unfold search at hs; rw [if_pos h0] at hs
        exact (Option.some.inj hs).symm
      subst hsr
      obtain ⟨co, hh, o, eo, oo, nd, cr⟩ := handle_root f _ y hy hI.rootId h0 hI.rootHd
      refine ⟨o, eo, oo, nd_good nd, ?_, by rw [hms, co.maxSid], by rw [hmc, co.maxConc], fun g => by rw [hgo]; exact co.goaway g, ?_⟩
      · intro _ hg sid
        rw [hgo] at hg
        obtain ⟨t0, cr⟩ := cr hg
        rw [cr sid]; simp [t0]
      · intro _
        have hyid : y.s.id = 0 := by rw [co.id]; exact hI.rootId
        have e : Ctx.commit y = { y.c with root := y.s } := by unfold Ctx.commit; rw [if_pos hyid]
        have hstr : y.c.streams = c.streams := co.streams
        have hmx : y.c.maxSid = c.maxSid := co.maxSid
        have hct : y.c.count = c.count := co.count
        have hmm : y.c.maxConc = c.maxConc := co.maxConc
        rw [e]
        refine ⟨?_, ?_, ?_, ?_, ?_, hh, hyid, ?_, co.ended hI.ended⟩
        · show y.c.count = y.c.streams.length + 1; rw [hct, hstr]; exact hI.count
        · show (y.c.streams.map _).Nodup; rw [hstr]; exact hI.nodup
        · show ∀ s ∈ y.c.streams, _ ∧ s.id ≤ y.c.maxSid; rw [hstr, hmx]; exact hI.range
        · show ∀ f ∈ fs ++ [_], f.sid ≤ y.c.maxSid; rw [hmx]; exact hfresh
        · show ∀ s ∈ y.c.streams, _; rw [hstr]
          intro t ht
          refine (hI.sok t ht).other f ?_
          have := (hI.range t ht).1
          rw [h0]; omega
        · show ∀ m, y.c.maxConc = some m → y.c.count ≤ _; rw [hmm, hct]; exact hI.conc
    · have hsm : s ∈ c.streams ∧ s.id = f.sid := by
        unfold search at hs; rw [if_neg h0] at hs
        have h1 := List.mem_of_find?_eq_some hs
        have h2 := List.find?_some hs
        exact ⟨h1, by simpa using h2⟩
      obtain ⟨co, sk, o, eo, oo, gd, cr⟩ := handle_spec fs f _ y hy hsm.2 h0 (hI.sok s hsm.1)
      refine ⟨o, eo, oo, gd, ?_, by rw [hms, co.maxSid], by rw [hmc, co.maxConc], fun g => by rw [hgo]; exact co.goaway g, ?_⟩
      · intro hp hg; rw [hgo] at hg; exact cr hp hg
      · intro hg
        rw [hgo] at hg
        have sk := sk hg
        have hyid : y.s.id = f.sid := by rw [co.id]; exact hsm.2
        have e : Ctx.commit y = { y.c with streams := y.c.streams.map fun t => if t.id = y.s.id then y.s else t } := by
          unfold Ctx.commit; rw [if_neg (by rw [hyid]; exact h0)]
        have hstr : y.c.streams = c.streams := co.streams
        have hmx : y.c.maxSid = c.maxSid := co.maxSid
        have hct : y.c.count = c.count := co.count
        have hmm : y.c.maxConc = c.maxConc := co.maxConc
        have hrt : y.c.root = c.root := co.root
        rw [e, hstr]
        refine ⟨?_, ?_, ?_, ?_, ?_, ?_, ?_, ?_, co.ended hI.ended⟩
        · show y.c.count = (c.streams.map _).length + 1; rw [hct, List.length_map]; exact hI.count
        · show ((c.streams.map _).map _).Nodup; rw [map_replace_ids]; exact hI.nodup
        · show ∀ s : Stream, s ∈ c.streams.map _ → _ ∧ s.id ≤ y.c.maxSid
          intro t ht
          rw [hmx]
          obtain ⟨u, hu, rfl⟩ := List.mem_map.1 ht
          split
          · next hid => rw [← hid]; exact hI.range u hu
          · exact hI.range u hu
        · show ∀ f ∈ fs ++ [_], f.sid ≤ y.c.maxSid; rw [hmx]; exact hfresh
        · show ∀ s ∈ c.streams.map _, _
          intro t ht
          obtain ⟨u, hu, rfl⟩ := List.mem_map.1 ht
          split
          · exact sk
          · next hid => exact (hI.sok u hu).other f (fun hh => hid (by rw [hyid, hh]))
        · show y.c.root.headers = none; rw [hrt]; exact hI.rootHd
        · show y.c.root.id = 0; rw [hrt]; exact hI.rootId
        · show ∀ m, y.c.maxConc = some m → y.c.count ≤ _; rw [hmm, hct]; exact hI.conc

theorem inv_goaway {fs : List Frame} {c : Conn} (h : Inv fs c) : Inv fs { c with goaway := true } :=
  ⟨h.count, h.nodup, h.range, h.fresh, h.sok, h.rootHd, h.rootId, h.conc, fun _ => rfl⟩

theorem search_mem {c : Conn} {sid : Nat} {s : Stream} {fs : List Frame} (hI : Inv fs c) (h : search c sid = some s) :
    sid ≤ c.maxSid := by
  unfold search at h
  split at h
  · omega
  · have h1 := List.mem_of_find?_eq_some h
    have h2 := List.find?_some h
    have := (hI.range s h1).2
    simp at h2; omega

theorem create_inv {fs : List Frame} {c : Conn} {sid : Nat} (hI : Inv fs c) (hr : refuse c sid = false) : Inv fs (create c sid) := by
  unfold refuse at hr
  simp only [Bool.or_eq_false_iff, decide_eq_false_iff_not, beq_eq_false_iff_ne] at hr
  obtain ⟨⟨h1, h2⟩, h3⟩ := hr
  refine ⟨?_, ?_, ?_, ?_, ?_, hI.rootHd, hI.rootId, ?_, hI.ended⟩
  · simp only [create, List.length_append, List.length_singleton, hI.count]
  · simp only [create, List.map_append, List.map_cons, List.map_nil]
    rw [List.nodup_append]
    refine ⟨hI.nodup, by simp, ?_⟩
    intro a ha b hb
    obtain ⟨s, hs, rfl⟩ := List.mem_map.1 ha
    simp at hb; subst hb
    have := (hI.range s hs).2
    omega
  · intro s hs
    simp only [create] at hs ⊢
    rcases List.mem_append.1 hs with hs | hs
    · have := hI.range s hs; omega
    · simp at hs; subst hs; show sid % 2 = 1 ∧ sid ≤ sid; omega
  · intro f hf; have := hI.fresh f hf; show f.sid ≤ sid; omega
  · intro s hs
    simp only [create] at hs
    rcases List.mem_append.1 hs with hs | hs
    · exact hI.sok s hs
    · simp at hs; subst hs
      refine fresh_stream fs sid ?_
      intro f hf; have := hI.fresh f hf; omega
  · intro m hm
    have hm : c.maxConc = some m := hm
    rw [hm] at h2
    simp at h2
    show c.count + 1 ≤ _
    omega

theorem search_create {c : Conn} {sid : Nat} (hr : refuse c sid = false) (hs : search c sid = none) :
    search (create c sid) sid = some { id := sid } := by
  unfold search at hs ⊢
  split at hs
  · simp at hs
  · next h0 =>
    rw [if_neg h0]
    simp only [create]
    rw [List.find?_append, hs]
    simp

/-- `stepFrame` after the size check. -/
def stepRest (c : Conn) (f : Frame) (o : List Out) : Option (Conn × List Out) :=
  match search c f.sid with
  | some s => process f ⟨c, s, o⟩
  | none =>
    if refuse c f.sid then some ({ c with goaway := true }, o ++ [.goaway protocolError])
    else process f ⟨create c f.sid, { id := f.sid }, o ++ [.opened f.sid]⟩

theorem stepFrame_eq (c : Conn) (f : Frame) (hg : c.goaway = false) (he : c.ended = false) :
    stepFrame c f = if c.maxFrame < f.length then stepRest { c with goaway := true } f [.goaway protocolError] else stepRest c f [] := by
  unfold stepFrame stepRest
  rw [if_neg (by simp [hg, he])]
  by_cases h : c.maxFrame < f.length
  · simp only [h, decide_true, if_true]; rfl
  · simp only [h, decide_false, if_false, Bool.false_eq_true]; rfl

theorem stepRest_spec (fs : List Frame) (f : Frame) (c c' : Conn) (o0 o : List Out) (hI : Inv fs c)
    (h0 : ∀ a ∈ o0, quiet a = true) (h : stepRest c f o0 = some (c', o)) : StepOK fs f c c' o := by
  unfold stepRest at h
  split at h
  · next s hs =>
    obtain ⟨o1, e, op, gd, cr, ms, mc, gg, iv⟩ := process_spec fs f c s o0 c' o hI (search_mem hI hs) hs h
    refine ⟨iv, .inl ⟨?_, ms⟩, ?_, ?_, gg, mc⟩
    · rw [e, openedIds_append, openedIds_quiet o0 h0, op]; rfl
    · rw [e]; exact good_append (good_quiet h0) gd
    · intro hp hg sid; rw [e, creditFor_append, creditFor_quiet sid o0 h0, cr hp hg sid, Nat.zero_add]
  · next hs =>
    split at h
    · simp only [Option.some.injEq, Prod.mk.injEq] at h
      obtain ⟨rfl, rfl⟩ := h
      refine ⟨by simp, .inl ⟨?_, rfl⟩, ?_, by simp, fun _ => rfl, rfl⟩
      · rw [openedIds_append, openedIds_quiet o0 h0]; rfl
      · exact good_append (good_quiet h0) (good_quiet (by simp [quiet]))
    · next hr =>
      have hr : refuse c f.sid = false := by simpa using hr
      obtain ⟨o1, e, op, gd, cr, ms, mc, gg, iv⟩ := process_spec fs f (create c f.sid) _ _ c' o (create_inv hI hr) (Nat.le_refl _)
        (search_create hr hs) h
      have hr' := hr
      unfold refuse at hr'
      simp only [Bool.or_eq_false_iff, decide_eq_false_iff_not, beq_eq_false_iff_ne] at hr'
      refine ⟨iv, .inr ⟨f.sid, ?_, by omega, by omega, ms⟩, ?_, ?_, gg, mc⟩
      · rw [e, openedIds_append, openedIds_append, openedIds_quiet o0 h0, op]; rfl
      · rw [e]
        refine good_append (good_append (good_quiet h0) (nd_good ?_)) gd
        intro sid hs b d hm; simp at hm
      · intro hp hg sid; rw [e, creditFor_append, creditFor_append, creditFor_quiet sid o0 h0, cr hp hg sid]
        simp [creditFor]

theorem stepFrame_spec (fs : List Frame) (f : Frame) (c c' : Conn) (o : List Out) (hI : Inv fs c) (hg : c.goaway = false)
    (h : stepFrame c f = some (c', o)) : StepOK fs f c c' o := by
  have he : c.ended = false := by
    cases he : c.ended
    · rfl
    · rw [hI.ended he] at hg; simp at hg
  rw [stepFrame_eq c f hg he] at h
  split at h
  · have := stepRest_spec fs f _ c' _ o (inv_goaway hI) (by simp [quiet]) h
    exact ⟨this.inv, this.opened, this.good, this.credit, fun _ => this.goaway rfl, this.maxConc⟩
  · exact stepRest_spec fs f c c' [] o hI (by simp) h

theorem filter_len (l : List Stream) (sid : Nat) (hn : (l.map (·.id)).Nodup) (h : ∃ s ∈ l, s.id = sid) :
    (l.filter fun s => s.id != sid).length + 1 = l.length := by
  induction l with
  | nil => simp at h
  | cons a l ih =>
    simp only [List.map_cons, List.nodup_cons] at hn
    by_cases ha : a.id = sid
    · have : l.filter (fun s => s.id != sid) = l := by
        rw [List.filter_eq_self]
        intro s hs
        have : s.id ≠ sid := fun e => hn.1 (List.mem_map.2 ⟨s, hs, by rw [e, ha]⟩)
        simpa using this
      rw [List.filter_cons]
      simp [ha, this]
    · rw [List.filter_cons]
      have ha' : (a.id != sid) = true := by simpa using ha
      rw [if_pos ha']
      have := ih hn.2 (by
        obtain ⟨s, hs, e⟩ := h
        rcases List.mem_cons.1 hs with rfl | hs
        · exact absurd e ha
        · exact ⟨s, hs, e⟩)
      simp only [List.length_cons]; omega

theorem finish_spec {fs : List Frame} {c : Conn} (hI : Inv fs c) (sid : Nat) : Inv fs (finish c sid).1 := by
  unfold finish
  split
  · next h =>
    rw [List.any_eq_true] at h
    obtain ⟨s, hs, h⟩ := h
    simp only [Bool.and_eq_true, beq_iff_eq] at h
    have hl := filter_len c.streams sid hI.nodup ⟨s, hs, h.1.1⟩
    have hc := hI.count
    refine ⟨?_, ?_, ?_, hI.fresh, ?_, hI.rootHd, hI.rootId, ?_, hI.ended⟩
    · show c.count - 1 = (c.streams.filter _).length + 1
      omega
    · exact List.Nodup.sublist (List.Sublist.map _ List.filter_sublist) hI.nodup
    · intro t ht; exact hI.range t (List.mem_filter.1 ht).1
    · intro t ht; exact hI.sok t (List.mem_filter.1 ht).1
    · intro m hm; have := hI.conc m hm; show c.count - 1 ≤ _; omega
  · exact hI

theorem finish_same (c : Conn) (sid : Nat) : (finish c sid).1.goaway = c.goaway ∧ (finish c sid).1.ended = c.ended ∧
    (finish c sid).1.maxSid = c.maxSid ∧ (finish c sid).1.maxConc = c.maxConc ∧ openedIds (finish c sid).2 = [] ∧
    (∀ s, creditFor s (finish c sid).2 = 0) ∧ noDispatch (finish c sid).2 := by
  unfold finish; split <;> exact ⟨rfl, rfl, rfl, rfl, rfl, fun _ => rfl, by intro a b c d h; simp at h⟩

/-- The ids still there after closing. -/
theorem finish_live (c : Conn) (sid : Nat) :
    (finish c sid).1.streams.map (·.id) = (c.streams.map (·.id)).filter (fun i => !(closedIds (finish c sid).2).contains i) := by
  unfold finish; split
  · show (c.streams.filter _).map _ = (c.streams.map _).filter (fun i => !([sid] : List Nat).contains i)
    rw [List.filter_map]
    congr 1
    apply List.filter_congr
    intro s _
    by_cases h : s.id = sid <;> simp [h]
  · show c.streams.map _ = (c.streams.map _).filter (fun i => !([] : List Nat).contains i)
    rw [List.filter_eq_self.2]
    intro a _; rfl

theorem finish_closed {fs : List Frame} {c : Conn} (hI : Inv fs c) (sid : Nat) : ∀ a ∈ closedIds (finish c sid).2, a ≤ c.maxSid := by
  unfold finish; split
  · next h =>
    rw [List.any_eq_true] at h
    obtain ⟨s, hs, h⟩ := h
    simp only [Bool.and_eq_true, beq_iff_eq] at h
    intro a ha
    have : a = sid := by simpa [closedIds] using ha
    subst this
    have := (hI.range s hs).2
    omega
  · intro a ha; simp [closedIds] at ha

theorem stepFrame_goaway (c : Conn) (f : Frame) (h : c.goaway = true) : stepFrame c f = some (c, []) := by
  unfold stepFrame; rw [h]; rfl

theorem framesOf_append (a b : List Ev) : framesOf (a ++ b) = framesOf a ++ framesOf b := by
  unfold framesOf; rw [List.filterMap_append]

theorem closedIds_append (a b : List Out) : closedIds (a ++ b) = closedIds a ++ closedIds b := by
  unfold closedIds; rw [List.filterMap_append]

/-- Giving up the connection is remembered; frames close no stream. -/
structure GC (x : Ctx) : Prop where
  g : ∀ a ∈ x.o, isGoaway a = true → x.c.goaway = true
  c : closedIds x.o = []

theorem gc_connErr (n : Nat) {x : Ctx} (h : GC x) : GC (x.connErr n) :=
  ⟨fun _ _ _ => rfl, by show closedIds (x.o ++ _) = []; rw [closedIds_append, h.c]; rfl⟩
theorem gc_emergency {x : Ctx} (h : GC x) : GC x.emergency :=
  ⟨fun _ _ _ => rfl, by show closedIds (x.o ++ _) = []; rw [closedIds_append, h.c]; rfl⟩
theorem gc_add {x y : Ctx} (o : List Out) (h : GC x) (hc : y.c.goaway = x.c.goaway) (ho : y.o = x.o ++ o)
    (hn : ∀ a ∈ o, isGoaway a = false) (hcl : closedIds o = []) : GC y := by
  refine ⟨?_, by rw [ho, closedIds_append, h.c, hcl]; rfl⟩
  intro a ha hg
  rw [ho] at ha
  rcases List.mem_append.1 ha with ha | ha
  · rw [hc]; exact h.g a ha hg
  · rw [hn a ha] at hg; simp at hg
theorem gc_same {x y : Ctx} (h : GC x) (hc : y.c.goaway = x.c.goaway) (ho : y.o = x.o) : GC y :=
  gc_add [] h hc (by rw [ho, List.append_nil]) (by simp) rfl
theorem gc_streamErr (n : Nat) {x : Ctx} (h : GC x) : GC (x.streamErr n) :=
  gc_add [.rst x.s.id n] h rfl rfl (by simp [isGoaway]) rfl
theorem gc_when {b : Bool} {g : Ctx → Ctx} {x : Ctx} (h : GC x) (hg : GC x → GC (g x)) : GC (x.when b g) := by
  unfold Ctx.when; split
  · exact hg h
  · exact h

theorem gc_parse {x y : Ctx} {len : Nat} {data : Bytes} {b : Bool} (h : GC x) (hp : parseData x len data = some (y, b)) : GC y := by
  obtain ⟨_, cc, _, _, _, _, ⟨o, e, _, _, w⟩, _, _⟩ := parseData_cases _ _ _ _ _ hp
  refine gc_add o h (by rw [cc]) e ?_ ?_
  · intro a ha; obtain ⟨s, n, rfl⟩ := w a ha; rfl
  · unfold closedIds
    rw [List.filterMap_eq_nil_iff]
    intro a ha
    obtain ⟨s, n, rfl⟩ := w a ha; rfl

theorem gc_respond {f : Frame} {x y : Ctx} (h : GC x) (hr : respond f x = some y) : GC y := by
  unfold respond at hr
  split at hr
  · split at hr
    · simp at hr
    · next hs _ =>
      simp only [Option.some.injEq] at hr; subst hr
      have : GC { x with s := { x.s with canResp := true }, o := x.o ++ [.dispatch x.s.id hs x.s.body x.s.discard] } :=
        gc_add [.dispatch x.s.id hs x.s.body x.s.discard] h rfl rfl (by simp [isGoaway]) rfl
      split
      · exact this
      · exact gc_emergency this
  · simp only [Option.some.injEq] at hr; subst hr; exact h

theorem gc_handle {f : Frame} {x y : Ctx} (h : GC x) (hh : handle f x = some y) : GC y := by
  unfold handle at hh
  split at hh
  · unfold onData at hh
    simp only at hh
    split at hh
    · simp at hh
    · next hp =>
      simp only [Option.some.injEq] at hh; subst hh
      exact gc_emergency (gc_parse (gc_when (gc_when h (gc_connErr _)) (gc_streamErr _)) hp)
    · next hp =>
      exact gc_respond (gc_when (gc_parse (gc_when (gc_when h (gc_connErr _)) (gc_streamErr _)) hp) (fun h => gc_same h rfl rfl)) hh
  · unfold onHeaders at hh
    simp only at hh
    split at hh
    · simp at hh
    · refine gc_respond (gc_when (gc_when (gc_when ?_ (gc_connErr _)) (fun h => gc_same h rfl rfl)) (fun h => gc_same h rfl rfl)) hh
      refine gc_same (x := Ctx.when _ _ _) ?_ rfl rfl
      exact gc_when (gc_when (gc_when (gc_when h (gc_connErr protocolError)) (gc_streamErr streamClosed))
        (fun h => gc_same h rfl rfl)) (fun h => gc_same h rfl rfl)
  · unfold onPriority at hh
    simp only [Option.some.injEq] at hh; subst hh
    exact gc_when (gc_when h (gc_connErr _)) (gc_streamErr _)
  · unfold onRst at hh
    simp only [Option.some.injEq] at hh; subst hh
    refine gc_same (x := Ctx.when _ _ _) ?_ rfl rfl
    exact gc_when (gc_when (gc_when h (gc_connErr protocolError)) (gc_connErr protocolError)) (gc_connErr frameSizeError)
  · unfold onSettings at hh
    simp only at hh
    have := gc_when (b := f.length % 6 != 0) (gc_when (b := f.sid != 0) h (gc_connErr protocolError)) (gc_connErr frameSizeError)
    split at hh
    · simp only [Option.some.injEq] at hh; subst hh; exact this
    · split at hh
      · simp only [Option.some.injEq] at hh; subst hh; exact gc_connErr _ this
      · simp only [Option.some.injEq] at hh; subst hh; exact gc_connErr _ this
      · simp only [Option.some.injEq] at hh; subst hh
        exact gc_add [.settingsAck] this rfl rfl (by simp [isGoaway]) rfl
  · unfold onPushPromise at hh
    simp only [Option.some.injEq] at hh; subst hh
    exact gc_emergency (gc_connErr _ (gc_connErr _ (gc_when (gc_when h (gc_connErr _)) (gc_connErr _))))
  · unfold onPing at hh
    simp only [Option.some.injEq] at hh; subst hh
    have := gc_when (b := f.length != 8) (gc_when (b := f.sid != 0) h (gc_connErr protocolError)) (gc_connErr frameSizeError)
    exact gc_add [.pong] this rfl rfl (by simp [isGoaway]) rfl
  · unfold onGoaway at hh
    simp only [Option.some.injEq] at hh; subst hh
    have := gc_when (b := f.sid != 0) h (gc_connErr protocolError)
    refine gc_when (g := Ctx.connErr 0) ?_ (gc_connErr _)
    exact ⟨fun _ _ _ => rfl, this.c⟩
  · unfold onWindowUpdate at hh
    simp only at hh
    have := gc_when (b := f.increment == 0 && f.sid != 0) (gc_when (b := f.increment == 0 && f.sid == 0)
      (gc_when (b := f.length != 4) h (gc_connErr frameSizeError)) (gc_streamErr protocolError)) (gc_connErr protocolError)
    split at hh
    · simp only [Option.some.injEq] at hh; subst hh; exact gc_same this rfl rfl
    · simp only [Option.some.injEq] at hh; subst hh; exact gc_same this rfl rfl
  · unfold onContinuation at hh
    split at hh
    · simp at hh
    · simp only [Option.some.injEq] at hh; subst hh
      refine gc_when ?_ (fun h => gc_same h rfl rfl)
      have := gc_when (b := endHeaders f) h (gc_connErr protocolError)
      exact gc_same this rfl rfl
  · simp only [Option.some.injEq] at hh; subst hh; exact h

theorem gc_process {f : Frame} {x : Ctx} {c' : Conn} {o : List Out} (h : GC x) (hp : process f x = some (c', o)) :
    (∀ a ∈ o, isGoaway a = true → c'.goaway = true) ∧ closedIds o = [] := by
  have hgo : ∀ y : Ctx, (Ctx.commit y).goaway = y.c.goaway := by intro y; unfold Ctx.commit; split <;> rfl
  unfold process at hp
  split at hp
  · simp only [Option.some.injEq, Prod.mk.injEq] at hp
    obtain ⟨rfl, rfl⟩ := hp
    have := gc_connErr protocolError h
    exact ⟨by rw [hgo]; exact this.g, this.c⟩
  · rw [Option.map_eq_some_iff] at hp
    obtain ⟨y, hy, hp⟩ := hp
    simp only [Prod.mk.injEq] at hp
    obtain ⟨rfl, rfl⟩ := hp
    have := gc_handle h hy
    exact ⟨by rw [hgo]; exact this.g, this.c⟩

theorem gc_step {f : Frame} {c c' : Conn} {o : List Out} (h : stepFrame c f = some (c', o)) :
    (∀ a ∈ o, isGoaway a = true → c'.goaway = true) ∧ closedIds o = [] := by
  unfold stepFrame at h
  split at h
  · simp only [Option.some.injEq, Prod.mk.injEq] at h
    obtain ⟨rfl, rfl⟩ := h
    exact ⟨by simp, rfl⟩
  · simp only at h
    by_cases hb : c.maxFrame < f.length
    · simp only [hb, decide_true, if_true] at h
      split at h
      · exact gc_process ⟨fun _ _ _ => rfl, rfl⟩ h
      · split at h
        · simp only [Option.some.injEq, Prod.mk.injEq] at h
          obtain ⟨rfl, rfl⟩ := h
          exact ⟨fun _ _ _ => rfl, rfl⟩
        · exact gc_process ⟨fun _ _ _ => rfl, rfl⟩ h
    · simp only [hb, decide_false, if_false, Bool.false_eq_true] at h
      split at h
      · exact gc_process ⟨by simp, rfl⟩ h
      · split at h
        · simp only [Option.some.injEq, Prod.mk.injEq] at h
          obtain ⟨rfl, rfl⟩ := h
          exact ⟨fun _ _ _ => rfl, rfl⟩
        · exact gc_process ⟨by simp [isGoaway], rfl⟩ h

/-- Strictly increasing odd numbers above `m`. -/
def Rising (m : Nat) : List Nat → Prop
  | [] => True
  | a :: l => m < a ∧ a % 2 = 1 ∧ Rising a l

theorem rising_gt {m : Nat} {l : List Nat} (h : Rising m l) : ∀ a ∈ l, m < a ∧ a % 2 = 1 := by
  induction l generalizing m with
  | nil => simp
  | cons b l ih =>
    intro a ha
    rcases List.mem_cons.1 ha with rfl | ha
    · exact ⟨h.1, h.2.1⟩
    · have := ih h.2.2 a ha; have := h.1; omega

theorem rising_pairwise {m : Nat} {l : List Nat} (h : Rising m l) : l.Pairwise (· < ·) := by
  induction l generalizing m with
  | nil => simp
  | cons b l ih => exact List.Pairwise.cons (fun a ha => (rising_gt h.2.2 a ha).1) (ih h.2.2)

/-- Everything about a run. -/
structure RunOK (fs : List Frame) (es : List Ev) (c c' : Conn) (o : List Out) : Prop where
  inv : c'.goaway = false → Inv (fs ++ framesOf es) c'
  rising : Rising c.maxSid (openedIds o)
  last : ∀ a ∈ openedIds o, a ≤ c'.maxSid
  top : c'.maxSid = c.maxSid ∨ c'.maxSid ∈ openedIds o
  maxSid : c.maxSid ≤ c'.maxSid
  credit : AllPlain (framesOf es) → c'.goaway = false → ∀ sid, creditFor sid o =
    (((framesOf es).filter fun f => f.type == 0 && (sid == 0 || sid == f.sid)).map (·.length)).sum
  goaway : c.goaway = true → c'.goaway = true ∧ ∀ a ∈ o, ∃ sid, a = .closed sid
  maxConc : c'.maxConc = c.maxConc
  gone : ∀ a ∈ o, isGoaway a = true → c'.goaway = true
  closed : c'.goaway = false → ∀ a ∈ closedIds o, a ≤ c'.maxSid
  live : c'.goaway = false → c'.streams.map (·.id) =
    (c.streams.map (·.id) ++ openedIds o).filter fun i => !(closedIds o).contains i

/-- The ids of the live streams after one frame. -/
theorem commit_ids (y : Ctx) : (Ctx.commit y).streams.map (·.id) = y.c.streams.map (·.id) := by
  unfold Ctx.commit; split
  · rfl
  · exact map_replace_ids _ _

theorem process_ids (fs : List Frame) (f : Frame) (c : Conn) (s : Stream) (o0 : List Out) (c' : Conn) (o' : List Out)
    (hI : Inv fs c) (hs : search c f.sid = some s) (h : process f ⟨c, s, o0⟩ = some (c', o')) :
    c'.streams.map (·.id) = c.streams.map (·.id) := by
  unfold process at h
  split at h
  · simp only [Option.some.injEq, Prod.mk.injEq] at h
    obtain ⟨rfl, rfl⟩ := h
    exact commit_ids _
  · rw [Option.map_eq_some_iff] at h
    obtain ⟨y, hy, h⟩ := h
    simp only [Prod.mk.injEq] at h
    obtain ⟨rfl, rfl⟩ := h
    rw [commit_ids]
    by_cases h0 : f.sid = 0
    · have hsr : s = c.root := by
        unfold search at hs; rw [if_pos h0] at hs
        exact (Option.some.inj hs).symm
      subst hsr
      obtain ⟨co, _⟩ := handle_root f _ y hy hI.rootId h0 hI.rootHd
      rw [co.streams]
    · have hsm : s ∈ c.streams ∧ s.id = f.sid := by
        unfold search at hs; rw [if_neg h0] at hs
        have h1 := List.mem_of_find?_eq_some hs
        have h2 := List.find?_some hs
        exact ⟨h1, by simpa using h2⟩
      obtain ⟨co, _⟩ := handle_spec fs f _ y hy hsm.2 h0 (hI.sok s hsm.1)
      rw [co.streams]

theorem stepFrame_ids (fs : List Frame) (f : Frame) (c c' : Conn) (o : List Out) (hI : Inv fs c) (hg : c.goaway = false)
    (h : stepFrame c f = some (c', o)) : c'.streams.map (·.id) = c.streams.map (·.id) ++ openedIds o := by
  have st := stepFrame_spec fs f c c' o hI hg h
  have he : c.ended = false := by
    cases he : c.ended
    · rfl
    · rw [hI.ended he] at hg; simp at hg
  have key : ∀ (d : Conn) (o0 : List Out), Inv fs d → (∀ a ∈ o0, quiet a = true) → stepRest d f o0 = some (c', o) →
      c'.streams.map (·.id) = d.streams.map (·.id) ++ openedIds o := by
    intro d o0 hd h0 h
    have h' := h
    unfold stepRest at h
    split at h
    · next s hs =>
      obtain ⟨o1, e, op, _⟩ := process_spec fs f d s o0 c' o hd (search_mem hd hs) hs h
      rw [process_ids fs f d s o0 c' o hd hs h, e, openedIds_append, openedIds_quiet o0 h0, op, List.append_nil, List.append_nil]
    · next hs =>
      split at h
      · simp only [Option.some.injEq, Prod.mk.injEq] at h
        obtain ⟨rfl, rfl⟩ := h
        rw [openedIds_append, openedIds_quiet o0 h0]
        exact (List.append_nil _).symm
      · next hr =>
        have hr : refuse d f.sid = false := by simpa using hr
        obtain ⟨o1, e, op, _⟩ := process_spec fs f (create d f.sid) _ _ c' o (create_inv hd hr) (Nat.le_refl _) (search_create hr hs) h
        rw [process_ids fs f (create d f.sid) _ _ c' o (create_inv hd hr) (search_create hr hs) h, e, openedIds_append, openedIds_append,
          openedIds_quiet o0 h0, op]
        simp [create, openedIds]
  rw [stepFrame_eq c f hg he] at h
  split at h
  · exact key { c with goaway := true } [.goaway protocolError] (inv_goaway hI) (by simp [quiet]) h
  · exact key c [] hI (by simp) h

theorem run_spec : ∀ (es : List Ev) (fs : List Frame) (c c' : Conn) (o : List Out), (c.goaway = false → Inv fs c) →
    run c es = some (c', o) → RunOK fs es c c' o
  | [], fs, c, c', o, hI, h => by
    simp only [run, Option.some.injEq, Prod.mk.injEq] at h
    obtain ⟨rfl, rfl⟩ := h
    refine ⟨fun g => by rw [show fs ++ framesOf [] = fs from List.append_nil fs]; exact hI g, trivial, by simp [openedIds], .inl rfl, Nat.le_refl _,
      fun _ _ _ => rfl, fun g => ⟨g, by simp⟩, rfl, by simp, by simp [closedIds], ?_⟩
    intro _
    rw [List.filter_eq_self.2]
    · simp [openedIds]
    · intro a _; rfl
  | .finish sid :: es, fs, c, c', o, hI, h => by
    simp only [run, step] at h
    split at h
    · simp at h
    · next c1 o1 h1 =>
      simp only [Option.some.injEq, Prod.mk.injEq] at h
      obtain ⟨rfl, rfl⟩ := h
      obtain ⟨e1, e2, e3, e4, e5, e6, e7⟩ := finish_same c sid
      have := run_spec es fs (finish c sid).1 _ _ (fun g => finish_spec (hI (by rw [e1] at g; exact g)) sid) h1
      have hf : framesOf (.finish sid :: es) = framesOf es := rfl
      have hcl : ∀ a ∈ (finish c sid).2, ∃ s, a = .closed s := by
        unfold finish; split <;> simp
      have hop : openedIds ((finish c sid).2 ++ o1) = openedIds o1 := by rw [openedIds_append, e5]; rfl
      have hg0 : c1.goaway = false → c.goaway = false := by
        intro g
        cases hg : c.goaway
        · rfl
        · rw [(this.goaway (by rw [e1, hg])).1] at g; simp at g
      refine ⟨by rw [hf]; exact this.inv, by rw [hop, ← e3]; exact this.rising, by rw [hop]; exact this.last,
        by rw [hop, ← e3]; exact this.top, by rw [← e3]; exact this.maxSid, ?_, ?_, by rw [this.maxConc, e4], ?_, ?_, ?_⟩
      · rw [hf]
        intro hp hg s
        rw [creditFor_append, e6, Nat.zero_add, this.credit hp hg s]
      · intro g
        rw [← e1] at g
        refine ⟨(this.goaway g).1, ?_⟩
        intro a ha
        rcases List.mem_append.1 ha with ha | ha
        · exact hcl a ha
        · exact (this.goaway g).2 a ha
      · intro a ha hga
        rcases List.mem_append.1 ha with ha | ha
        · obtain ⟨s, rfl⟩ := hcl a ha; simp [isGoaway] at hga
        · exact this.gone a ha hga
      · intro g a ha
        rw [closedIds_append] at ha
        rcases List.mem_append.1 ha with ha | ha
        · have h3 := finish_closed (hI (hg0 g)) sid a ha
          have h4 := this.maxSid
          omega
        · exact this.closed g a ha
      · intro g
        rw [this.live g, finish_live, hop, closedIds_append]
        rw [List.filter_append, List.filter_append, List.filter_filter]
        congr 1
        · apply List.filter_congr
          intro a _
          rw [List.contains_append, Bool.not_or, Bool.and_comm]
        · apply List.filter_congr
          intro a ha
          have h1 := (rising_gt this.rising a ha).1
          have : (closedIds (finish c sid).2).contains a = false := by
            rw [List.contains_eq_mem]
            simp only [decide_eq_false_iff_not]
            intro hm
            have := finish_closed (hI (hg0 g)) sid a hm
            omega
          rw [List.contains_append, this, Bool.false_or]
  | .frame f :: es, fs, c, c', o, hI, h => by
    simp only [run, step] at h
    split at h
    · simp at h
    · next c1 o1 h1 =>
      split at h
      · simp at h
      · next c2 o2 h2 =>
        simp only [Option.some.injEq, Prod.mk.injEq] at h
        obtain ⟨rfl, rfl⟩ := h
        have hf : framesOf (.frame f :: es) = f :: framesOf es := rfl
        cases hg : c.goaway with
        | true =>
          rw [stepFrame_goaway c f hg] at h1
          simp only [Option.some.injEq, Prod.mk.injEq] at h1
          obtain ⟨rfl, rfl⟩ := h1
          have := run_spec es fs c _ _ hI h2
          have g := (this.goaway hg).1
          exact ⟨by rw [g]; simp, this.rising, this.last, this.top, this.maxSid, by rw [g]; simp, this.goaway, this.maxConc, this.gone,
            by rw [g]; simp, by rw [g]; simp⟩
        | false =>
          have st := stepFrame_spec fs f c c1 o1 (hI hg) hg h1
          have gs := gc_step h1
          have ids := stepFrame_ids fs f c c1 o1 (hI hg) hg h1
          have rn := run_spec es (fs ++ [f]) c1 _ _ st.inv h2
          have hg1 : c2.goaway = false → c1.goaway = false := by
            intro g
            cases g1 : c1.goaway
            · rfl
            · rw [(rn.goaway g1).1] at g; simp at g
          refine ⟨?_, ?_, ?_, ?_, ?_, ?_, by rw [hg]; simp, by rw [rn.maxConc, st.maxConc], ?_, ?_, ?_⟩
          · intro g; rw [hf]
            have := rn.inv g
            rwa [List.append_assoc] at this
          · rw [openedIds_append]
            rcases st.opened with ⟨e, m⟩ | ⟨sid, e, a, b, m⟩
            · rw [e, ← m]; exact rn.rising
            · rw [e]; exact ⟨a, b, by rw [← m]; exact rn.rising⟩
          · intro a ha
            rw [openedIds_append] at ha
            rcases List.mem_append.1 ha with ha | ha
            · rcases st.opened with ⟨e, m⟩ | ⟨sid, e, _, _, m⟩
              · rw [e] at ha; simp at ha
              · rw [e] at ha; simp at ha; subst ha; rw [← m]; exact rn.maxSid
            · exact rn.last a ha
          · rw [openedIds_append]
            rcases st.opened with ⟨e, m⟩ | ⟨sid, e, _, _, m⟩
            · rw [e, ← m]; exact rn.top
            · rw [e]
              rcases rn.top with t | t
              · right; rw [t, m]; simp
              · right; exact List.mem_append_right _ t
          · have := rn.maxSid
            rcases st.opened with ⟨e, m⟩ | ⟨sid, e, _, _, m⟩ <;> omega
          · intro hp g sid
            rw [hf] at hp ⊢
            rw [creditFor_append, st.credit (hp f (by simp)) (hg1 g) sid, rn.credit (fun g hg => hp g (by simp [hg])) g sid]
            by_cases hc : f.type = 0 ∧ (sid = 0 ∨ sid = f.sid)
            · have : (f.type == 0 && (sid == 0 || sid == f.sid)) = true := by simpa using hc
              rw [if_pos hc, List.filter_cons, if_pos this]; rfl
            · have : ¬ (f.type == 0 && (sid == 0 || sid == f.sid)) = true := by simpa using hc
              rw [if_neg hc, List.filter_cons, if_neg this, Nat.zero_add]
          · intro a ha hga
            rcases List.mem_append.1 ha with ha | ha
            · exact (rn.goaway (gs.1 a ha hga)).1
            · exact rn.gone a ha hga
          · intro g a ha
            rw [closedIds_append, gs.2] at ha
            exact rn.closed g a ha
          · intro g
            rw [rn.live g, ids, closedIds_append, gs.2, openedIds_append, List.append_assoc]; rfl

end Fly.H2S
