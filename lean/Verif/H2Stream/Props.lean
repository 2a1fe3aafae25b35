import Verif.H2Stream.Inv

/-! # Properties of HTTP/2 frame dispatch -/

namespace Fly.H2S

/-! ## Frames used in the examples -/

/-- An empty SETTINGS frame, the first a client sends. -/
def fSettings : Frame := { type := 4, flags := 0, sid := 0, length := 0 }
/-- HEADERS with END_HEADERS, and END_STREAM if asked. -/
def fHeaders (sid : Nat) (hs : List (Bytes × Bytes)) (fin : Bool) : Frame :=
  { type := 1, flags := if fin then 5 else 4, sid := sid, length := 20, hdrs := hs }
/-- DATA without padding. -/
def fData (sid : Nat) (d : Bytes) (fin : Bool) : Frame :=
  { type := 0, flags := if fin then 1 else 0, sid := sid, length := d.length, data := d }
def fRst (sid : Nat) : Frame := { type := 3, flags := 0, sid := sid, length := 4 }
def fWindow (sid n : Nat) : Frame := { type := 8, flags := 0, sid := sid, length := 4, increment := n }

def getH : List (Bytes × Bytes) := [(b!":method", b!"GET"), (b!":path", b!"/")]
def postH (n : Bytes) : List (Bytes × Bytes) := [(b!":method", b!"POST"), (b!":path", b!"/"), (b!"content-length", n)]

/-- Outputs of a history on a fresh connection. -/
def outs (es : List Ev) : Option (List Out) := (run (Conn.init 1000) es).map (·.2)

/-! ## C12 — stream identifiers -/

/-- **C12.** On every history, the streams the client opens have odd identifiers, each greater than all
before. -/
theorem C12_stream_ids_odd_and_growing (maxBody : Nat) (es : List Ev) (c : Conn) (o : List Out)
    (h : run (Conn.init maxBody) es = some (c, o)) :
    (openedIds o).Pairwise (· < ·) ∧ ∀ sid ∈ openedIds o, sid % 2 = 1 := by
  have r := run_spec es [] (Conn.init maxBody) c o (fun _ => Inv.init maxBody none) h
  exact ⟨rising_pairwise r.rising, fun sid hs => (rising_gt r.rising sid hs).2⟩

/-- **C12.** On a live connection, a frame for a stream that is not there opens it if its identifier is
odd and greater than all opened before, and ends the connection otherwise. -/
theorem C12_new_stream_accepted_iff (maxBody : Nat) (es : List Ev) (c : Conn) (o : List Out)
    (h : run (Conn.init maxBody) es = some (c, o)) (hg : c.goaway = false)
    (f : Frame) (hf : f.sid ≠ 0) (hn : f.sid ∉ c.streams.map (·.id)) (c' : Conn) (o' : List Out)
    (hs : stepFrame c f = some (c', o')) :
    ((f.sid % 2 = 1 ∧ ∀ sid ∈ openedIds o, sid < f.sid) → openedIds o' = [f.sid]) ∧
    (¬ (f.sid % 2 = 1 ∧ ∀ sid ∈ openedIds o, sid < f.sid) →
      openedIds o' = [] ∧ c'.goaway = true ∧ Out.goaway protocolError ∈ o') := by
  have r := run_spec es [] (Conn.init maxBody) c o (fun _ => Inv.init maxBody none) h
  have I := r.inv hg
  have mc : c.maxConc = none := r.maxConc
  have he : c.ended = false := by
    cases he : c.ended
    · rfl
    · rw [I.ended he] at hg; simp at hg
  have hsr : ∀ b, search { c with goaway := b } f.sid = none := by
    intro b
    unfold search; rw [if_neg hf]
    rw [List.find?_eq_none]
    intro s hs; simp only [beq_iff_eq]
    intro e; exact hn (List.mem_map.2 ⟨s, hs, e⟩)
  have hrf : ∀ b, refuse { c with goaway := b } f.sid = (decide (f.sid ≤ c.maxSid) || f.sid % 2 == 0) := by
    intro b; simp [refuse, mc]
  have hmax : (∀ sid ∈ openedIds o, sid < f.sid) ↔ c.maxSid < f.sid := by
    constructor
    · intro ha
      rcases r.top with t | t
      · rw [t]; show 0 < f.sid; omega
      · exact ha _ t
    · intro ha sid hsid
      have := r.last sid hsid; omega
  rw [hmax]
  have key : ∀ b o0, (∀ a ∈ o0, quiet a = true) → stepRest { c with goaway := b } f o0 = some (c', o') →
      ((f.sid % 2 = 1 ∧ c.maxSid < f.sid) → openedIds o' = [f.sid]) ∧
      (¬ (f.sid % 2 = 1 ∧ c.maxSid < f.sid) → openedIds o' = [] ∧ c'.goaway = true ∧ Out.goaway protocolError ∈ o') := by
    intro b o0 h0 hr
    have Ib : Inv ([] ++ framesOf es) { c with goaway := b } :=
      ⟨I.count, I.nodup, I.range, I.fresh, I.sok, I.rootHd, I.rootId, I.conc, by rw [he]; simp⟩
    unfold stepRest at hr
    rw [hsr] at hr
    simp only at hr
    split at hr
    · next hrr =>
      rw [hrf] at hrr
      simp only [Bool.or_eq_true, decide_eq_true_eq, beq_iff_eq] at hrr
      simp only [Option.some.injEq, Prod.mk.injEq] at hr
      obtain ⟨rfl, rfl⟩ := hr
      refine ⟨fun ⟨a, b⟩ => by omega, fun _ => ⟨?_, rfl, by simp⟩⟩
      rw [openedIds_append, openedIds_quiet o0 h0]; rfl
    · next hrr =>
      have hrr : refuse { c with goaway := b } f.sid = false := by simpa using hrr
      obtain ⟨o1, e, op, _⟩ := process_spec _ f _ _ _ c' o' (create_inv Ib hrr) (Nat.le_refl _) (search_create hrr (hsr b)) hr
      rw [hrf] at hrr
      simp only [Bool.or_eq_false_iff, decide_eq_false_iff_not, beq_eq_false_iff_ne] at hrr
      refine ⟨fun _ => ?_, fun hh => absurd ⟨by omega, by omega⟩ hh⟩
      rw [e, openedIds_append, openedIds_append, openedIds_quiet o0 h0, op]; rfl
  rw [stepFrame_eq c f hg he] at hs
  split at hs
  · exact key true _ (by simp [quiet]) hs
  · have := key false [] (by simp)
    rw [show ({ c with goaway := false } : Conn) = c from by rw [← hg]] at this
    exact this hs

example : (run (Conn.init 1000) [.frame fSettings, .frame (fHeaders 3 getH true), .frame (fHeaders 7 getH false)]).map
    (fun r => (openedIds r.2, r.1.goaway, r.1.streams.map (·.id))) = some ([3, 7], false, [3, 7]) := by decide
example : outs [.frame fSettings, .frame (fHeaders 3 getH false), .frame (fHeaders 1 getH false)] =
    some [.settingsAck, .opened 3, .goaway 1] := by decide
example : outs [.frame fSettings, .frame (fHeaders 2 getH false)] = some [.settingsAck, .goaway 1] := by decide

/-! ## C13 — concurrent streams -/

/-- The streams of a live connection are those opened and not closed, in the order of opening. -/
theorem C13_live_streams_are_opened_minus_closed (maxBody : Nat) (es : List Ev) (c : Conn) (o : List Out)
    (h : run (Conn.init maxBody) es = some (c, o)) (hg : c.goaway = false) :
    c.streams.map (·.id) = (openedIds o).filter (fun i => !(closedIds o).contains i) ∧
    c.count = 1 + ((openedIds o).filter (fun i => !(closedIds o).contains i)).length := by
  have r := run_spec es [] (Conn.init maxBody) c o (fun _ => Inv.init maxBody none) h
  have hl := r.live hg
  have hl' : c.streams.map (·.id) = (openedIds o).filter (fun i => !(closedIds o).contains i) := hl
  refine ⟨hl', ?_⟩
  rw [← hl', List.length_map, (r.inv hg).count, Nat.add_comm]

/-- **C13 (partial).** If the connection had a limit `m`, counting the connection's own stream as the
code does, no history would exceed it.  Missing: the code never sets the limit
(`C13_unlimited_streams_refuted`). -/
theorem C13_limit_respected_partial (maxBody m : Nat) (es : List Ev) (c : Conn) (o : List Out)
    (h : run { Conn.init maxBody with maxConc := some m } es = some (c, o)) (hg : c.goaway = false) :
    c.streams.length + 1 ≤ max m 1 := by
  have r := run_spec es [] _ c o (fun _ => Inv.init maxBody (some m)) h
  have I := r.inv hg
  have := I.conc m r.maxConc
  rw [I.count] at this
  exact this

/-- A history that opens `n` streams and resets each. -/
def openReset : Nat → List Ev
  | 0 => [.frame fSettings]
  | n + 1 => openReset n ++ [.frame (fHeaders (2 * n + 1) getH false), .frame (fRst (2 * n + 1))]

theorem run_append : ∀ (a b : List Ev) (c : Conn), run c (a ++ b) =
    match run c a with
    | none => none
    | some (c', o) =>
      match run c' b with
      | none => none
      | some (c'', o') => some (c'', o ++ o')
  | [], b, c => by
    simp only [List.nil_append, run]
    cases run c b with
    | none => rfl
    | some p => rfl
  | e :: a, b, c => by
    simp only [List.cons_append, run]
    cases step c e with
    | none => rfl
    | some p =>
      simp only
      rw [run_append a b p.1]
      cases run p.1 a with
      | none => rfl
      | some q =>
        simp only
        cases run q.1 b with
        | none => rfl
        | some r => simp [List.append_assoc]

/-- The stream a reset leaves behind. -/
def dead (sid : Nat) : Stream := { id := sid, st := .closed, peerEnd := true, headers := some getH }

theorem replace_last (S : List Stream) (s t : Stream) (hid : t.id = s.id) (hne : ∀ u ∈ S, u.id ≠ s.id) :
    (S ++ [s]).map (fun u => if u.id = t.id then t else u) = S ++ [t] := by
  rw [List.map_append]
  congr 1
  · conv => rhs; rw [← List.map_id S]
    apply List.map_congr_left
    intro u hu
    rw [if_neg (by rw [hid]; exact hne u hu)]; rfl
  · simp [hid]

theorem commit_stream (y : Ctx) (h : y.s.id ≠ 0) :
    y.commit = { y.c with streams := y.c.streams.map fun t => if t.id = y.s.id then y.s else t } := by
  unfold Ctx.commit; rw [if_neg h]

theorem step_reset (c : Conn) (hg : c.goaway = false) (he : c.ended = false) (hc : c.comm = true) (hm : c.maxConc = none) (hf : c.maxFrame = 16384)
    (sid : Nat) (ho : sid % 2 = 1) (hs : c.maxSid < sid) (hne : ∀ u ∈ c.streams, u.id ≠ sid) :
    run c [.frame (fHeaders sid getH false), .frame (fRst sid)] =
      some ({ c with streams := c.streams ++ [dead sid], count := c.count + 1, maxSid := sid }, [.opened sid]) := by
  have hs0 : sid ≠ 0 := by omega
  have hfind : search c sid = none := by
    unfold search; rw [if_neg hs0, List.find?_eq_none]; intro s hs; simpa using hne s hs
  have href : refuse c sid = false := by
    have : ¬ sid ≤ c.maxSid := by omega
    simp [refuse, hm, this, ho]
  let s1 : Stream := { id := sid, st := .open_, peerEnd := true, headers := some getH }
  let c1 : Conn := { c with streams := c.streams ++ [s1], count := c.count + 1, maxSid := sid }
  have e1 : stepFrame c (fHeaders sid getH false) = some (c1, [.opened sid]) := by
    rw [stepFrame_eq c _ hg he, if_neg (by rw [hf]; simp [fHeaders])]
    unfold stepRest
    show (match search c sid with | some s => _ | none => if refuse c sid then _ else _) = _
    rw [hfind, href]
    show process _ _ = _
    unfold process
    rw [if_neg (by show ¬ ((!c.comm && _) = true); rw [hc]; simp)]
    have : handle (fHeaders sid getH false) ⟨create c sid, { id := sid }, [.opened sid]⟩ =
        some ⟨create c sid, s1, [.opened sid]⟩ := by
      simp [handle, fHeaders, onHeaders, Ctx.when, hs0, respond, endStream, endHeaders, flag, s1]
    show Option.map _ (handle _ _) = _
    rw [show ([] : List Out) ++ [.opened (fHeaders sid getH false).sid] = [.opened sid] from rfl]
    show Option.map _ (handle (fHeaders sid getH false) ⟨create c sid, { id := sid }, [.opened sid]⟩) = _
    rw [this]
    show some (Ctx.commit ⟨create c sid, s1, [.opened sid]⟩, _) = _
    rw [commit_stream _ hs0]
    show some ({ create c sid with streams := (c.streams ++ [({ id := sid } : Stream)]).map (fun u : Stream => if u.id = s1.id then s1 else u) }, _) = _
    rw [replace_last c.streams { id := sid } s1 rfl hne]
    rfl
  have e2 : stepFrame c1 (fRst sid) = some ({ c with streams := c.streams ++ [dead sid], count := c.count + 1, maxSid := sid }, []) := by
    rw [stepFrame_eq c1 _ hg he, if_neg (by show ¬ c.maxFrame < 4; omega)]
    unfold stepRest
    have hf1 : search c1 sid = some s1 := by
      unfold search; rw [if_neg hs0]
      show List.find? _ (c.streams ++ [s1]) = _
      rw [List.find?_append, (List.find?_eq_none.2 (fun s hs => by simpa using hne s hs) : c.streams.find? (fun s => s.id == sid) = none)]
      simp [s1]
    show (match search c1 sid with | some s => _ | none => if refuse c1 sid then _ else _) = _
    rw [hf1]
    show process _ _ = _
    unfold process
    have hcm : c1.comm = true := hc
    rw [if_neg (by rw [hcm]; simp)]
    have : handle (fRst sid) ⟨c1, s1, []⟩ = some ⟨c1, dead sid, []⟩ := by
      simp [handle, fRst, onRst, Ctx.when, hs0, s1, dead]
    rw [this]
    show some (Ctx.commit ⟨c1, dead sid, []⟩, _) = _
    rw [commit_stream _ hs0]
    show some ({ c1 with streams := (c.streams ++ [s1]).map (fun u : Stream => if u.id = (dead sid).id then dead sid else u) }, _) = _
    rw [replace_last c.streams s1 (dead sid) rfl hne]
  simp only [run, step, e1, e2]
  rfl

/-- **C13 refuted.** For every `n` a client can open `n` streams and reset every one of them: all `n` are
still there, with their requests, on a connection that is still served.  (`max_concurrent_streams` is
never set and a reset stream is never removed.) -/
theorem C13_unlimited_streams_refuted (maxBody n : Nat) : ∃ c o,
    run (Conn.init maxBody) (openReset n) = some (c, o) ∧ c.goaway = false ∧ c.streams.length = n ∧
    ∀ s ∈ c.streams, s.st = .closed := by
  have key : ∃ o, run (Conn.init maxBody) (openReset n) = some ({ Conn.init maxBody with
      comm := true, streams := (List.range n).map fun i => dead (2 * i + 1), count := n + 1, maxSid := 2 * n - 1 }, o) := by
    induction n with
    | zero => exact ⟨_, rfl⟩
    | succ n ih =>
      obtain ⟨o, ih⟩ := ih
      simp only [openReset, run_append, ih]
      rw [step_reset _ rfl rfl rfl rfl rfl (2 * n + 1) (by omega) (by show 2 * n - 1 < _; omega) (by
        intro u hu
        obtain ⟨i, hi, rfl⟩ := List.mem_map.1 hu
        rw [List.mem_range] at hi
        show 2 * i + 1 ≠ 2 * n + 1; omega)]
      refine ⟨o ++ [.opened (2 * n + 1)], ?_⟩
      rw [List.range_succ, List.map_append]
      rfl
  obtain ⟨o, key⟩ := key
  refine ⟨_, o, key, rfl, by simp, ?_⟩
  intro s hs
  obtain ⟨i, _, rfl⟩ := List.mem_map.1 hs
  rfl

example : (run { Conn.init 1000 with maxConc := some 2 } [.frame fSettings, .frame (fHeaders 1 getH false)]).map
    (fun r => (r.1.goaway, r.1.streams.length)) = some (false, 1) := by decide
example : (run { Conn.init 1000 with maxConc := some 2 } [.frame fSettings, .frame (fHeaders 1 getH false), .frame (fHeaders 3 getH false)]).map
    (fun r => r.1.goaway) = some true := by decide

/-! ## C62 — nothing after GOAWAY -/

/-- **C62.** Once the server has sent GOAWAY or given up the connection, no frame has any effect: nothing
is sent, no stream is opened and no request is answered (streams being answered may still finish). -/
theorem C62_nothing_after_goaway (maxBody : Nat) (es es' : List Ev) (c c' : Conn) (o o' : List Out)
    (h : run (Conn.init maxBody) es = some (c, o)) (hg : ∃ a ∈ o, isGoaway a = true)
    (h' : run c es' = some (c', o')) : ∀ a ∈ o', ∃ sid, a = .closed sid := by
  have r := run_spec es [] (Conn.init maxBody) c o (fun _ => Inv.init maxBody none) h
  obtain ⟨a, ha, hga⟩ := hg
  have hgo := r.gone a ha hga
  have r' := run_spec es' [] c c' o' (fun g => by rw [hgo] at g; simp at g) h'
  exact (r'.goaway hgo).2

example : outs [.frame fSettings, .frame (fHeaders 2 getH true), .frame (fHeaders 3 getH true), .frame fSettings] =
    some [.settingsAck, .goaway 1] := by decide

/-! ## C63 — requests are answered when complete -/

/-- **C63.** On every history: a request is answered only when its stream's headers and the stream itself
have been ended by the client, and it is answered with exactly the headers the client sent on that
stream, in order. -/
theorem C63_answers_only_complete_requests (maxBody : Nat) (es : List Ev) (c c' : Conn) (o o' : List Out) (f : Frame)
    (h : run (Conn.init maxBody) es = some (c, o)) (hs : step c (.frame f) = some (c', o'))
    (sid : Nat) (hd : List (Bytes × Bytes)) (b : Option (Nat × Bytes)) (d : Bool) (hm : .dispatch sid hd b d ∈ o') :
    hd = hdrsOf sid (framesOf es ++ [f]) ∧ PeerEndedHeaders sid (framesOf es ++ [f]) ∧ PeerEndedStream sid (framesOf es ++ [f]) := by
  have r := run_spec es [] (Conn.init maxBody) c o (fun _ => Inv.init maxBody none) h
  have hs : stepFrame c f = some (c', o') := hs
  cases hg : c.goaway with
  | true =>
    rw [stepFrame_goaway c f hg] at hs
    simp only [Option.some.injEq, Prod.mk.injEq] at hs
    obtain ⟨rfl, rfl⟩ := hs
    simp at hm
  | false =>
    have st := stepFrame_spec _ f c c' o' (r.inv hg) hg hs
    have := st.good sid hd b d hm
    exact ⟨this.1, this.2.1, this.2.2.1⟩

/-- **C63 (partial).** A complete request in one HEADERS frame on a new stream is answered at once, with
its headers.  Missing: requests whose headers need CONTINUATION
(`C63_continuation_never_answered_refuted`). -/
theorem C63_complete_request_answered_partial (maxBody : Nat) (es : List Ev) (c : Conn) (o : List Out)
    (h : run (Conn.init maxBody) es = some (c, o)) (hg : c.goaway = false) (hc : c.comm = true) (f : Frame)
    (ht : f.type = 1) (hlen : f.length ≤ c.maxFrame) (hodd : f.sid % 2 = 1) (hnew : ∀ sid ∈ openedIds o, sid < f.sid)
    (hes : endStream f = true) (heh : endHeaders f = true) (hok : f.hdrsOk = true) (hr : f.respOk = true) :
    ∃ c', step c (.frame f) = some (c', [.opened f.sid, .dispatch f.sid f.hdrs none false]) ∧ c'.goaway = false := by
  have r := run_spec es [] (Conn.init maxBody) c o (fun _ => Inv.init maxBody none) h
  have I := r.inv hg
  have mc : c.maxConc = none := r.maxConc
  have hs0 : f.sid ≠ 0 := by omega
  have he : c.ended = false := by
    cases he : c.ended
    · rfl
    · rw [I.ended he] at hg; simp at hg
  have hms : c.maxSid < f.sid := by
    rcases r.top with t | t
    · rw [t]; show 0 < _; omega
    · exact hnew _ t
  have hfind : search c f.sid = none := by
    unfold search; rw [if_neg hs0, List.find?_eq_none]; intro s hs
    have := (I.range s hs).2
    simp only [beq_iff_eq]; omega
  have href : refuse c f.sid = false := by
    have : ¬ f.sid ≤ c.maxSid := by omega
    simp [refuse, mc, this, hodd]
  show ∃ c', stepFrame c f = some (c', _) ∧ _
  rw [stepFrame_eq c f hg he, if_neg (by omega)]
  unfold stepRest
  rw [hfind]
  simp only [href, Bool.false_eq_true, if_false]
  unfold process
  have hcm : (create c f.sid).comm = true := hc
  simp only [hcm, Bool.not_true, Bool.false_and, Bool.false_eq_true, if_false]
  have hh : handle f ⟨create c f.sid, { id := f.sid }, [.opened f.sid]⟩ =
      some ⟨create c f.sid, { id := f.sid, st := .halfRemote, peerEnd := true, canResp := true, headers := some f.hdrs },
        [.opened f.sid, .dispatch f.sid f.hdrs none false]⟩ := by
    unfold handle
    rw [ht]
    simp [onHeaders, Ctx.when, hs0, respond, hes, heh, hok, hr]
  rw [List.nil_append, hh]
  refine ⟨_, rfl, ?_⟩
  unfold Ctx.commit
  rw [if_neg hs0]
  exact hg

example : outs [.frame fSettings, .frame (fHeaders 1 getH true)] = some [.settingsAck, .opened 1, .dispatch 1 getH none false] := by decide
example : (run (Conn.init 1000) [.frame fSettings, .frame (fHeaders 1 (postH b!"3") false), .frame (fData 1 b!"abc" true)]).map (·.2) =
    some [.settingsAck, .opened 1, .windowUpdate 0 3, .windowUpdate 1 3, .dispatch 1 (postH b!"3") (some (3, b!"abc")) false] := by
  decide +kernel

/-- A live connection and the next stream number: what every history below starts from. -/
structure Live (maxBody : Nat) (es : List Ev) (c : Conn) (o : List Out) (sid : Nat) : Prop where
  run : run (Conn.init maxBody) es = some (c, o)
  goaway : c.goaway = false
  comm : c.comm = true
  odd : sid % 2 = 1
  new : ∀ i ∈ openedIds o, i < sid

/-- Step on a stream that is there. -/
theorem step_found (c : Conn) (f : Frame) (s : Stream) (hg : c.goaway = false) (he : c.ended = false) (hc : c.comm = true)
    (hl : f.length ≤ c.maxFrame) (hs : search c f.sid = some s) :
    step c (.frame f) = (handle f ⟨c, s, []⟩).map fun y => (y.commit, y.o) := by
  show stepFrame c f = _
  rw [stepFrame_eq c f hg he, if_neg (by omega)]
  unfold stepRest
  rw [hs]
  simp only
  unfold process
  simp only [hc, Bool.not_true, Bool.false_and, Bool.false_eq_true, if_false]

/-- The stream after its HEADERS frame. -/
def openedStream (sid : Nat) (hs : List (Bytes × Bytes)) (fin : Bool) : Stream :=
  { id := sid, st := if fin then .halfRemote else .open_, peerEnd := true, canResp := fin, headers := some hs }

/-- HEADERS on a new stream: what the connection then is. -/
theorem open_step {maxBody : Nat} {es : List Ev} {c : Conn} {o : List Out} {sid : Nat} (L : Live maxBody es c o sid)
    (hs : List (Bytes × Bytes)) (fin : Bool) (hlen : 20 ≤ c.maxFrame) :
    ∃ c1, step c (.frame (fHeaders sid hs fin)) = some (c1, .opened sid :: (if fin then [.dispatch sid hs none false] else [])) ∧
      c1.goaway = false ∧ c1.ended = false ∧ c1.comm = true ∧ c1.maxFrame = c.maxFrame ∧ c1.maxBody = c.maxBody ∧
      search c1 sid = some (openedStream sid hs fin) := by
  obtain ⟨h, hg, hc, hodd, hnew⟩ := L
  have r := run_spec es [] (Conn.init maxBody) c o (fun _ => Inv.init maxBody none) h
  have I := r.inv hg
  have mc : c.maxConc = none := r.maxConc
  have hs0 : sid ≠ 0 := by omega
  have he : c.ended = false := by
    cases he : c.ended
    · rfl
    · rw [I.ended he] at hg; simp at hg
  have hms : c.maxSid < sid := by
    rcases r.top with t | t
    · rw [t]; show 0 < _; omega
    · exact hnew _ t
  have hnin : ∀ s ∈ c.streams, (s.id == sid) = false := by
    intro s hs
    have := (I.range s hs).2
    simp only [beq_eq_false_iff_ne]; omega
  have hfind : search c sid = none := by
    unfold search; rw [if_neg hs0, List.find?_eq_none]; intro s hs
    rw [hnin s hs]; simp
  have href : refuse c sid = false := by
    have : ¬ sid ≤ c.maxSid := by omega
    simp [refuse, mc, this, hodd]
  let s1 : Stream := openedStream sid hs fin
  have hh : handle (fHeaders sid hs fin) ⟨create c sid, { id := sid }, [.opened sid]⟩ =
      some ⟨create c sid, s1, .opened sid :: (if fin then [.dispatch sid hs none false] else [])⟩ := by
    cases fin <;> simp [handle, fHeaders, onHeaders, Ctx.when, hs0, respond, endStream, endHeaders, flag, s1, openedStream]
  refine ⟨(Ctx.mk (create c sid) s1 []).commit, ?_, ?_⟩
  · show stepFrame c (fHeaders sid hs fin) = _
    rw [stepFrame_eq c _ hg he, if_neg (by show ¬ c.maxFrame < 20; omega)]
    unfold stepRest
    show (match search c sid with
      | some s => _
      | none => _) = _
    rw [hfind]
    simp only [show (fHeaders sid hs fin).sid = sid from rfl, href, Bool.false_eq_true, if_false]
    unfold process
    have hcm : (create c sid).comm = true := hc
    simp only [hcm, Bool.not_true, Bool.false_and, Bool.false_eq_true, if_false]
    rw [List.nil_append, hh]
    simp only [Option.map_some, Option.some.injEq, Prod.mk.injEq, and_true]
    unfold Ctx.commit
    simp only
  · have hcommit : (Ctx.mk (create c sid) s1 []).commit =
        { create c sid with streams := (create c sid).streams.map fun t => if t.id = sid then s1 else t } := by
      unfold Ctx.commit
      rw [if_neg (show ¬ s1.id = 0 from hs0)]
      rfl
    rw [hcommit]
    refine ⟨hg, he, hc, rfl, rfl, ?_⟩
    unfold search
    rw [if_neg hs0]
    show ((c.streams ++ [({ id := sid } : Stream)]).map fun t => if t.id = sid then s1 else t).find? (fun s => s.id == sid) = some s1
    rw [List.map_append, List.find?_append]
    have h0 : (c.streams.map fun t => if t.id = sid then s1 else t).find? (fun s => s.id == sid) = none := by
      rw [List.find?_eq_none]
      intro s hs
      obtain ⟨t, ht, rfl⟩ := List.mem_map.1 hs
      have h1 := hnin t ht
      have h2 : t.id ≠ sid := by simpa using h1
      rw [if_neg h2, h1]; simp
    rw [h0]
    simp [s1, openedStream]

theorem live_run {maxBody : Nat} {es : List Ev} {c : Conn} {o : List Out} (h : run (Conn.init maxBody) es = some (c, o))
    (es' : List Ev) (c' : Conn) (o' : List Out) (h' : run c es' = some (c', o')) :
    run (Conn.init maxBody) (es ++ es') = some (c', o ++ o') := by
  rw [run_append, h]
  simp only [h']

theorem run_two (c c1 c2 : Conn) (a b : Ev) (oa ob : List Out) (ha : step c a = some (c1, oa)) (hb : step c1 b = some (c2, ob)) :
    run c [a, b] = some (c2, oa ++ ob) := by
  simp [run, ha, hb]

/-- **C63 refuted (once).** On every live connection: a request that is complete with its HEADERS frame is
answered twice if the client then sends an END_STREAM DATA frame on that stream: the stream is reset
and the request runs again. -/
theorem C63_answered_twice_refuted (maxBody : Nat) (es : List Ev) (c : Conn) (o : List Out) (sid : Nat)
    (L : Live maxBody es c o sid) (hl : 20 ≤ c.maxFrame) (hs : List (Bytes × Bytes)) :
    ∃ c', run (Conn.init maxBody) (es ++ [.frame (fHeaders sid hs true), .frame (fData sid [] true)]) =
      some (c', o ++ [.opened sid, .dispatch sid hs none false, .rst sid 5, .dispatch sid hs none false]) := by
  obtain ⟨c1, e1, e2, e3, e4, e5, e6, e7⟩ := open_step L hs true hl
  have hs0 : sid ≠ 0 := by have := L.odd; omega
  have hst := step_found c1 (fData sid [] true) _ e2 e3 e4 (by show 0 ≤ _; omega) e7
  have hh : handle (fData sid [] true) ⟨c1, openedStream sid hs true, []⟩ =
      some ⟨c1, { id := sid, st := .halfRemote, peerEnd := true, canResp := true, headers := some hs },
        [.rst sid 5, .dispatch sid hs none false]⟩ := by
    simp [openedStream, handle, fData, onData, Ctx.when, hs0, parseData, dataLen, padded, flag, endStream, respond, Ctx.streamErr, streamClosed]
  rw [hh] at hst
  exact ⟨_, live_run L.run _ _ _ (run_two _ _ _ _ _ _ _ e1 hst)⟩

example : outs [.frame fSettings, .frame (fHeaders 1 getH true), .frame (fData 1 [] true)] =
      some [.settingsAck, .opened 1, .dispatch 1 getH none false, .rst 1 5, .dispatch 1 getH none false] := by decide

/-- The hypotheses are met after the client's SETTINGS. -/
example : ∃ c o, Live 1000 [.frame fSettings] c o 1 ∧ 20 ≤ c.maxFrame ∧ c.maxBody = 1000 :=
  ⟨_, _, ⟨rfl, rfl, rfl, rfl, by decide⟩, by decide, rfl⟩

/-- **C63 refuted.** On every history: a CONTINUATION frame that ends a header block ends the connection,
and answers nothing: header blocks split over CONTINUATION frames are never served. -/
theorem C63_continuation_never_answered_refuted (maxBody : Nat) (es : List Ev) (c c' : Conn) (o o' : List Out) (f : Frame)
    (h : run (Conn.init maxBody) es = some (c, o)) (hg : c.goaway = false) (ht : f.type = 9) (he : endHeaders f = true)
    (hs : step c (.frame f) = some (c', o')) :
    c'.goaway = true ∧ ∀ sid hd b d, Out.dispatch sid hd b d ∉ o' := by
  have r := run_spec es [] (Conn.init maxBody) c o (fun _ => Inv.init maxBody none) h
  have I := r.inv hg
  have hs : stepFrame c f = some (c', o') := hs
  have hen : c.ended = false := by
    cases he : c.ended
    · rfl
    · rw [I.ended he] at hg; simp at hg
  have hproc : ∀ x c' o', noDispatch x.o → process f x = some (c', o') → c'.goaway = true ∧ noDispatch o' := by
    intro x c' o' hn hp
    have hgo : ∀ y : Ctx, (Ctx.commit y).goaway = y.c.goaway := by intro y; unfold Ctx.commit; split <;> rfl
    have hn1 : noDispatch (x.o ++ [.goaway protocolError]) := nd_append hn (quiet_nd (by simp [quiet]))
    unfold process at hp
    split at hp
    · simp only [Option.some.injEq, Prod.mk.injEq] at hp
      obtain ⟨rfl, rfl⟩ := hp
      exact ⟨by rw [hgo]; rfl, hn1⟩
    · rw [Option.map_eq_some_iff] at hp
      obtain ⟨y, hy, hp⟩ := hp
      simp only [Prod.mk.injEq] at hp
      obtain ⟨rfl, rfl⟩ := hp
      rw [hgo]
      unfold handle at hy
      rw [ht] at hy
      have hy : onContinuation f x = some y := hy
      unfold onContinuation at hy
      split at hy
      · simp at hy
      · simp only [he, Ctx.when, if_true, Option.some.injEq] at hy
        subst hy
        exact ⟨rfl, hn1⟩
  have key : ∀ d o0, noDispatch o0 → stepRest d f o0 = some (c', o') → c'.goaway = true ∧ noDispatch o' := by
    intro d o0 h0 hr
    unfold stepRest at hr
    split at hr
    · exact hproc _ _ _ h0 hr
    · split at hr
      · simp only [Option.some.injEq, Prod.mk.injEq] at hr
        obtain ⟨rfl, rfl⟩ := hr
        exact ⟨rfl, nd_append h0 (quiet_nd (by simp [quiet]))⟩
      · exact hproc _ _ _ (nd_append h0 (by intro a b c d hm; simp at hm)) hr
  rw [stepFrame_eq c f hg hen] at hs
  split at hs
  · exact key { c with goaway := true } [.goaway protocolError] (quiet_nd (by simp [quiet])) hs
  · exact key c [] (by intro a b c d hm; simp at hm) hs

/-- HEADERS without END_HEADERS, then the CONTINUATION RFC 7540 asks for. -/
example : outs [.frame fSettings, .frame { fHeaders 1 getH true with flags := 1 },
      .frame { type := 9, flags := 4, sid := 1, length := 5, hdrs := [(b!"a", b!"b")] }] =
    some [.settingsAck, .opened 1, .goaway 1] := by decide

/-- **Refuted (robustness).** DATA on stream 0 makes the server read the header list of a stream that has
none: undefined behaviour, for every connection state that still reads. -/
theorem C63_data_on_stream_zero_crashes_refuted (maxBody : Nat) (es : List Ev) (c : Conn) (o : List Out)
    (h : run (Conn.init maxBody) es = some (c, o)) (hg : c.goaway = false) (hc : c.comm = true) (d : Bytes) (hd : d ≠ [])
    (hl : d.length ≤ c.maxFrame) (fin : Bool) : step c (.frame (fData 0 d fin)) = none := by
  have r := run_spec es [] (Conn.init maxBody) c o (fun _ => Inv.init maxBody none) h
  have I := r.inv hg
  have he : c.ended = false := by
    cases he : c.ended
    · rfl
    · rw [I.ended he] at hg; simp at hg
  change stepFrame c (fData 0 d fin) = none
  rw [stepFrame_eq c _ hg he, if_neg (by show ¬ c.maxFrame < d.length; omega)]
  unfold stepRest
  show process _ ⟨c, c.root, []⟩ = none
  unfold process
  rw [if_neg (by rw [hc]; simp)]
  have hd' : ¬ d.length = 0 := by simpa using hd
  have hp : padded (fData 0 d fin) = false := by cases fin <;> simp [padded, fData, flag]
  have hrh := I.rootHd
  have hpd : ∀ x : Ctx, x.s.headers = none → parseData x d.length d = none := by
    intro x hx; unfold parseData; rw [if_neg hd', hx]
  have : handle (fData 0 d fin) ⟨c, c.root, []⟩ = none := by
    show onData (fData 0 d fin) _ = none
    unfold onData
    simp only [dataLen, hp, Bool.false_eq_true, if_false]
    rw [show (fData 0 d fin).length = d.length from rfl, show (fData 0 d fin).data = d from rfl, hpd]
    simp only [Ctx.when]
    split <;> split <;> exact hrh
  rw [this]; rfl

example : outs [.frame fSettings, .frame (fData 0 b!"x" false)] = none := by decide

/-- **Refuted (RFC 7540 §5.1).** On every live connection: a WINDOW_UPDATE for a stream whose response has
been finished ends the connection, although clients may legally send it. -/
theorem C62_late_window_update_ends_connection_refuted (maxBody : Nat) (es : List Ev) (c : Conn) (o : List Out)
    (h : run (Conn.init maxBody) es = some (c, o)) (hg : c.goaway = false) (sid n : Nat) (hop : sid ∈ openedIds o)
    (hcl : sid ∈ closedIds o) (c' : Conn) (o' : List Out) (hs : step c (.frame (fWindow sid n)) = some (c', o')) :
    c'.goaway = true ∧ Out.goaway protocolError ∈ o' := by
  have hl := (C13_live_streams_are_opened_minus_closed maxBody es c o h hg).1
  have hodd := (C12_stream_ids_odd_and_growing maxBody es c o h).2 sid hop
  have hn : sid ∉ c.streams.map (·.id) := by
    rw [hl, List.mem_filter]
    simp [hcl]
  have := (C12_new_stream_accepted_iff maxBody es c o h hg (fWindow sid n) (by show sid ≠ 0; omega) hn c' o' hs).2
    (fun ⟨_, hb⟩ => by have := hb sid hop; simp [fWindow] at this)
  exact this.2

example :
    outs [.frame fSettings, .frame (fHeaders 1 getH true), .finish 1, .frame (fWindow 1 10), .frame (fHeaders 3 getH true)] =
      some [.settingsAck, .opened 1, .dispatch 1 getH none false, .closed 1, .goaway 1] := by decide

/-- **Refuted (RFC 7540 §5.3).** On every live connection: a PRIORITY frame for an idle stream opens it, and
a stream with a lower number can no longer be opened: its HEADERS frame ends the connection. -/
theorem C12_priority_opens_stream_refuted (maxBody : Nat) (es : List Ev) (c : Conn) (o : List Out) (sid : Nat)
    (L : Live maxBody es c o sid) (hl : 5 ≤ c.maxFrame) (low : Nat) (hlow : low < sid) (hlo : low ≠ 0)
    (hnew : low ∉ openedIds o) (hs : List (Bytes × Bytes)) :
    ∃ c1, step c (.frame { type := 2, flags := 0, sid := sid, length := 5 }) = some (c1, [.opened sid]) ∧
      ∀ c2 o2, step c1 (.frame (fHeaders low hs true)) = some (c2, o2) → c2.goaway = true ∧ Out.goaway protocolError ∈ o2 := by
  obtain ⟨h, hg, hc, hodd, hnw⟩ := L
  have r := run_spec es [] (Conn.init maxBody) c o (fun _ => Inv.init maxBody none) h
  have I := r.inv hg
  have mc : c.maxConc = none := r.maxConc
  have hs0 : sid ≠ 0 := by omega
  have he : c.ended = false := by
    cases he : c.ended
    · rfl
    · rw [I.ended he] at hg; simp at hg
  have hms : c.maxSid < sid := by
    rcases r.top with t | t
    · rw [t]; show 0 < _; omega
    · exact hnw _ t
  have hfind : search c sid = none := by
    unfold search; rw [if_neg hs0, List.find?_eq_none]; intro s hs
    have := (I.range s hs).2
    simp only [beq_iff_eq]; omega
  have href : refuse c sid = false := by
    have : ¬ sid ≤ c.maxSid := by omega
    simp [refuse, mc, this, hodd]
  let f : Frame := { type := 2, flags := 0, sid := sid, length := 5 }
  have hh : handle f ⟨create c sid, { id := sid }, [.opened sid]⟩ = some ⟨create c sid, { id := sid }, [.opened sid]⟩ := by
    simp [handle, f, onPriority, Ctx.when, hs0]
  have hstep : step c (.frame f) = some ((Ctx.mk (create c sid) { id := sid } []).commit, [.opened sid]) := by
    show stepFrame c f = _
    rw [stepFrame_eq c _ hg he, if_neg (by show ¬ c.maxFrame < 5; omega)]
    unfold stepRest
    rw [show f.sid = sid from rfl, hfind]
    simp only [href, Bool.false_eq_true, if_false]
    unfold process
    have hcm : (create c sid).comm = true := hc
    simp only [hcm, Bool.not_true, Bool.false_and, Bool.false_eq_true, if_false]
    rw [List.nil_append, hh]
    rfl
  refine ⟨_, hstep, ?_⟩
  intro c2 o2 h2
  have hrun1 : run c [.frame f] = some ((Ctx.mk (create c sid) { id := sid } []).commit, [.opened sid]) := by
    simp [run, hstep]
  have hrun := live_run h _ _ _ hrun1
  have hg1 : (Ctx.mk (create c sid) { id := sid } []).commit.goaway = false := by
    unfold Ctx.commit; split <;> exact hg
  have hop : openedIds (o ++ [.opened sid]) = openedIds o ++ [sid] := by rw [openedIds_append]; rfl
  have hids := (C13_live_streams_are_opened_minus_closed maxBody _ _ _ hrun hg1).1
  have hn : low ∉ (Ctx.mk (create c sid) { id := sid } []).commit.streams.map (·.id) := by
    rw [hids, List.mem_filter]
    rintro ⟨hm, _⟩
    rw [hop, List.mem_append] at hm
    rcases hm with hm | hm
    · exact hnew hm
    · simp at hm; omega
  have := (C12_new_stream_accepted_iff maxBody _ _ _ hrun hg1 (fHeaders low hs true) hlo hn c2 o2 h2).2
    (fun ⟨_, hb⟩ => by
      have := hb sid (by rw [hop]; simp)
      have h3 : (fHeaders low hs true).sid = low := rfl
      omega)
  exact this.2

example : outs [.frame fSettings, .frame { type := 2, flags := 0, sid := 5, length := 5 }, .frame (fHeaders 3 getH true)] =
      some [.settingsAck, .opened 5, .goaway 1] := by decide

/-! ## C64 — request bodies -/

/-- **C64 (partial).** On every history whose DATA frames are not padded: the body a request is answered
with is the concatenation of the DATA payloads of its stream, unless the body was discarded for its size.
Missing: padded frames (`C64_padding_enters_body_refuted`), requests without Content-Length
(`C64_body_without_length_refuted`), bodies shorter than announced
(`C64_short_body_uninitialised_refuted`). -/
theorem C64_body_is_data_sent_partial (maxBody : Nat) (es : List Ev) (c c' : Conn) (o o' : List Out) (f : Frame)
    (h : run (Conn.init maxBody) es = some (c, o)) (hs : step c (.frame f) = some (c', o'))
    (hp : ∀ g ∈ framesOf es ++ [f], PlainData g)
    (sid : Nat) (hd : List (Bytes × Bytes)) (b : Option (Nat × Bytes)) (hm : .dispatch sid hd b false ∈ o') :
    (b.map (·.2)).getD [] = dataOf sid (framesOf es ++ [f]) := by
  have r := run_spec es [] (Conn.init maxBody) c o (fun _ => Inv.init maxBody none) h
  have hs : stepFrame c f = some (c', o') := hs
  cases hg : c.goaway with
  | true =>
    rw [stepFrame_goaway c f hg] at hs
    simp only [Option.some.injEq, Prod.mk.injEq] at hs
    obtain ⟨rfl, rfl⟩ := hs
    simp at hm
  | false =>
    have st := stepFrame_spec _ f c c' o' (r.inv hg) hg hs
    exact (st.good sid hd b false hm).2.2.2 hp rfl

example : outs [.frame fSettings, .frame (fHeaders 1 (postH b!"5") false), .frame (fData 1 b!"ab" false), .frame (fData 1 b!"cde" true)] =
    some [.settingsAck, .opened 1, .windowUpdate 0 2, .windowUpdate 1 2, .windowUpdate 0 3, .windowUpdate 1 3,
      .dispatch 1 (postH b!"5") (some (5, b!"abcde")) false] := by decide +kernel

/-- A padded DATA frame with END_STREAM: its payload is the padding length, the data `d` and the
padding `z` (RFC 7540 §6.1). -/
def fPaddedData (sid : Nat) (d z : Bytes) : Frame :=
  { type := 0, flags := 9, sid := sid, length := 1 + d.length + z.length, data := d ++ z }

/-- Pad length 2, payload `ab`, two bytes of padding. -/
def fPadded : Frame := { type := 0, flags := 9, sid := 1, length := 5, data := b!"ab" ++ [0, 0] }

theorem data_step {maxBody : Nat} {es : List Ev} {c : Conn} {o : List Out} {sid : Nat} (L : Live maxBody es c o sid)
    (hs : List (Bytes × Bytes)) (hl : 20 ≤ c.maxFrame) (f : Frame) (hf : f.type = 0) (hfs : f.sid = sid) (hfl : f.length ≤ c.maxFrame)
    (hfe : endStream f = true) (hd : 0 < dataLen f) (hr : f.respOk = true) (hcl : contentLength hs ≤ c.maxBody) :
    ∃ c', run c [.frame (fHeaders sid hs false), .frame f] =
      some (c', .opened sid :: (if contentLength hs < dataLen f then [.emergency]
        else [.windowUpdate 0 (dataLen f), .windowUpdate sid (dataLen f), .dispatch sid hs (some (contentLength hs, f.data)) false])) ∧
      (¬ contentLength hs < dataLen f → c'.goaway = false) := by
  obtain ⟨c1, e1, e2, e3, e4, e5, e6, e7⟩ := open_step L hs false hl
  have hs0 : sid ≠ 0 := by have := L.odd; omega
  have hst := step_found c1 f _ e2 e3 e4 (by rw [e5]; exact hfl) (by rw [hfs]; exact e7)
  have hd0 : ¬ dataLen f = 0 := by omega
  have hm : ¬ c1.maxBody < contentLength hs := by rw [e6]; omega
  by_cases hlt : contentLength hs < dataLen f
  · have hh : handle f ⟨c1, openedStream sid hs false, []⟩ =
        some (Ctx.emergency ⟨c1, { id := sid, st := .open_, peerEnd := true, headers := some hs, body := some (contentLength hs, []) }, []⟩) := by
      simp [openedStream, handle, hf, onData, Ctx.when, hs0, parseData, hd0, hm, bodyOf, hlt]
    rw [hh] at hst
    have hrun := run_two _ _ _ _ _ _ _ e1 hst
    rw [if_pos hlt]
    exact ⟨_, hrun, fun h => absurd hlt h⟩
  · have hh : handle f ⟨c1, openedStream sid hs false, []⟩ =
        some ⟨c1, { id := sid, st := .halfRemote, peerEnd := true, canResp := true, headers := some hs, body := some (contentLength hs, f.data) },
          [.windowUpdate 0 (dataLen f), .windowUpdate sid (dataLen f), .dispatch sid hs (some (contentLength hs, f.data)) false]⟩ := by
      simp [openedStream, handle, hf, onData, Ctx.when, hs0, parseData, hd0, hm, bodyOf, hlt, hfe, respond, hr]
    rw [hh] at hst
    have hrun := run_two _ _ _ _ _ _ _ e1 hst
    rw [if_neg hlt]
    refine ⟨_, hrun, fun _ => ?_⟩
    unfold Ctx.commit
    split <;> exact e2

/-- **C64 refuted.** On every live connection: the padding of a DATA frame becomes part of the body.  A
request that announces the length of data and padding together is answered with both; one that
announces its data's length (and pads) is not answered: the connection ends. -/
theorem C64_padding_enters_body_refuted (maxBody : Nat) (es : List Ev) (c : Conn) (o : List Out) (sid : Nat)
    (L : Live maxBody es c o sid) (hl : 20 ≤ c.maxFrame) (hs : List (Bytes × Bytes)) (d z : Bytes) (hd : d ++ z ≠ [])
    (hfl : 1 + d.length + z.length ≤ c.maxFrame) (hf32 : c.maxFrame < 2 ^ 32) (hcl : contentLength hs ≤ c.maxBody) :
    (contentLength hs = d.length + z.length →
      ∃ c', run (Conn.init maxBody) (es ++ [.frame (fHeaders sid hs false), .frame (fPaddedData sid d z)]) =
        some (c', o ++ [.opened sid, .windowUpdate 0 (d.length + z.length), .windowUpdate sid (d.length + z.length),
          .dispatch sid hs (some (d.length + z.length, d ++ z)) false])) ∧
    (contentLength hs = d.length → z ≠ [] →
      ∃ c', run (Conn.init maxBody) (es ++ [.frame (fHeaders sid hs false), .frame (fPaddedData sid d z)]) =
        some (c', o ++ [.opened sid, .emergency])) := by
  have hpos : 0 < d.length + z.length := by have := List.length_pos_iff.2 hd; rw [List.length_append] at this; exact this
  have hp : padded (fPaddedData sid d z) = true := by simp [padded, fPaddedData, flag]
  have hdl : dataLen (fPaddedData sid d z) = d.length + z.length := by
    unfold dataLen
    rw [if_pos hp]
    show (1 + d.length + z.length + 2 ^ 32 - 1) % 2 ^ 32 = _
    omega
  obtain ⟨c', e1, _⟩ := data_step L hs hl (fPaddedData sid d z) rfl rfl hfl (by simp [endStream, fPaddedData, flag])
    (by omega) rfl hcl
  rw [hdl] at e1
  constructor
  · intro h1
    rw [if_neg (by omega), h1] at e1
    exact ⟨c', live_run L.run _ _ _ e1⟩
  · intro h1 h2
    have := List.length_pos_iff.2 h2
    rw [if_pos (by omega)] at e1
    exact ⟨c', live_run L.run _ _ _ e1⟩

example : fPadded = fPaddedData 1 b!"ab" [0, 0] := rfl
example :
    outs [.frame fSettings, .frame (fHeaders 1 (postH b!"4") false), .frame fPadded] =
      some [.settingsAck, .opened 1, .windowUpdate 0 4, .windowUpdate 1 4,
        .dispatch 1 (postH b!"4") (some (4, b!"ab" ++ [0, 0])) false] := by decide +kernel

/-- **C64 refuted.** On every live connection: a body on a request without Content-Length (or with the
length 0) ends the connection, although HTTP/2 does not require the header. -/
theorem C64_body_without_length_refuted (maxBody : Nat) (es : List Ev) (c : Conn) (o : List Out) (sid : Nat)
    (L : Live maxBody es c o sid) (hl : 20 ≤ c.maxFrame) (hs : List (Bytes × Bytes)) (d : Bytes) (hd : d ≠ [])
    (hfl : d.length ≤ c.maxFrame) (hcl : contentLength hs = 0) :
    ∃ c', run (Conn.init maxBody) (es ++ [.frame (fHeaders sid hs false), .frame (fData sid d true)]) =
        some (c', o ++ [.opened sid, .emergency]) := by
  have hpos := List.length_pos_iff.2 hd
  have hdl : dataLen (fData sid d true) = d.length := by simp [dataLen, padded, fData, flag]
  obtain ⟨c', e1, _⟩ := data_step L hs hl (fData sid d true) rfl rfl hfl (by simp [endStream, fData, flag]) (by omega) rfl (by omega)
  rw [hdl, if_pos (by omega)] at e1
  exact ⟨c', live_run L.run _ _ _ e1⟩

example : contentLength getH = 0 ∧
    outs [.frame fSettings, .frame (fHeaders 1 getH false), .frame (fData 1 b!"abc" true)] =
      some [.settingsAck, .opened 1, .emergency] := by decide +kernel

/-- **C64 refuted.** On every live connection: a body shorter than its Content-Length is answered with a
buffer of the announced length whose tail was never written. -/
theorem C64_short_body_uninitialised_refuted (maxBody : Nat) (es : List Ev) (c : Conn) (o : List Out) (sid : Nat)
    (L : Live maxBody es c o sid) (hl : 20 ≤ c.maxFrame) (hs : List (Bytes × Bytes)) (d : Bytes) (hd : d ≠ [])
    (hfl : d.length ≤ c.maxFrame) (hcl : contentLength hs ≤ c.maxBody) (hshort : d.length < contentLength hs) :
    ∃ c', run (Conn.init maxBody) (es ++ [.frame (fHeaders sid hs false), .frame (fData sid d true)]) =
        some (c', o ++ [.opened sid, .windowUpdate 0 d.length, .windowUpdate sid d.length,
          .dispatch sid hs (some (contentLength hs, d)) false]) := by
  have hpos := List.length_pos_iff.2 hd
  have hdl : dataLen (fData sid d true) = d.length := by simp [dataLen, padded, fData, flag]
  obtain ⟨c', e1, _⟩ := data_step L hs hl (fData sid d true) rfl rfl hfl (by simp [endStream, fData, flag]) (by omega) rfl (by omega)
  rw [hdl, if_neg (by omega)] at e1
  exact ⟨c', live_run L.run _ _ _ e1⟩

example : contentLength (postH b!"9") = 9 ∧
    outs [.frame fSettings, .frame (fHeaders 1 (postH b!"9") false), .frame (fData 1 b!"abc" true)] =
      some [.settingsAck, .opened 1, .windowUpdate 0 3, .windowUpdate 1 3,
        .dispatch 1 (postH b!"9") (some (9, b!"abc")) false] := by decide +kernel

/-! ## C65 — receive credit -/

/-- **C65 (partial).** On every history without padding that leaves the connection alive: the credit
returned with WINDOW_UPDATE on the connection is exactly the number of DATA bytes received on it, and
the credit returned on a stream exactly the number of bytes received on that stream.  Missing: padded
frames (`C65_padding_not_credited_refuted`). -/
theorem C65_credit_returned_partial (maxBody : Nat) (es : List Ev) (c : Conn) (o : List Out)
    (h : run (Conn.init maxBody) es = some (c, o)) (hg : c.goaway = false) (hp : ∀ g ∈ framesOf es, PlainData g) :
    creditFor 0 o = dataBytes (framesOf es) ∧ ∀ sid, sid ≠ 0 → creditFor sid o = streamBytes sid (framesOf es) := by
  have r := run_spec es [] (Conn.init maxBody) c o (fun _ => Inv.init maxBody none) h
  refine ⟨?_, ?_⟩
  · rw [r.credit hp hg 0]
    simp [dataBytes]
  · intro sid hs
    rw [r.credit hp hg sid]
    have hs' : (sid == 0) = false := by simpa using hs
    simp only [hs', Bool.false_or, streamBytes]
    congr 2
    apply List.filter_congr
    intro f _
    rw [Bool.beq_comm (a := sid)]

example : (run (Conn.init 1000) [.frame fSettings, .frame (fHeaders 1 (postH b!"5") false), .frame (fHeaders 3 (postH b!"9") false),
      .frame (fData 1 b!"ab" false), .frame (fData 3 b!"cdefg" false)]).map
    (fun r => (creditFor 0 r.2, creditFor 1 r.2, creditFor 3 r.2, r.1.goaway)) = some (7, 2, 5, false) := by decide +kernel

/-- **C65 refuted.** On every live connection: the pad length byte of a padded frame is never credited, so
the client's window shrinks with every such frame and the connection lives on. -/
theorem C65_padding_not_credited_refuted (maxBody : Nat) (es : List Ev) (c : Conn) (o : List Out) (sid : Nat)
    (L : Live maxBody es c o sid) (hl : 20 ≤ c.maxFrame) (hs : List (Bytes × Bytes)) (d z : Bytes) (hd : d ++ z ≠ [])
    (hfl : 1 + d.length + z.length ≤ c.maxFrame) (hf32 : c.maxFrame < 2 ^ 32) (hcl : contentLength hs ≤ c.maxBody)
    (hlen : d.length + z.length ≤ contentLength hs) :
    ∃ c' o', run c [.frame (fHeaders sid hs false), .frame (fPaddedData sid d z)] = some (c', o') ∧ c'.goaway = false ∧
      creditFor 0 o' + 1 = dataBytes [fHeaders sid hs false, fPaddedData sid d z] ∧
      creditFor sid o' + 1 = streamBytes sid [fHeaders sid hs false, fPaddedData sid d z] := by
  have hpos : 0 < d.length + z.length := by have := List.length_pos_iff.2 hd; rw [List.length_append] at this; exact this
  have hp : padded (fPaddedData sid d z) = true := by simp [padded, fPaddedData, flag]
  have hs0 : sid ≠ 0 := by have := L.odd; omega
  have hdl : dataLen (fPaddedData sid d z) = d.length + z.length := by
    unfold dataLen
    rw [if_pos hp]
    show (1 + d.length + z.length + 2 ^ 32 - 1) % 2 ^ 32 = _
    omega
  obtain ⟨c', e1, e2⟩ := data_step L hs hl (fPaddedData sid d z) rfl rfl hfl (by simp [endStream, fPaddedData, flag])
    (by omega) rfl hcl
  rw [hdl, if_neg (by omega)] at e1
  refine ⟨c', _, e1, e2 (by omega), ?_, ?_⟩
  · simp [creditFor, dataBytes, fHeaders, fPaddedData, hs0]; omega
  · simp [creditFor, streamBytes, fHeaders, fPaddedData, hs0, Ne.symm hs0]; omega

example :
    (run (Conn.init 1000) [.frame fSettings, .frame (fHeaders 1 (postH b!"4") false), .frame fPadded]).map
      (fun r => (r.1.goaway, creditFor 0 r.2, dataBytes [fPadded])) = some (false, 4, 5) := by decide +kernel

/-- **Refuted (RFC 7540 §6.9).** On every live connection: a zero increment on stream 0 is answered by
RST_STREAM on stream 0 (and the connection lives on), and on a stream just opened by GOAWAY: the two
errors are swapped. -/
theorem C65_zero_increment_errors_swapped_refuted (maxBody : Nat) (es : List Ev) (c : Conn) (o : List Out) (sid : Nat)
    (L : Live maxBody es c o sid) (hl : 20 ≤ c.maxFrame) (hs : List (Bytes × Bytes)) :
    (∃ c', step c (.frame (fWindow 0 0)) = some (c', [.rst 0 1]) ∧ c'.goaway = false) ∧
    (∃ c', run c [.frame (fHeaders sid hs false), .frame (fWindow sid 0)] = some (c', [.opened sid, .goaway 1]) ∧ c'.goaway = true) := by
  have hs0 : sid ≠ 0 := by have := L.odd; omega
  constructor
  · have r := run_spec es [] (Conn.init maxBody) c o (fun _ => Inv.init maxBody none) L.run
    have hg := L.goaway
    have I := r.inv hg
    have he : c.ended = false := by
      cases he : c.ended
      · rfl
      · rw [I.ended he] at hg; simp at hg
    have hst := step_found c (fWindow 0 0) c.root hg he L.comm (by show 4 ≤ _; omega) rfl
    have hid := I.rootId
    have hh : handle (fWindow 0 0) ⟨c, c.root, []⟩ = some ⟨{ c with window := c.window + 0 }, { c.root with st := .closed }, [.rst 0 1]⟩ := by
      simp [handle, fWindow, onWindowUpdate, Ctx.when, Ctx.streamErr, hid, protocolError]
    rw [hh] at hst
    refine ⟨_, hst, ?_⟩
    unfold Ctx.commit
    split <;> exact hg
  · obtain ⟨c1, e1, e2, e3, e4, e5, e6, e7⟩ := open_step L hs false hl
    have hst := step_found c1 (fWindow sid 0) _ e2 e3 e4 (by show 4 ≤ _; omega) e7
    have hh : handle (fWindow sid 0) ⟨c1, openedStream sid hs false, []⟩ =
        some ⟨{ c1 with goaway := true }, { id := sid, st := .open_, peerEnd := true, headers := some hs }, [.goaway 1]⟩ := by
      simp [openedStream, handle, fWindow, onWindowUpdate, Ctx.when, Ctx.connErr, hs0, protocolError]
    rw [hh] at hst
    refine ⟨_, run_two _ _ _ _ _ _ _ e1 hst, ?_⟩
    unfold Ctx.commit
    split <;> rfl

example :
    outs [.frame fSettings, .frame (fWindow 0 0)] = some [.settingsAck, .rst 0 1] ∧
    outs [.frame fSettings, .frame (fHeaders 1 getH false), .frame (fWindow 1 0)] =
      some [.settingsAck, .opened 1, .goaway 1] := by decide

theorem nodup_unique (l : List Stream) (h : (l.map (·.id)).Nodup) (t : Stream) (ht : t ∈ l) (s : Stream) (hs : s ∈ l)
    (e : t.id = s.id) : t = s := by
  induction l with
  | nil => cases ht
  | cons a l ih =>
    rw [List.map_cons, List.nodup_cons] at h
    rcases List.mem_cons.1 ht with rfl | ht' <;> rcases List.mem_cons.1 hs with rfl | hs'
    · rfl
    · exact absurd (e ▸ List.mem_map_of_mem hs') h.1
    · exact absurd (e ▸ List.mem_map_of_mem ht') h.1
    · exact ih h.2 ht' hs'

/-- The step on a frame whose stream is there or may be opened, on a live connection. -/
theorem step_usable {maxBody : Nat} {es : List Ev} {c : Conn} {o : List Out} (h : run (Conn.init maxBody) es = some (c, o))
    (hg : c.goaway = false) (hc : c.comm = true) (f : Frame) (hl : f.length ≤ c.maxFrame)
    (hu : MayUse c.streams (openedIds o) f.sid) :
    ∃ c1 s pre, step c (.frame f) = (handle f ⟨c1, s, pre⟩).map (fun y => (y.commit, y.o)) ∧
      c1.goaway = false ∧ c1.maxHandled = c.maxHandled ∧ s.id = f.sid ∧ (pre = [] ∨ pre = [.opened f.sid]) ∧
      (f.sid ≠ 0 → (s.st = .idle ↔ StaysIdle c.streams f.sid)) := by
  have r := run_spec es [] (Conn.init maxBody) c o (fun _ => Inv.init maxBody none) h
  have I := r.inv hg
  have mc : c.maxConc = none := r.maxConc
  have he : c.ended = false := by
    cases he : c.ended
    · rfl
    · rw [I.ended he] at hg; simp at hg
  cases hf : search c f.sid with
  | some s =>
    refine ⟨c, s, [], step_found c f s hg he hc hl hf, hg, rfl, ?_, Or.inl rfl, ?_⟩
    · unfold search at hf
      by_cases h0 : f.sid = 0
      · rw [if_pos h0] at hf
        cases hf
        rw [h0]; exact I.rootId
      · rw [if_neg h0] at hf
        have := List.find?_some hf
        simpa using this
    · intro h0
      unfold search at hf
      rw [if_neg h0] at hf
      have hid : s.id = f.sid := by
        have := List.find?_some hf
        simpa using this
      have hm := List.mem_of_find?_eq_some hf
      constructor
      · intro hi t ht htid
        have : t = s := nodup_unique _ I.nodup t ht s hm (htid.trans hid.symm)
        rw [this]; exact hi
      · intro hi; exact hi s hm hid
  | none =>
    have hs0 : f.sid ≠ 0 := by
      intro h0
      unfold search at hf
      rw [if_pos h0] at hf
      cases hf
    have hnin : ∀ s ∈ c.streams, s.id ≠ f.sid := by
      unfold search at hf
      rw [if_neg hs0, List.find?_eq_none] at hf
      intro s hs
      have := hf s hs
      simpa using this
    rcases hu with hu | hu | ⟨hodd, hnew⟩
    · exact absurd hu hs0
    · obtain ⟨s, hs, e⟩ := List.mem_map.1 hu
      exact absurd e (hnin s hs)
    have hms : c.maxSid < f.sid := by
      rcases r.top with t | t
      · rw [t]; show 0 < _; omega
      · exact hnew _ t
    have href : refuse c f.sid = false := by
      have : ¬ f.sid ≤ c.maxSid := by omega
      simp [refuse, mc, this, hodd]
    refine ⟨create c f.sid, { id := f.sid }, [.opened f.sid], ?_, hg, rfl, rfl, Or.inr rfl, ?_⟩
    · show stepFrame c f = _
      rw [stepFrame_eq c f hg he, if_neg (by omega)]
      unfold stepRest
      rw [hf]
      simp only [href, Bool.false_eq_true, if_false]
      unfold process
      have hcm : (create c f.sid).comm = true := hc
      simp only [hcm, Bool.not_true, Bool.false_and, Bool.false_eq_true, if_false, List.nil_append]
    · intro _
      exact ⟨fun _ s hs e => absurd e (hnin s hs), fun _ => rfl⟩

/-- The connection errors of one frame type, as one formula. -/
theorem fault_iff (l : List Stream) (f : Frame) (code : Nat) : ConnFault l f code ↔
    (f.type = 2 ∧ f.sid = 0 ∧ code = 1) ∨
    (f.type = 3 ∧ ((f.sid = 0 ∧ code = 1) ∨ (StaysIdle l f.sid ∧ code = 1) ∨ (f.length ≠ 4 ∧ code = 6))) ∨
    (f.type = 4 ∧ ((f.sid ≠ 0 ∧ code = 1) ∨ (f.length % 6 ≠ 0 ∧ code = 6) ∨
      (f.flags % 2 = 0 ∧ f.settings = .flowControlError ∧ code = 3) ∨ (f.flags % 2 = 0 ∧ f.settings = .protocolError ∧ code = 1))) ∨
    (f.type = 6 ∧ ((f.sid ≠ 0 ∧ code = 1) ∨ (f.length ≠ 8 ∧ code = 6))) ∨
    (f.type = 7 ∧ f.sid ≠ 0 ∧ code = 1) ∨ (f.type = 8 ∧ f.length ≠ 4 ∧ code = 6) := by
  constructor
  · intro h; cases h <;> simp_all
  · rintro (⟨a, b, rfl⟩ | ⟨a, (⟨b, rfl⟩ | ⟨b, rfl⟩ | ⟨b, rfl⟩)⟩ | ⟨a, (⟨b, rfl⟩ | ⟨b, rfl⟩ | ⟨b, d, rfl⟩ | ⟨b, d, rfl⟩)⟩ |
      ⟨a, (⟨b, rfl⟩ | ⟨b, rfl⟩)⟩ | ⟨a, b, rfl⟩ | ⟨a, b, rfl⟩)
    · exact .priorityZero a b
    · exact .rstZero a b
    · exact .rstIdle a b
    · exact .rstSize a b
    · exact .settingsStream a b
    · exact .settingsSize a b
    · exact .settingsWindow a b d
    · exact .settingsValue a b d
    · exact .pingStream a b
    · exact .pingSize a b
    · exact .goawayStream a b
    · exact .windowSize a b

theorem sfault_iff (f : Frame) (sid code : Nat) : StreamFault f sid code ↔ f.type = 2 ∧ f.length ≠ 5 ∧ sid = f.sid ∧ code = 6 := by
  constructor
  · intro h; cases h with | prioritySize a b => exact ⟨a, b, rfl, rfl⟩
  · rintro ⟨a, b, rfl, rfl⟩; exact .prioritySize a b

/-- **C192 (partial).** A control frame (PRIORITY, RST_STREAM, SETTINGS, PING, GOAWAY, WINDOW_UPDATE) is
answered by GOAWAY with an error code exactly if it breaks a rule with that code, and by RST_STREAM exactly
if it breaks the rule that is an error of the stream only.  Missing: frames over the announced size
(`C192_oversized_code_refuted`), acknowledgements that are not empty (`C192_ack_payload_refuted`), increments
of zero (`C65_zero_increment_errors_swapped_refuted`). -/
theorem C192_error_codes_partial (maxBody : Nat) (es : List Ev) (c : Conn) (o : List Out)
    (h : run (Conn.init maxBody) es = some (c, o)) (hg : c.goaway = false) (hc : c.comm = true) (f : Frame)
    (ht : f.type ∈ [2, 3, 4, 6, 7, 8]) (hl : f.length ≤ c.maxFrame) (hu : MayUse c.streams (openedIds o) f.sid)
    (hw : f.type = 8 → f.increment ≠ 0) :
    ∃ c' o', step c (.frame f) = some (c', o') ∧
      (∀ code, code ≠ 0 → (Out.goaway code ∈ o' ↔ ConnFault c.streams f code)) ∧
      (∀ sid code, Out.rst sid code ∈ o' ↔ StreamFault f sid code) ∧
      (f.type ≠ 7 → (c'.goaway = true ↔ ∃ code, ConnFault c.streams f code)) := by
  obtain ⟨c1, s, pre, hst, hg1, hmh, hid, hpre, hidle⟩ := step_usable h hg hc f hl hu
  have hcm : ∀ x : Ctx, x.commit.goaway = x.c.goaway := by
    intro x; unfold Ctx.commit; split <;> rfl
  have hp1 : ∀ code, Out.goaway code ∉ pre := by intro code; rcases hpre with rfl | rfl <;> simp
  have hp2 : ∀ sid code, Out.rst sid code ∉ pre := by intro sid code; rcases hpre with rfl | rfl <;> simp
  rw [hst]
  have hg' : ∀ (x : Ctx) (p : Prop), (x.c.goaway = true ↔ p) → (x.commit.goaway = true ↔ p) := fun x p h => by rw [hcm]; exact h
  simp only [List.mem_cons, List.not_mem_nil, or_false] at ht
  rcases ht with ht | ht | ht | ht | ht | ht
  · refine ⟨_, _, by simp only [handle, ht, onPriority, Option.map_some]; rfl, ?_, ?_, fun _ => hg' _ _ ?_⟩ <;>
    · simp only [fault_iff, sfault_iff, ht]
      by_cases h0 : f.sid = 0 <;> by_cases h5 : f.length = 5 <;>
        simp [Ctx.when, Ctx.connErr, Ctx.streamErr, hid, h0, h5, hp1, hp2, hg1, protocolError, frameSizeError]
  · refine ⟨_, _, by simp only [handle, ht, onRst, Option.map_some]; rfl, ?_, ?_, fun _ => hg' _ _ ?_⟩ <;>
    · simp only [fault_iff, sfault_iff, ht]
      by_cases h0 : f.sid = 0 <;> by_cases h5 : f.length = 4 <;> by_cases hi : s.st = .idle <;>
        by_cases hj : StaysIdle c.streams f.sid <;>
        simp_all [Ctx.when, Ctx.connErr, Ctx.streamErr, protocolError, frameSizeError]
  · have hfl : flag f.flags 0 = decide (f.flags % 2 = 1) := by
      rw [Bool.eq_iff_iff]; simp [flag]
    by_cases hb : f.flags % 2 = 1
    · refine ⟨_, _, by simp only [handle, ht, onSettings, hfl, hb, decide_true, if_true, Option.map_some]; rfl, ?_, ?_, fun _ => hg' _ _ ?_⟩ <;>
      · simp only [fault_iff, sfault_iff, ht]
        by_cases h0 : f.sid = 0 <;> by_cases h5 : f.length % 6 = 0 <;>
          simp [Ctx.when, Ctx.connErr, h0, h5, hp1, hp2, hg1, hb, protocolError, frameSizeError]
    · have hb0 : f.flags % 2 = 0 := by omega
      cases hse : f.settings <;>
      · refine ⟨_, _, by simp only [handle, ht, onSettings, hfl, hb, decide_false, Bool.false_eq_true, if_false, hse, Option.map_some]; rfl, ?_, ?_, fun _ => hg' _ _ ?_⟩ <;>
        · simp only [fault_iff, sfault_iff, ht]
          by_cases h0 : f.sid = 0 <;> by_cases h5 : f.length % 6 = 0 <;>
            simp [Ctx.when, Ctx.connErr, h0, h5, hp1, hp2, hg1, hb0, hse, protocolError, frameSizeError, flowControlError]
  · refine ⟨_, _, by simp only [handle, ht, onPing, Option.map_some]; rfl, ?_, ?_, fun _ => hg' _ _ ?_⟩ <;>
    · simp only [fault_iff, sfault_iff, ht]
      by_cases h0 : f.sid = 0 <;> by_cases h5 : f.length = 8 <;>
        simp [Ctx.when, Ctx.connErr, h0, h5, hp1, hp2, hg1, protocolError, frameSizeError]
  · refine ⟨_, _, by simp only [handle, ht, onGoaway, Option.map_some]; rfl, ?_, ?_, fun h7 => absurd ht h7⟩ <;>
    · simp only [fault_iff, sfault_iff, ht]
      by_cases h0 : f.sid = 0 <;> by_cases h5 : f.lastSid ≤ c1.maxHandled <;>
        simp +contextual [Ctx.when, Ctx.connErr, h0, h5, hp1, hp2, protocolError]
  · have hw := hw ht
    by_cases hs0 : f.sid = 0
    · refine ⟨_, _, by simp only [handle, ht, onWindowUpdate, hs0, ne_eq, not_true_eq_false, if_false, Option.map_some]; rfl, ?_, ?_, fun _ => hg' _ _ ?_⟩ <;>
      · simp only [fault_iff, sfault_iff, ht]
        by_cases h5 : f.length = 4 <;>
          simp [Ctx.when, Ctx.connErr, h5, hp1, hp2, hg1, hw, frameSizeError]
    · refine ⟨_, _, by simp only [handle, ht, onWindowUpdate, hs0, ne_eq, not_false_eq_true, if_true, Option.map_some]; rfl, ?_, ?_, fun _ => hg' _ _ ?_⟩ <;>
      · simp only [fault_iff, sfault_iff, ht]
        by_cases h5 : f.length = 4 <;>
          simp [Ctx.when, Ctx.connErr, h5, hp1, hp2, hg1, hw, frameSizeError]

/-- Answering a request adds no GOAWAY and no RST_STREAM. -/
theorem respond_errs (f : Frame) (x y : Ctx) (h : respond f x = some y) (a : Out) (ha : (∃ n, a = .goaway n) ∨ ∃ s n, a = .rst s n) :
    a ∈ y.o ↔ a ∈ x.o := by
  have hne : a ≠ .emergency ∧ ∀ s hs b d, a ≠ .dispatch s hs b d := by
    rcases ha with ⟨n, rfl⟩ | ⟨s, n, rfl⟩ <;> simp
  unfold respond at h
  split at h
  · split at h
    · cases h
    · cases h
      split <;> simp [Ctx.emergency, hne.1, hne.2]
  · cases h; rfl

/-- **C192 (partial).** A HEADERS frame on a stream the client may use ends the connection with
COMPRESSION_ERROR (9) exactly if its header block does not decode, and with no other code. -/
theorem C192_header_block_partial (maxBody : Nat) (es : List Ev) (c : Conn) (o : List Out)
    (h : run (Conn.init maxBody) es = some (c, o)) (hg : c.goaway = false) (hc : c.comm = true) (f : Frame)
    (ht : f.type = 1) (h0 : f.sid ≠ 0) (hl : f.length ≤ c.maxFrame) (hu : MayUse c.streams (openedIds o) f.sid)
    (c' : Conn) (o' : List Out) (hs : step c (.frame f) = some (c', o')) (code : Nat) :
    Out.goaway code ∈ o' ↔ code = 9 ∧ f.hdrsOk = false := by
  obtain ⟨c1, s, pre, hst, hg1, hmh, hid, hpre, hidle⟩ := step_usable h hg hc f hl hu
  have hp1 : ∀ code, Out.goaway code ∉ pre := by intro code; rcases hpre with rfl | rfl <;> simp
  rw [hst] at hs
  cases hh : handle f ⟨c1, s, pre⟩ with
  | none => rw [hh] at hs; cases hs
  | some y =>
    rw [hh] at hs
    cases hs
    have hh' : onHeaders f ⟨c1, s, pre⟩ = some y := by rw [← hh]; simp [handle, ht]
    unfold onHeaders at hh'
    simp only [hid] at hh'
    split at hh'
    · cases hh'
    · have := respond_errs f _ y hh' (.goaway code) (Or.inl ⟨code, rfl⟩)
      refine this.trans ?_
      have hw : ∀ (b : Bool) (g : Ctx → Ctx) (x : Ctx), (g x).o = x.o → (x.when b g).o = x.o := by
        intro b g x hx; unfold Ctx.when; split
        · exact hx
        · rfl
      have hw2 : ∀ (b : Bool) (n : Nat) (x : Ctx), Out.goaway code ∈ (x.when b (Ctx.streamErr n)).o ↔ Out.goaway code ∈ x.o := by
        intro b n x; unfold Ctx.when; split
        · simp [Ctx.streamErr]
        · rfl
      have hw3 : ∀ (b : Bool) (n : Nat) (x : Ctx), Out.goaway code ∈ (x.when b (Ctx.connErr n)).o ↔ Out.goaway code ∈ x.o ∨ (b = true ∧ code = n) := by
        intro b n x; unfold Ctx.when; split
        · next hb => simp [Ctx.connErr, hb]
        · next hb => simp [hb]
      rw [hw, hw, hw3]
      · show Out.goaway code ∈ (Ctx.when _ _ _).o ∨ _ ↔ _
        rw [hw, hw, hw2, hw3]
        · simp [hp1, h0, compressionError, and_comm]
        · rfl
        · rfl
      · rfl
      · rfl

/-- **C192 (partial).** DATA on a stream that exists and is not open is answered by RST_STREAM with
STREAM_CLOSED (5); on an open stream there is no RST_STREAM; never a GOAWAY. -/
theorem C192_data_state_partial (maxBody : Nat) (es : List Ev) (c : Conn) (o : List Out)
    (h : run (Conn.init maxBody) es = some (c, o)) (hg : c.goaway = false) (hc : c.comm = true) (f : Frame)
    (ht : f.type = 0) (hl : f.length ≤ c.maxFrame) (s : Stream) (hm : s ∈ c.streams) (hsid : s.id = f.sid)
    (c' : Conn) (o' : List Out) (hs : step c (.frame f) = some (c', o')) :
    (∀ code, Out.goaway code ∉ o') ∧
    ∀ sid code, Out.rst sid code ∈ o' ↔ sid = f.sid ∧ code = 5 ∧ s.st ≠ .open_ ∧ s.st ≠ .halfLocal := by
  have r := run_spec es [] (Conn.init maxBody) c o (fun _ => Inv.init maxBody none) h
  have I := r.inv hg
  have he : c.ended = false := by
    cases he : c.ended
    · rfl
    · rw [I.ended he] at hg; simp at hg
  have h0 : f.sid ≠ 0 := by have := (I.range s hm).1; omega
  have hfind : search c f.sid = some s := by
    unfold search
    rw [if_neg h0]
    cases hf : c.streams.find? (fun s => s.id == f.sid) with
    | none =>
      rw [List.find?_eq_none] at hf
      exact absurd (by simp [hsid]) (hf s hm)
    | some t =>
      have h1 := List.find?_some hf
      have h2 := List.mem_of_find?_eq_some hf
      rw [nodup_unique _ I.nodup t h2 s hm (by simp only [beq_iff_eq] at h1; rw [h1, hsid])]
  rw [step_found c f s hg he hc hl hfind] at hs
  cases hh : handle f ⟨c, s, []⟩ with
  | none => rw [hh] at hs; cases hs
  | some y =>
    rw [hh] at hs
    cases hs
    have hh' : onData f ⟨c, s, []⟩ = some y := by rw [← hh]; simp [handle, ht]
    -- the errors before the payload
    have key : ∀ a : Out, ((∃ n, a = .goaway n) ∨ ∃ s n, a = .rst s n) →
        (a ∈ y.o ↔ a = .rst f.sid 5 ∧ s.st ≠ .open_ ∧ s.st ≠ .halfLocal) := by
      intro a ha
      have hwu : ∀ i n, a ≠ .windowUpdate i n := by rcases ha with ⟨n, rfl⟩ | ⟨s, n, rfl⟩ <;> simp
      have hne : a ≠ .emergency := by rcases ha with ⟨n, rfl⟩ | ⟨s, n, rfl⟩ <;> simp
      have hpd : ∀ x z b, parseData x (dataLen f) f.data = some (z, b) → (a ∈ z.o ↔ a ∈ x.o) := by
        intro x z b hx
        unfold parseData at hx
        split at hx
        · cases hx; rfl
        · split at hx
          · cases hx
          · simp only at hx
            split at hx
            · cases hx; simp [hwu]
            · split at hx
              · cases hx; simp [hwu]
              · split at hx
                · cases hx; rfl
                · cases hx; simp [hwu]
      unfold onData at hh'
      simp only at hh'
      have hx0 : a ∈ (((Ctx.mk c s []).when (s.id == 0) (Ctx.connErr protocolError)).when
          (!(((Ctx.mk c s []).when (s.id == 0) (Ctx.connErr protocolError)).s.st == .open_ ||
            ((Ctx.mk c s []).when (s.id == 0) (Ctx.connErr protocolError)).s.st == .halfLocal)) (Ctx.streamErr streamClosed)).o ↔
          a = .rst f.sid 5 ∧ s.st ≠ .open_ ∧ s.st ≠ .halfLocal := by
        clear hh' hh hfind I r
        cases hq : s.st <;> simp [Ctx.when, Ctx.streamErr, streamClosed, hq, hsid, h0]
      split at hh'
      · cases hh'
      · next z hz =>
        cases hh'
        rw [← hx0, ← hpd _ _ _ hz]
        simp [Ctx.emergency, hne]
      · next z hz =>
        rw [respond_errs f _ y hh' a ha, ← hx0, ← hpd _ _ _ hz]
        unfold Ctx.when
        split <;> rfl
    refine ⟨fun code hm => ?_, fun sid code => ?_⟩
    · have := (key _ (Or.inl ⟨code, rfl⟩)).1 hm
      simp at this
    · rw [key _ (Or.inr ⟨sid, code, rfl⟩)]
      simp [and_assoc]

/-- A header block that does not decode; DATA after END_STREAM. -/
example : outs [.frame fSettings, .frame { type := 1, flags := 4, sid := 1, length := 3, hdrsOk := false }] =
    some [.settingsAck, .opened 1, .goaway 9] := by decide
example : outs [.frame fSettings, .frame (fHeaders 1 getH true), .frame (fData 1 [] false)] =
    some [.settingsAck, .opened 1, .dispatch 1 getH none false, .rst 1 5] := by decide

/-- A PING of nine bytes, a RST_STREAM on a stream never used, a well-formed PING. -/
example : outs [.frame fSettings, .frame { type := 6, flags := 0, sid := 0, length := 9 }] =
    some [.settingsAck, .goaway 6, .pong] := by decide
example : outs [.frame fSettings, .frame { type := 3, flags := 0, sid := 7, length := 4 }] =
    some [.settingsAck, .opened 7, .goaway 1] := by decide
example : outs [.frame fSettings, .frame { type := 6, flags := 0, sid := 0, length := 8 }] = some [.settingsAck, .pong] := by decide
example : MayUse [] [] 7 := Or.inr (Or.inr ⟨rfl, by simp⟩)

/-- **C192 refuted (oversized frames).** A HEADERS frame longer than the announced maximum is reported with
PROTOCOL_ERROR instead of FRAME_SIZE_ERROR, and its request is answered all the same. -/
theorem C192_oversized_code_refuted (maxBody : Nat) (es : List Ev) (c : Conn) (o : List Out) (sid : Nat)
    (L : Live maxBody es c o sid) (f : Frame) (ht : f.type = 1) (hsid : f.sid = sid) (hlen : c.maxFrame < f.length)
    (hes : endStream f = true) (heh : endHeaders f = true) (hok : f.hdrsOk = true) (hr : f.respOk = true) :
    ∃ c', step c (.frame f) = some (c', [.goaway 1, .opened sid, .dispatch sid f.hdrs none false]) := by
  subst hsid
  obtain ⟨h, hg, hc, hodd, hnew⟩ := L
  have r := run_spec es [] (Conn.init maxBody) c o (fun _ => Inv.init maxBody none) h
  have I := r.inv hg
  have mc : c.maxConc = none := r.maxConc
  have hs0 : f.sid ≠ 0 := by omega
  have he : c.ended = false := by
    cases he : c.ended
    · rfl
    · rw [I.ended he] at hg; simp at hg
  have hms : c.maxSid < f.sid := by
    rcases r.top with t | t
    · rw [t]; show 0 < _; omega
    · exact hnew _ t
  have hfind : search { c with goaway := true } f.sid = none := by
    unfold search; rw [if_neg hs0, List.find?_eq_none]; intro s hs
    have := (I.range s hs).2
    simp only [beq_iff_eq]; omega
  have href : refuse { c with goaway := true } f.sid = false := by
    have : ¬ f.sid ≤ c.maxSid := by omega
    simp [refuse, mc, this, hodd]
  show ∃ c', stepFrame c f = some (c', _)
  have hh : ∀ c1, handle f ⟨c1, { id := f.sid }, [.goaway 1, .opened f.sid]⟩ =
      some ⟨c1, { id := f.sid, st := .halfRemote, peerEnd := true, canResp := true, headers := some f.hdrs },
        [.goaway 1, .opened f.sid, .dispatch f.sid f.hdrs none false]⟩ := by
    intro c1
    unfold handle
    rw [ht]
    simp [onHeaders, Ctx.when, hs0, respond, hes, heh, hok, hr]
  rw [stepFrame_eq c f hg he, if_pos hlen]
  unfold stepRest
  rw [hfind]
  simp only [href, Bool.false_eq_true, if_false]
  unfold process
  have hcm : (create { c with goaway := true } f.sid).comm = true := hc
  simp only [hcm, Bool.not_true, Bool.false_and, Bool.false_eq_true, if_false]
  simp only [protocolError, List.cons_append, List.nil_append, hh, Option.map_some]
  exact ⟨_, rfl⟩

example : outs [.frame fSettings, .frame { type := 1, flags := 5, sid := 1, length := 16385, hdrs := getH }] =
    some [.settingsAck, .goaway 1, .opened 1, .dispatch 1 getH none false] := by decide

/-- **C192 refuted (acknowledgements).** A SETTINGS frame with ACK and a payload, a FRAME_SIZE_ERROR by RFC
9113 §6.5, is accepted in silence if its length is a multiple of six. -/
theorem C192_ack_payload_refuted (maxBody : Nat) (es : List Ev) (c : Conn) (o : List Out)
    (h : run (Conn.init maxBody) es = some (c, o)) (hg : c.goaway = false) (hc : c.comm = true) (f : Frame)
    (ht : f.type = 4) (hs : f.sid = 0) (ha : f.flags % 2 = 1) (hl : f.length ≤ c.maxFrame) (k : Nat) (hk : f.length = 6 * k) :
    ∃ c', step c (.frame f) = some (c', []) ∧ c'.goaway = false := by
  have r := run_spec es [] (Conn.init maxBody) c o (fun _ => Inv.init maxBody none) h
  have I := r.inv hg
  have he : c.ended = false := by
    cases he : c.ended
    · rfl
    · rw [I.ended he] at hg; simp at hg
  have hst := step_found c f c.root hg he hc hl (by rw [hs]; rfl)
  have hfl : flag f.flags 0 = true := by simp [flag, ha]
  have hm : f.length % 6 = 0 := by omega
  refine ⟨(Ctx.mk c c.root []).commit, ?_, ?_⟩
  · rw [hst]
    simp [handle, ht, onSettings, hs, hm, hfl, Ctx.when]
  · unfold Ctx.commit; split <;> exact hg

example : outs [.frame fSettings, .frame { type := 4, flags := 1, sid := 0, length := 12 }] = some [.settingsAck] := by decide

end Fly.H2S
