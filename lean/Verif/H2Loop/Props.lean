import Verif.H2Loop.Live
import Verif.H2Loop.Order
import Verif.H2Loop.Fit
import Verif.H2Stream.Props

/-! # Properties of an HTTP/2 connection over time -/

namespace Fly.H2L
open Fly.H2S (Frame Out SState Stream Conn fSettings fHeaders fData fRst fWindow getH)

/-! ## Concrete connections -/

def hello : Nat → Option Nat := fun _ => some 5
def fPing : Frame := { type := 6, flags := 0, sid := 0, length := 8 }
def fPush (sid : Nat) : Frame := { type := 5, flags := 0, sid := sid, length := 4 }
def fGet (sid : Nat) : Frame := fHeaders sid getH true

/-- What is sent, in a run without a crash. -/
def sent (app : Nat → Option Nat) (input : List Frame) (ss : List Step) : Option (List Item) :=
  match run app (Link.start 1000 input) ss with
  | .ok (_, ev) => some (sentOf ev)
  | .error _ => none

/-- The effects of the client's frames. -/
def did (app : Nat → Option Nat) (input : List Frame) (ss : List Step) : Option (List Out) :=
  match run app (Link.start 1000 input) ss with
  | .ok (_, ev) => some (didOf ev)
  | .error _ => none

def crash (app : Nat → Option Nat) (input : List Frame) (ss : List Step) : Option Bug :=
  match run app (Link.start 1000 input) ss with
  | .ok _ => none
  | .error b => some b

def beats (n : Nat) : List Step := List.replicate n (.turn 1000 [] true)

/-! ## Runs -/

theorem run_append (app : Nat → Option Nat) : ∀ (a b : List Step) (l l1 : Link) (ev1 : List Ev), run app l a = .ok (l1, ev1) →
    run app l (a ++ b) = match run app l1 b with
      | .error b => .error b
      | .ok (l2, ev2) => .ok (l2, ev1 ++ ev2)
  | [], b, l, l1, ev1, h => by
    simp only [run, Except.ok.injEq, Prod.mk.injEq] at h
    obtain ⟨rfl, rfl⟩ := h
    simp only [List.nil_append]
    cases run app l b <;> rfl
  | s :: a, b, l, l1, ev1, h => by
    rw [run.eq_def] at h
    simp only at h
    rw [List.cons_append, run.eq_def]
    simp only
    cases e : step app l s with
    | error x => rw [e] at h; simp at h
    | ok r =>
      obtain ⟨l0, ev0⟩ := r
      rw [e] at h
      simp only at h ⊢
      cases e2 : run app l0 a with
      | error x => rw [e2] at h; simp at h
      | ok r =>
        obtain ⟨l2, ev2⟩ := r
        rw [e2] at h
        simp only [Except.ok.injEq, Prod.mk.injEq] at h
        obtain ⟨rfl, rfl⟩ := h
        rw [run_append app a b l0 l2 ev2 e2]
        cases run app l2 b with
        | error x => rfl
        | ok r => simp [List.append_assoc]

theorem Reachable.ok {app : Nat → Option Nat} {l : Link} (h : Reachable app l) : OK l := by
  obtain ⟨mb, input, ss, ev, h⟩ := h
  exact ((run_ok app ss _ (start_ok mb input)).ok h).1

theorem Reachable.sound {app : Nat → Option Nat} {l : Link} (h : Reachable app l) (hc : l.closed = false) (hg : l.c.goaway = false) : Sound l := by
  rcases h.ok with a | a | a
  · rw [hc] at a; simp at a
  · rw [hg] at a; simp at a
  · exact a

theorem turn_wait (app : Nat → Option Nat) (k : Nat) (more : List Nat) (w : Bool) (l : Link) (hc : l.closed = false) (hh : l.handler = .wait)
    (hs : 0 < l.sock) (hr : (ready w l).read = true) : turn app k more w l = turnLoop app (ready w l) (recv k l) more := by
  unfold turn
  rw [if_neg (by simp [hc])]
  simp only [hr, hh, hs, Bool.not_true, Bool.false_and, Bool.false_eq_true, if_false, if_true]

/-! ## C124 — every complete request is answered, however it arrives -/

theorem asked_append (a b : List Out) : asked (a ++ b) = asked a ++ asked b := by simp [asked, List.filterMap_append]

theorem stepFrame_off {c c' : Conn} {f : Frame} {o : List Out} (h : H2S.stepFrame c f = some (c', o)) (hg : c'.goaway = false) (he : c'.ended = false) :
    c.goaway = false ∧ c.ended = false := by
  by_cases hge : (c.goaway || c.ended) = true
  · unfold H2S.stepFrame at h
    rw [if_pos hge] at h
    simp only [Option.some.injEq, Prod.mk.injEq] at h
    rw [h.1]; exact ⟨hg, he⟩
  · simpa using hge

theorem run_off : ∀ (fs : List Frame) (c c' : Conn) (o : List Out), H2S.run c (fs.map .frame) = some (c', o) → c'.goaway = false → c'.ended = false →
    c.goaway = false ∧ c.ended = false
  | [], c, c', o, h, hg, he => by
    simp only [List.map_nil, H2S.run, Option.some.injEq, Prod.mk.injEq] at h
    rw [h.1]; exact ⟨hg, he⟩
  | f :: fs, c, c', o, h, hg, he => by
    simp only [List.map_cons, H2S.run, H2S.step] at h
    cases e : H2S.stepFrame c f with
    | none => rw [e] at h; simp at h
    | some r =>
      obtain ⟨c1, o1⟩ := r
      rw [e] at h
      simp only at h
      cases hr : H2S.run c1 (fs.map .frame) with
      | none => rw [hr] at h; simp at h
      | some r =>
      obtain ⟨r1, r2⟩ := r
      rw [hr] at h
      simp only [Option.some.injEq, Prod.mk.injEq] at h
      have := run_off fs c1 r1 r2 hr (by rw [h.1]; exact hg) (by rw [h.1]; exact he)
      exact stepFrame_off e this.1 this.2

theorem asks_of_run (sid : Nat) (f : Frame) (c2 : Conn) (o2 : List Out) : ∀ (fs : List Frame) (c c1 : Conn) (o1 : List Out),
    (∀ g ∈ fs ++ [f], g.length ≤ c.maxFrame) → H2S.run c (fs.map .frame) = some (c1, o1) → asked o1 = [] →
    H2S.stepFrame c1 f = some (c2, o2) → asked o2 = [sid] → c2.goaway = false → c2.ended = false → Asks sid c (fs ++ [f]) c2 (o1 ++ o2)
  | [], c, c1, o1, hl, h, ha, h2, ha2, hg, he => by
    simp only [List.map_nil, H2S.run, Option.some.injEq, Prod.mk.injEq] at h
    obtain ⟨rfl, rfl⟩ := h
    exact .last (hl f (by simp)) h2 ha2 hg he
  | g :: fs, c, c1, o1, hl, h, ha, h2, ha2, hg, he => by
    simp only [List.map_cons, H2S.run, H2S.step] at h
    cases e : H2S.stepFrame c g with
    | none => rw [e] at h; simp at h
    | some r =>
      obtain ⟨c0, o0⟩ := r
      rw [e] at h
      simp only at h
      cases hr : H2S.run c0 (fs.map .frame) with
      | none => rw [hr] at h; simp at h
      | some r =>
      obtain ⟨r1, r2⟩ := r
      rw [hr] at h
      simp only [Option.some.injEq, Prod.mk.injEq] at h
      obtain ⟨rfl, rfl⟩ := h
      rw [asked_append, List.append_eq_nil_iff] at ha
      have off1 := stepFrame_off h2 hg he
      have off0 := run_off fs c0 r1 r2 hr off1.1 off1.2
      have mf := H2S.stepFrame_maxFrame c c0 g o0 e
      rw [List.append_assoc]
      refine .cons (hl g (by simp)) e ha.1 off0.1 off0.2 ?_
      exact asks_of_run sid f c2 o2 fs c0 r1 r2 (fun x hx => by rw [mf]; exact hl x (List.mem_cons_of_mem _ hx)) hr ha.2 h2 ha2 hg he

/-- **C124 (partial).** On an idle connection, whatever happened on it before: a client sends frames of
which the last one, `f`, completes a request on `sid`.  However the bytes of these frames are cut into
pieces, however the pieces and the turns of the event loop follow each other, and whether or not the socket
can be written in between: if afterwards there are enough turns with a writable socket, all frames owed are
sent, in order, the response's headers and its body among them, nothing else is sent, and the connection is
idle again but for frames the client has not sent yet.

Missing: frames sent behind a request (`C124_frames_behind_a_request_refuted`), windows that are closed,
partial writes. -/
theorem C124_request_answered_partial (app : Nat → Option Nat) (l : Link) (hr : Reachable app l) (hi : Idle l)
    (fs : List Frame) (f : Frame) (rest : List Frame) (hin : l.input = fs ++ f :: rest) (hlen : ∀ g ∈ fs ++ [f], g.length ≤ l.c.maxFrame)
    (c1 c2 : Conn) (o1 o2 : List Out) (sid : Nat)
    (h1 : H2S.run l.c (fs.map .frame) = some (c1, o1)) (ha1 : asked o1 = [])
    (h2 : H2S.stepFrame c1 f = some (c2, o2)) (ha2 : asked o2 = [sid]) (hg : c2.goaway = false) (he : c2.ended = false)
    (s : Stream) (hs : c2.streams.find? (fun s => s.id == sid) = some s) (hst : s.st = .halfRemote) (hw : 0 < s.window) (hcw : 0 < c2.window)
    (ss : List Step) (hfin : ∀ x ∈ ss, x.isFin = false) (harr : arriving ss = bytes (fs ++ [f]))
    (m : List (Nat × List Nat)) (hm : 11 + 2 * bytes (fs ++ [f]) ≤ m.length) :
    ∃ l' ev, run app l (ss ++ pulse m) = .ok (l', ev) ∧
      sentOf ev = l.queue ++ (o1 ++ o2).flatMap owed ++ bodyOf sid (app sid) ∧
      l'.queue = [] ∧ l'.resps = [] ∧ l'.buf = 0 ∧ l'.input = rest ∧ l'.closed = false := by
  have as := asks_of_run sid f c2 o2 fs l.c c1 o1 hlen h1 ha1 h2 ha2 hg he
  let R : Req := ⟨app, sid, rest, c2, l.queue ++ (o1 ++ o2).flatMap owed⟩
  have ho : Open R R.c2 := ⟨⟨s, hs, hst, hw⟩, hcw⟩
  have so := hr.sound hi.closed hi.goaway
  have pre : Pre R (arriving ss + 0) [] (fs ++ [f]) l := by
    refine ⟨⟨hi.fin, hi.eof, hi.closed, hi.goaway, hi.read⟩, ?_, ⟨_, as, rfl⟩, hi.resps, ?_, ?_⟩
    · rw [hin]; simp [R]
    · rw [hi.buf, hi.sock, harr]; omega
    · intro hw
      rcases so.write hw with a | a
      · exact a
      · exact absurd hi.resps a
  have rc : Rec R (arriving ss + 0) [] l := by
    refine ⟨?_⟩
    cases e : fs ++ [f] with
    | nil => simp at e
    | cons g gs =>
      rw [e] at pre
      exact ⟨g, gs, pre, by rw [hi.buf]; unfold size; omega⟩
  obtain ⟨l1, ev1, e1, al, ok1⟩ := alive_run R ho ss 0 [] l hr.ok hfin (.inl rc)
  have fin : ∃ l' ev, run app l1 (pulse m) = .ok (l', ev) ∧ Stage R (([] ++ sentOf ev1) ++ sentOf ev) l' 0 := by
    rcases al with h | ⟨_, i, h⟩
    · refine rec_run R ho m _ l1 ok1 h ?_
      obtain ⟨g, gs, p, hb⟩ := h
      have pb := p.bytes
      obtain ⟨o, as', _⟩ := p.asks
      have : l1.sock ≤ bytes (fs ++ [f]) := by
        have r1 := p.input
        have r2 : ∃ pre, fs ++ [f] = pre ++ (g :: gs) := by
          have : l1.input = (g :: gs) ++ rest := r1
          have inv := run_input R.app ss l l1 ev1 e1
          obtain ⟨pre, hp⟩ := inv
          refine ⟨pre, ?_⟩
          rw [hin, this] at hp
          have : fs ++ [f] ++ rest = pre ++ (g :: gs) ++ rest := by simpa [List.append_assoc] using hp
          exact List.append_cancel_right this
        obtain ⟨pre, hp⟩ := r2
        rw [hp]
        have : bytes (pre ++ g :: gs) = bytes pre + bytes (g :: gs) := by simp [bytes]
        omega
      unfold rankA wt
      omega
    · refine stage_run R m _ i l1 ok1 h ?_
      have : i ≤ 4 := by
        rcases Nat.lt_or_ge 4 i with hl | hl
        · match i, hl, h with
          | (n + 5), _, h => exact absurd h (by simp [Stage])
        · exact hl
      unfold rankB wt
      split <;> omega
  obtain ⟨l2, ev2, e2, st⟩ := fin
  refine ⟨l2, ev1 ++ ev2, ?_, ?_, ?_⟩
  · have e1' : run app l ss = .ok (l1, ev1) := e1
    rw [run_append app ss _ l l1 ev1 e1', e2]
  · rw [sentOf_append]
    exact st.2.2.2.1
  · exact ⟨st.2.2.1, st.2.1, st.1.buf, st.1.input, st.1.plain.closed⟩

theorem step_request (c : Conn) (f : Frame) (h : IsRequest f) (hg : c.goaway = false) (he : c.ended = false) (hc : c.comm = true)
    (hl : f.length ≤ c.maxFrame) (hms : c.maxSid < f.sid) (hmc : c.maxConc = none) (hn : ∀ s ∈ c.streams, s.id ≠ f.sid) :
    ∃ c2, H2S.stepFrame c f = some (c2, [.opened f.sid, .dispatch f.sid f.hdrs none false]) ∧ c2.goaway = false ∧ c2.ended = false ∧
      c2.window = c.window ∧ ∃ s, c2.streams.find? (fun s => s.id == f.sid) = some s ∧ s.st = .halfRemote ∧ s.window = 65535 := by
  obtain ⟨ht, hodd, hes, heh, hok, hr⟩ := h
  have hs0 : f.sid ≠ 0 := by omega
  have hfind : H2S.search c f.sid = none := by
    unfold H2S.search; rw [if_neg hs0, List.find?_eq_none]; intro s hs
    simpa using hn s hs
  have href : H2S.refuse c f.sid = false := by
    have : ¬ f.sid ≤ c.maxSid := by omega
    simp [H2S.refuse, hmc, this, hodd]
  rw [H2S.stepFrame_eq c f hg he, if_neg (by omega)]
  unfold H2S.stepRest
  rw [hfind]
  simp only [href, Bool.false_eq_true, if_false]
  unfold H2S.process
  have hcm : (H2S.create c f.sid).comm = true := hc
  simp only [hcm, Bool.not_true, Bool.false_and, Bool.false_eq_true, if_false]
  have hh : H2S.handle f ⟨H2S.create c f.sid, { id := f.sid }, [.opened f.sid]⟩ =
      some ⟨H2S.create c f.sid, { id := f.sid, st := .halfRemote, peerEnd := true, canResp := true, headers := some f.hdrs },
        [.opened f.sid, .dispatch f.sid f.hdrs none false]⟩ := by
    unfold H2S.handle
    rw [ht]
    simp [H2S.onHeaders, H2S.Ctx.when, hs0, H2S.respond, hes, heh, hok, hr]
  rw [List.nil_append, hh]
  refine ⟨_, rfl, ?_⟩
  unfold H2S.Ctx.commit
  rw [if_neg hs0]
  refine ⟨hg, he, rfl, { id := f.sid, st := .halfRemote, peerEnd := true, canResp := true, headers := some f.hdrs }, ?_, rfl, rfl⟩
  · show List.find? _ (List.map _ (c.streams ++ [_])) = _
    rw [List.map_append, List.find?_append]
    have : List.find? (fun s => s.id == f.sid) (List.map (fun s => if s.id = f.sid then
        ({ id := f.sid, st := .halfRemote, peerEnd := true, canResp := true, headers := some f.hdrs } : Stream) else s) c.streams) = none := by
      rw [List.find?_eq_none]
      intro s hs
      rw [List.mem_map] at hs
      obtain ⟨t, ht, rfl⟩ := hs
      rw [if_neg (hn t ht)]
      simpa using hn t ht
    rw [this]
    simp

/-- **C124 (partial).** In particular: on any idle connection whose settings have been exchanged and whose
window is open, a request in one HEADERS frame on a new stream is answered by its headers and its whole
body, however its bytes arrive. -/
theorem C124_get_answered_partial (app : Nat → Option Nat) (l : Link) (hr : Reachable app l) (hi : Idle l) (f : Frame) (rest : List Frame)
    (hin : l.input = f :: rest) (hf : IsRequest f) (hlen : f.length ≤ l.c.maxFrame) (hc : l.c.comm = true) (hw : 0 < l.c.window)
    (hms : l.c.maxSid < f.sid) (hmc : l.c.maxConc = none) (hn : ∀ s ∈ l.c.streams, s.id ≠ f.sid)
    (ss : List Step) (hfin : ∀ x ∈ ss, x.isFin = false) (harr : arriving ss = size f) (m : List (Nat × List Nat)) (hm : 11 + 2 * size f ≤ m.length) :
    ∃ l' ev, run app l (ss ++ pulse m) = .ok (l', ev) ∧
      sentOf ev = l.queue ++ .headers f.sid :: bodyOf f.sid (app f.sid) ∧
      l'.queue = [] ∧ l'.resps = [] ∧ l'.buf = 0 ∧ l'.input = rest ∧ l'.closed = false := by
  obtain ⟨c2, h2, hg, he, hcw, s, hs, hst, hsw⟩ := step_request l.c f hf hi.goaway hi.ended hc hlen hms hmc hn
  have b : bytes ([] ++ [f]) = size f := by simp [bytes]
  have := C124_request_answered_partial app l hr hi [] f rest hin (by simpa using hlen) l.c c2 [] _ f.sid rfl rfl h2 rfl hg he s hs hst
    (by rw [hsw]; decide) (by rw [hcw]; exact hw) ss hfin (by rw [harr, b]) m (by rw [b]; exact hm)
  obtain ⟨l', ev, h, e, rest⟩ := this
  refine ⟨l', ev, h, ?_, rest⟩
  rw [e]; simp [owed]

/-- Settings and a GET request, byte by byte, then turns with a writable socket. -/
example : sent hello [fSettings, fGet 1] ((List.replicate (9 + size (fGet 1)) [.arrive 1, .turn 1 [] false]).flatten ++ beats 12) =
    some [.settings, .settingsAck, .headers 1, .dataHeader 1 5, .data 1 5] := by decide +kernel
example : sent hello [fSettings, fGet 1] (.arrive (9 + size (fGet 1)) :: beats 12) =
    some [.settings, .settingsAck, .headers 1, .dataHeader 1 5, .data 1 5] := by decide +kernel
example : IsRequest (fGet 1) := by refine ⟨?_, ?_, ?_, ?_, ?_, ?_⟩ <;> decide
/-- A state as in the theorems: after settings. -/
example : ∃ l, Reachable hello l ∧ Idle l ∧ l.input = [fGet 1] ∧ l.c.comm = true ∧ 0 < l.c.window ∧ l.c.maxSid < 1 := by
  refine ⟨_, ⟨1000, [fSettings, fGet 1], [.arrive 9, .turn 9 [] false], _, rfl⟩, ⟨rfl, rfl, rfl, rfl, rfl, rfl, rfl, rfl, rfl, rfl⟩, rfl, rfl, by decide, by decide⟩

/-- **C124 refuted.** Frames that are received together with a request, behind it, are not handled: not when
the response has been sent, and not at all, however long the server runs, until the client sends more
bytes.  (A client that sends two requests in one packet and waits never gets the second response.) -/
theorem C124_frames_behind_a_request_refuted (app : Nat → Option Nat) (l : Link) (hr : Reachable app l) (hi : Idle l) (f : Frame) (rest : List Frame)
    (hin : l.input = f :: rest) (hlen : f.length ≤ l.c.maxFrame) (c2 : Conn) (os : List Out) (hs : H2S.stepFrame l.c f = some (c2, os))
    (ha : asked os ≠ []) (hg : c2.goaway = false) (he : c2.ended = false)
    (n k : Nat) (hn : size f ≤ n) (hk : n ≤ k) (more : List Nat) (w : Bool) (ss : List Step) (ht : ∀ s ∈ ss, s.isTurn = true)
    (l' : Link) (ev : List Ev) (h : run app l (.arrive n :: .turn k more w :: ss) = .ok (l', ev)) : didOf ev = os ∧ l'.input = rest := by
  have so := hr.sound hi.closed hi.goaway
  have hbg : begun os = true := by
    unfold begun; rw [List.any_eq_true]
    cases e : asked os with
    | nil => exact absurd e ha
    | cons x xs =>
      have : x ∈ asked os := by rw [e]; simp
      unfold asked at this
      rw [List.mem_filterMap] at this
      obtain ⟨o, ho, e⟩ := this
      exact ⟨o, ho, by cases o <;> simp_all⟩
  let l0 : Link := recv k { l with sock := l.sock + n }
  have b0 : l0.buf = n := by
    show l.buf + min (max k 1) (l.sock + n) = n
    rw [hi.buf, hi.sock]; unfold size at hn; omega
  have s0 : l0.sock = 0 := by
    show (l.sock + n) - min (max k 1) (l.sock + n) = 0
    rw [hi.sock]; omega
  let l2 : Link := consume f rest (after app l0 f c2 os)
  have sm := applyAll_same app os { l0 with c := c2, lsid := if f.type = 7 then f.lastSid else l0.lsid }
  have ea : applyAll app { l0 with c := c2, lsid := if f.type = 7 then f.lastSid else l0.lsid } os = after app l0 f c2 os := rfl
  rw [ea] at sm
  have n9 : ¬ l0.buf < 9 := by rw [b0]; unfold size at hn; omega
  have fr : frames app (ready w { l with sock := l.sock + n }) l0 l0.input = .ok (l2, os.map .did, .block ⟨false, false⟩) := by
    have : l0.input = f :: rest := hin
    rw [this, frames.eq_def]
    simp only
    rw [if_neg (by rw [b0]; unfold size at hn ⊢; simp; omega), if_neg (by rw [b0]; omega)]
    have : l0.c = l.c := rfl
    rw [this, hs]
    simp only [he, hg, hbg, Bool.false_eq_true, if_false, if_true]
    rfl
  have av : (ready w { l with sock := l.sock + n }).read = true := by
    unfold size at hn
    simp [ready, hi.read]; omega
  have sv : serve app (ready w { l with sock := l.sock + n }) l0 = .ok (l2, os.map .did, some ⟨false, false⟩) := by
    unfold serve
    have g0 : l0.c.goaway = false := hi.goaway
    have e0 : l0.eof = false := hi.eof
    simp only [g0, e0, av, n9, Bool.false_eq_true, if_false, if_true, fr]
  have s2 : l2.sock = 0 := by
    show (after app l0 f c2 os).sock = 0
    rw [sm.2.2.2.1]; exact s0
  have so2 : Sound l2 := by
    have sc : Sound { l0 with c := c2, lsid := if f.type = 7 then f.lastSid else l0.lsid } := so.congr rfl rfl rfl
      (H2S.other_stream l.c c2 f os (f.sid + 1) hs (by omega) so.root).2
    have := sc.applyAll (app := app) os (by
      intro o ho code e
      have := (H2S.gc_step hs).1 o ho (by rw [e]; rfl)
      rw [hg] at this; simp at this)
    exact this.congr rfl rfl rfl this.root
  have st : ∀ l3 : Link, l3.input = l2.input → l3.sock = l2.sock → l3.fin = l2.fin → l3.eof = l2.eof → l3.closed = l2.closed → l3.c = l2.c →
      l3.row.write = l2.row.write → l3.queue = l2.queue → l3.resps = l2.resps → Stall rest l3 := by
    intro l3 a1 a2 a3 a4 a5 a6 a7 a8 a9
    refine ⟨a1, by rw [a2]; exact s2, ?_, ?_, ?_, ?_, so2.congr a7 a8 a9 (by rw [a6]; exact so2.root)⟩
    · rw [a3]; show (after app l0 f c2 os).fin = false; rw [sm.2.2.2.2.1]; exact hi.fin
    · rw [a4]; show (after app l0 f c2 os).eof = false; rw [sm.2.2.2.2.2.1]; exact hi.eof
    · rw [a5]; show (after app l0 f c2 os).closed = false; rw [sm.2.2.2.2.2.2.1]; exact hi.closed
    · rw [a6]; show (after app l0 f c2 os).c.goaway = false; rw [sm.1]; exact hg
  have tl : ∃ l3, turnLoop app (ready w { l with sock := l.sock + n }) l0 more = .ok (l3, os.map .did) ∧ Stall rest l3 := by
    cases more with
    | nil =>
      refine ⟨{ l2 with handler := .wait, row := { l2.row with read := true } }, ?_, st _ rfl rfl rfl rfl rfl rfl rfl rfl rfl⟩
      rw [turnLoop.eq_def]; simp only [sv]
    | cons x xs =>
      refine ⟨{ l2 with handler := .serve, row := { l2.row with read := true } }, ?_, st _ rfl rfl rfl rfl rfl rfl rfl rfl rfl⟩
      rw [turnLoop.eq_def]; simp only [sv, s2, if_true]
  obtain ⟨l3, t3, st3⟩ := tl
  have tn : turn app k more w { l with sock := l.sock + n } = .ok (l3, os.map .did) := by
    rw [turn_wait app k more w { l with sock := l.sock + n } hi.closed hi.handler (by unfold size at hn; show 0 < l.sock + n; omega) av]
    exact t3
  rw [run.eq_def] at h
  simp only [step] at h
  rw [run.eq_def] at h
  simp only [step, tn] at h
  have rs := run_stall app rest ss l3 ht st3
  cases e : run app l3 ss with
  | error b => rw [e] at h; simp at h
  | ok r =>
    obtain ⟨l4, ev4⟩ := r
    rw [e] at h rs
    simp only [Except.ok.injEq, Prod.mk.injEq, List.nil_append] at h
    obtain ⟨rfl, rfl⟩ := h
    refine ⟨?_, rs.1.input⟩
    rw [didOf_append, didOf_did, rs.2, List.append_nil]

/-- Two requests in one packet: the second is not seen in a thousand turns, but is as soon as a byte comes. -/
example : did hello [fSettings, fGet 1, fGet 3] (.arrive 9 :: .turn 9 [] true :: .arrive (2 * size (fGet 1)) :: beats 1000) =
    some [.settingsAck, .opened 1, .dispatch 1 getH none false] := by decide +kernel
example : did hello [fSettings, fGet 1, fGet 3, fPing] (.arrive 9 :: .turn 9 [] true :: .arrive (2 * size (fGet 1)) :: beats 20 ++ .arrive 1 :: beats 1) =
    some [.settingsAck, .opened 1, .dispatch 1 getH none false, .opened 3, .dispatch 3 getH none false] := by decide +kernel

/-! ## C125 — SETTINGS and PING are answered -/

/-- **C125 (partial).** What is owed is sent once and in order: on every history of an open connection the
frames other than DATA that were sent, followed by those still queued, are exactly the answers owed for the
client's frames, in their order.  Missing: that what is queued is sent
(`C125_client_without_requests_refuted`). -/
theorem C125_answers_once_in_order_partial (app : Nat → Option Nat) (mb : Nat) (input : List Frame) (ss : List Step) (l : Link) (ev : List Ev)
    (h : run app (Link.start mb input) ss = .ok (l, ev)) (hc : l.closed = false) (hg : l.c.goaway = false) :
    control (sentOf ev) ++ l.queue = (didOf ev).flatMap owed := by
  rcases (run_due app ss _ _ _ (start_ok mb input) h).due with (a | a) | a
  · rw [hc] at a; simp at a
  · rw [hg] at a; simp at a
  · exact a

example : (match run hello (Link.start 1000 [fSettings, fPing, fGet 1, fPing]) (.arrive (9 + 17 + size (fGet 1)) :: beats 4 ++ .arrive 17 :: beats 2) with
    | .ok (l, ev) => some (control (sentOf ev), l.queue, l.closed)
    | .error _ => none) = some ([.settings, .settingsAck, .pong, .headers 1], [.pong], false) := by decide +kernel

/-- **C125 refuted.** A client that sends SETTINGS, and after that SETTINGS and PING frames only, never gets
any answer, in any schedule: neither the server's settings, nor an acknowledgement, nor a PING back. -/
theorem C125_client_without_requests_refuted (app : Nat → Option Nat) (mb : Nat) (f : Frame) (fs : List Frame) (hf : IsSettings f)
    (hfs : ∀ g ∈ fs, IsSettings g ∨ IsPing g) (ss : List Step) :
    ∃ l ev, run app (Link.start mb (f :: fs)) ss = .ok (l, ev) ∧ sentOf ev = [] := by
  have q : Quiet (Link.start mb (f :: fs)) := by
    refine ⟨rfl, rfl, rfl, rfl, rfl, ?_, .inr ?_⟩
    · intro g hg
      rcases List.mem_cons.1 hg with e | m
      · subst e; exact .inl hf
      · exact hfs g m
    · intro g gs e
      simp only [Link.start, List.cons.injEq] at e
      rw [← e.1]; exact hf
  have := run_quiet app ss _ (.inr q)
  cases e : run app (Link.start mb (f :: fs)) ss with
  | error b => rw [e] at this; exact this.elim
  | ok r =>
    obtain ⟨l, ev⟩ := r
    rw [e] at this
    exact ⟨l, ev, rfl, this.2⟩

example : IsSettings fSettings ∧ IsPing fPing := by refine ⟨⟨?_, ?_, ?_, ?_, ?_, ?_⟩, ?_, ?_, ?_⟩ <;> decide
/-- The frames are handled: only nothing is sent. -/
example : did hello [fSettings, fPing] (.arrive 26 :: beats 1000) = some [.settingsAck, .pong] ∧
    sent hello [fSettings, fPing] (.arrive 26 :: beats 1000) = some [] := by decide +kernel

/-! ## C126 — a cancelled request does not affect the others -/

/-- **C126 refuted.** Once the client has cancelled (RST_STREAM) the request whose response is first in
line, no response is ever completed again and no body of another response is sent, whatever the client does
on its other streams and in every schedule. -/
theorem C126_cancelled_request_blocks_refuted (app : Nat → Option Nat) (l : Link) (hr : Reachable app l) (hc : l.closed = false)
    (hg : l.c.goaway = false) (r : Resp) (rs : List Resp) (s : Stream) (h : l.resps = r :: rs) (hd : r.done = false)
    (hs : l.c.streams.find? (fun s => s.id == r.sid) = some s) (hst : s.st = .closed) (hin : ∀ f ∈ l.input, f.sid ≠ r.sid)
    (ss : List Step) (l' : Link) (ev : List Ev) (hrun : run app l ss = .ok (l', ev)) : ∀ e ∈ ev, e.progress r.sid = false := by
  have so := hr.sound hc hg
  have := run_stuck app r.sid ss l (.inr (.inr ⟨⟨r, rs, s, h, rfl, hd, hs, .inl hst⟩, so.noData, hin, so.root⟩))
  rw [hrun] at this
  exact this.2

/-- The second of two requests is cancelled while the headers are on their way: the first is answered, the
second and the third never. -/
example : sent hello [fSettings, fGet 1, fRst 1, fGet 3]
    (.arrive (9 + size (fGet 1)) :: .turn 1000 [] false :: .arrive (13 + size (fGet 3)) :: beats 1000) =
    some [.settings, .settingsAck, .headers 1, .headers 3, .dataHeader 1 5, .data 1 5] := by decide +kernel
/-- A state as in the theorem. -/
example : ∃ l r rs s, Reachable hello l ∧ l.closed = false ∧ l.c.goaway = false ∧ l.resps = r :: rs ∧ r.done = false ∧
    l.c.streams.find? (fun s => s.id == r.sid) = some s ∧ s.st = .closed ∧ (∀ f ∈ l.input, f.sid ≠ r.sid) ∧ rs.length = 0 ∧ l.input.length = 1 := by
  refine ⟨_, _, _, _, ⟨1000, [fSettings, fGet 1, fRst 1, fGet 3],
    [.arrive (9 + size (fGet 1)), .turn 1000 [] false, .arrive 13, .turn 1000 [] false], _, rfl⟩, rfl, rfl, rfl, rfl, rfl, rfl, ?_, rfl, rfl⟩
  intro f hf
  simp only [List.mem_cons, List.not_mem_nil, or_false] at hf
  subst hf; decide

/-- **C126 refuted.** Cancelling a request whose response has no content ends the worker process: the second
turn with a writable socket runs into an assertion. -/
theorem C126_cancelled_empty_response_aborts_refuted (app : Nat → Option Nat) (l : Link) (hc : l.closed = false) (hg : l.c.goaway = false)
    (he : l.eof = false) (hfin : l.fin = false) (hh : l.handler = .serve) (hw : l.row.write = true) (hq : l.queue = []) (hk : l.sock = 0)
    (r : Resp) (rs : List Resp) (s : Stream) (h : l.resps = r :: rs) (hd : r.done = false) (hsent : r.headersSent = true)
    (hp : r.phase = .header) (hlen : r.len = none)
    (hs : l.c.streams.find? (fun s => s.id == r.sid) = some s) (hst : s.st = .closed) (hws : 0 < s.window) (hwc : 0 < l.c.window) :
    run app l [.turn 0 [] true, .turn 0 [] true] = .error .assertion := by
  have tw : ∀ l : Link, l.closed = false → l.c.goaway = false → l.eof = false → l.fin = false → l.handler = .serve → l.row.write = true →
      l.queue = [] → l.sock = 0 → ∀ r rs, l.resps = r :: rs → turn app 0 [] true l = respond l r rs := by
    intro l hc hg he hfin hh hw hq hk r rs h
    unfold turn
    have hr : (ready true l).read = false := by simp [ready, hk, hfin]
    have hwr : (ready true l).write = true := by simp [ready, hw]
    rw [if_neg (by simp [hc])]
    simp only [hr, hwr, hh]
    rw [if_neg (by simp), turnLoop.eq_def]
    simp only
    have : serve app (ready true l) l = (respond l r rs).map fun r => (r.1, r.2, none) := by
      unfold serve
      simp only [hg, he, hr, hwr, hq, h, Bool.false_eq_true, if_false, if_true, ne_eq, not_true_eq_false]
    rw [this]
    cases respond l r rs with
    | error b => rfl
    | ok x => rfl
  have r1 : respond l r rs = .ok ({ l with row := ⟨true, true⟩, handler := .serve, resps := { r with phase := .data } :: rs }, []) := by
    unfold respond
    rw [hs]
    simp only [hd, hsent, Bool.false_eq_true, if_false, if_true]
    unfold body
    rw [hp]
    simp only
    rw [if_neg (by simp; omega), if_pos (by simp [hlen])]
    simp [bodyDone, hst, hsent, hd]
  rw [run.eq_def]
  simp only [step]
  rw [tw l hc hg he hfin hh hw hq hk r rs h, r1]
  simp only
  rw [run.eq_def]
  simp only [step]
  rw [tw { l with row := ⟨true, true⟩, handler := .serve, resps := { r with phase := .data } :: rs } hc hg he hfin rfl rfl hq hk { r with phase := .data } rs rfl]
  unfold respond
  simp only [hs, hd, hsent, Bool.false_eq_true, if_false, if_true]
  unfold body
  simp [hlen]

/-- From the beginning: a request answered without content, cancelled. -/
example : crash (fun _ => none) [fSettings, fGet 1, fRst 1]
    (.arrive (9 + size (fGet 1)) :: .turn 1000 [] false :: .arrive 13 :: beats 8) = some .assertion := by decide +kernel

/-! ## C127 — a stream whose window is closed does not hold up the others -/

/-- **C127 refuted.** While the window of the stream of the first response is closed, no other response makes
progress, in any schedule, and whatever else the client sends. -/
theorem C127_closed_window_blocks_refuted (app : Nat → Option Nat) (l : Link) (hr : Reachable app l) (hc : l.closed = false)
    (hg : l.c.goaway = false) (r : Resp) (rs : List Resp) (s : Stream) (h : l.resps = r :: rs) (hd : r.done = false) (hp : r.phase = .header)
    (hs : l.c.streams.find? (fun s => s.id == r.sid) = some s) (hw : s.window ≤ 0) (hin : ∀ f ∈ l.input, f.sid ≠ r.sid)
    (ss : List Step) (l' : Link) (ev : List Ev) (hrun : run app l ss = .ok (l', ev)) : ∀ e ∈ ev, e.progress r.sid = false := by
  have so := hr.sound hc hg
  have := run_stuck app r.sid ss l (.inr (.inr ⟨⟨r, rs, s, h, rfl, hd, hs, .inr ⟨hp, hw⟩⟩, so.noData, hin, so.root⟩))
  rw [hrun] at this
  exact this.2

theorem spin_turn (app : Nat → Option Nat) (k : Nat) (more : List Nat) (l : Link) (hc : l.closed = false) (hg : l.c.goaway = false)
    (he : l.eof = false) (hfin : l.fin = false) (hh : l.handler = .serve) (hrow : l.row = ⟨true, true⟩) (hq : l.queue = []) (hk : l.sock = 0)
    (r : Resp) (rs : List Resp) (s : Stream) (h : l.resps = r :: rs) (hd : r.done = false) (hsent : r.headersSent = true)
    (hp : r.phase = .header) (hs : l.c.streams.find? (fun s => s.id == r.sid) = some s) (hw : s.window ≤ 0 ∨ l.c.window ≤ 0) :
    turn app k more true l = .ok (l, []) := by
  have hr : (ready true l).read = false := by simp [ready, hk, hfin]
  have hwr : (ready true l).write = true := by simp [ready, hrow]
  have sv : serve app (ready true l) l = .ok (l, [], none) := by
    unfold serve
    simp only [hg, he, hr, hwr, hq, h, Bool.false_eq_true, if_false, if_true, ne_eq, not_true_eq_false]
    unfold respond
    rw [hs]
    simp only [hd, hsent, Bool.false_eq_true, if_false, if_true]
    unfold body
    rw [hp]
    simp only
    rw [if_pos (by simp; exact hw), ← hrow, ← hh]
    rfl
  unfold turn
  rw [if_neg (by simp [hc])]
  simp only [hr, hwr, hh]
  rw [if_neg (by simp)]
  cases more with
  | nil => rw [turnLoop.eq_def]; simp only [sv]
  | cons x xs => rw [turnLoop.eq_def]; simp only [sv]

/-- **C127 refuted.** And the server does not wait: with a window closed (the stream's or the connection's)
the event loop is called again and again for the writable socket, any number of times, without any effect:
the worker uses all of its processor until the client opens the window. -/
theorem C127_closed_window_spins_refuted (app : Nat → Option Nat) (l : Link) (hc : l.closed = false) (hg : l.c.goaway = false)
    (he : l.eof = false) (hfin : l.fin = false) (hh : l.handler = .serve) (hrow : l.row = ⟨true, true⟩) (hq : l.queue = []) (hk : l.sock = 0)
    (r : Resp) (rs : List Resp) (s : Stream) (h : l.resps = r :: rs) (hd : r.done = false) (hsent : r.headersSent = true)
    (hp : r.phase = .header) (hs : l.c.streams.find? (fun s => s.id == r.sid) = some s) (hw : s.window ≤ 0 ∨ l.c.window ≤ 0) :
    ∀ m : List (Nat × List Nat), run app l (pulse m) = .ok (l, []) ∧ ready true l = ⟨false, true⟩
  | [] => ⟨rfl, by simp [ready, hrow, hk, hfin]⟩
  | x :: m => by
    have t := spin_turn app x.1 x.2 l hc hg he hfin hh hrow hq hk r rs s h hd hsent hp hs hw
    refine ⟨?_, by simp [ready, hrow, hk, hfin]⟩
    have ih := (C127_closed_window_spins_refuted app l hc hg he hfin hh hrow hq hk r rs s h hd hsent hp hs hw m).1
    show run app l (.turn x.1 x.2 true :: pulse m) = _
    rw [run.eq_def]
    simp only [step]
    rw [t]
    simp only
    rw [ih]
    rfl

/-- A response of 65535 bytes uses up the connection's window; the next one waits. -/
example : sent (fun _ => some 65535) [fSettings, fGet 1, fGet 3]
    (.arrive (9 + size (fGet 1)) :: beats 10 ++ .arrive (size (fGet 3)) :: beats 1000) =
    some [.settings, .settingsAck, .headers 1, .dataHeader 1 65535, .data 1 65535, .headers 3] := by decide +kernel
/-- A state as in the theorem. -/
example : ∃ l r rs s, Reachable (fun _ => some 65535) l ∧ l.closed = false ∧ l.c.goaway = false ∧ l.eof = false ∧ l.fin = false ∧
    l.handler = .serve ∧ l.row = ⟨true, true⟩ ∧ l.queue = [] ∧ l.sock = 0 ∧ l.resps = r :: rs ∧ r.done = false ∧ r.headersSent = true ∧
    r.phase = .header ∧ l.c.streams.find? (fun s => s.id == r.sid) = some s ∧ l.c.window ≤ 0 := by
  refine ⟨_, _, _, _, ⟨1000, [fSettings, fGet 1, fGet 3],
    .arrive (9 + size (fGet 1)) :: beats 10 ++ .arrive (size (fGet 3)) :: beats 4, _, rfl⟩,
    rfl, rfl, rfl, rfl, rfl, rfl, rfl, rfl, rfl, rfl, rfl, rfl, rfl, by decide⟩

/-! ## C128 — the client is told why its connection is ended -/

/-- **C128 refuted.** No GOAWAY frame ever reaches a client, on any history, except in the moment in which the
whole worker process ends. -/
theorem C128_goaway_never_sent_refuted (app : Nat → Option Nat) (mb : Nat) (input : List Frame) (ss : List Step) (l : Link) (ev : List Ev)
    (h : run app (Link.start mb input) ss = .ok (l, ev)) (code : Nat) (hs : .sent (.goaway code) ∈ ev) : .workerEnds ∈ ev := by
  have := run_ok app ss _ (start_ok mb input)
  rw [h] at this
  rcases this.2 with a | a
  · exact absurd hs (a code)
  · exact a

/-- A connection error (an even stream): GOAWAY is due, the connection is closed, nothing is sent. -/
example : did hello [fSettings, fGet 2] (.arrive (9 + size (fGet 2)) :: beats 100) = some [.settingsAck, .goaway 1] ∧
    sent hello [fSettings, fGet 2] (.arrive (9 + size (fGet 2)) :: beats 100) = some [] := by decide +kernel

/-! ## C129 — no client ends the worker -/

/-- **C129 refuted.** A frame that makes the handling of frames fail (`goto emergency`) ends the whole worker
process, with all its other connections, from every idle connection. -/
theorem C129_failing_frame_ends_worker_refuted (app : Nat → Option Nat) (l : Link) (hi : Idle l) (f : Frame) (rest : List Frame)
    (hin : l.input = f :: rest) (hlen : f.length ≤ l.c.maxFrame) (c2 : Conn) (os : List Out) (hs : H2S.stepFrame l.c f = some (c2, os))
    (he : c2.ended = true) (w : Bool) :
    ∃ l' ev, run app l [.arrive (size f), .turn (size f) [] w] = .ok (l', ev) ∧ .workerEnds ∈ ev := by
  let la : Link := { l with sock := l.sock + size f }
  let l0 : Link := recv (size f) la
  have b0 : l0.buf = size f := by
    show l.buf + min (max (size f) 1) (l.sock + size f) = _
    rw [hi.buf, hi.sock]; unfold size; omega
  have n9 : ¬ l0.buf < 9 := by rw [b0]; unfold size; omega
  have av : (ready w la).read = true := by
    simp [ready, la, hi.read]; unfold size; omega
  have fr : ∃ l1, frames app (ready w la) l0 l0.input = .ok (l1, os.map .did, .emergency) := by
    have : l0.input = f :: rest := hin
    rw [this, frames.eq_def]
    simp only
    rw [if_neg (by rw [b0]; unfold size; simp), if_neg (by rw [b0]; omega)]
    have : l0.c = l.c := rfl
    rw [this, hs]
    simp only [he, if_true]
    exact ⟨_, rfl⟩
  obtain ⟨l1, fr⟩ := fr
  have sv : serve app (ready w la) l0 = .ok (l1.close, os.map .did ++ [.sent (.goaway 2), .workerEnds], none) := by
    unfold serve
    have g0 : l0.c.goaway = false := hi.goaway
    have e0 : l0.eof = false := hi.eof
    simp only [g0, e0, av, n9, Bool.false_eq_true, if_false, if_true, fr]
  refine ⟨l1.close, os.map .did ++ [.sent (.goaway 2), .workerEnds], ?_, by simp⟩
  rw [run.eq_def]
  simp only [step]
  rw [run.eq_def]
  simp only [step]
  rw [turn_wait app (size f) [] w la hi.closed hi.handler (by show 0 < l.sock + size f; unfold size; omega) av, turnLoop.eq_def]
  simp only
  rw [sv]
  simp [run]

/-- **C129 refuted.** So does any PUSH_PROMISE frame on stream 0 of a client that has sent its settings. -/
theorem C129_push_promise_ends_worker_refuted (app : Nat → Option Nat) (l : Link) (hi : Idle l) (f : Frame) (rest : List Frame)
    (hin : l.input = f :: rest) (hlen : f.length ≤ l.c.maxFrame) (ht : f.type = 5) (hs : f.sid = 0) (hc : l.c.comm = true) (w : Bool) :
    ∃ l' ev, run app l [.arrive (size f), .turn (size f) [] w] = .ok (l', ev) ∧ .workerEnds ∈ ev := by
  have : ∃ c2 os, H2S.stepFrame l.c f = some (c2, os) ∧ c2.ended = true := by
    rw [H2S.stepFrame_eq l.c f hi.goaway hi.ended, if_neg (by omega)]
    unfold H2S.stepRest H2S.search
    rw [if_pos hs]
    simp only
    unfold H2S.process H2S.handle
    simp only [ht, hc]
    refine ⟨_, _, rfl, ?_⟩
    have cm : ∀ y : H2S.Ctx, y.commit.ended = y.c.ended := by intro y; unfold H2S.Ctx.commit; split <;> rfl
    rw [cm]
    rfl
  obtain ⟨c2, os, h, he⟩ := this
  exact C129_failing_frame_ends_worker_refuted app l hi f rest hin hlen c2 os h he w

/-- A PUSH_PROMISE from a client, and a body longer than its Content-Length. -/
example : (match run hello (Link.start 1000 [fSettings, fPush 0]) [.arrive 22, .turn 22 [] false] with
    | .ok (_, ev) => ev.contains .workerEnds
    | .error _ => false) = true := by decide +kernel
example : (match run hello (Link.start 1000 [fSettings, fHeaders 1 (H2S.postH b!"3") false, fData 1 b!"abcd" true])
      [.arrive 9, .turn 9 [] false, .arrive 1000, .turn 1000 [] false] with
    | .ok (_, ev) => ev.contains .workerEnds
    | .error _ => false) = true := by decide +kernel

/-! ## C130 — only what has arrived is handled -/

/-- **C130 (partial).** On every history of frames within the limit of 16384 bytes, in every schedule: bytes
that have not arrived are never taken for a frame or for part of one, and the data of an event is never
taken for something else.  Missing: longer frames (`C130_long_frame_refuted`). -/
theorem C130_only_arrived_bytes_partial (app : Nat → Option Nat) (mb : Nat) (input : List Frame) (hl : ∀ f ∈ input, f.length ≤ 16384) (ss : List Step) :
    run app (Link.start mb input) ss ≠ .error .short ∧ run app (Link.start mb input) ss ≠ .error .stale ∧
    run app (Link.start mb input) ss ≠ .error .confused := by
  have := run_ok app ss _ (start_ok mb input)
  refine ⟨run_fit' app mb input hl ss, ?_, ?_⟩
  · intro e; rw [e] at this; exact this.1 rfl
  · intro e; rw [e] at this; exact this.2 rfl

example : crash hello [fSettings, fGet 1] ((List.replicate 30 [.arrive 1, .turn 1 [] false]).flatten ++ beats 3) = none := by decide +kernel

/-- **C130 refuted.** A frame longer than the limit is handled as soon as its header is there, although its
payload is not: whatever lies behind it in the buffer is read, and the buffer's length goes below zero. -/
theorem C130_long_frame_refuted (app : Nat → Option Nat) (l : Link) (hi : Idle l) (f : Frame) (rest : List Frame) (hin : l.input = f :: rest)
    (hlen : l.c.maxFrame < f.length) (w : Bool) : run app l [.arrive 9, .turn 9 [] w] = .error .short := by
  let la : Link := { l with sock := l.sock + 9 }
  let l0 : Link := recv 9 la
  have b0 : l0.buf = 9 := by
    show l.buf + min (max 9 1) (l.sock + 9) = _
    rw [hi.buf, hi.sock]; rfl
  have av : (ready w la).read = true := by simp [ready, la, hi.read]
  have fr : frames app (ready w la) l0 l0.input = .error .short := by
    have : l0.input = f :: rest := hin
    have hc : l0.c = l.c := rfl
    rw [this, frames.eq_def]
    simp only
    rw [if_neg (by rw [b0, hc]; simp; omega), if_pos (by rw [b0]; unfold size; omega)]
  have sv : serve app (ready w la) l0 = .error .short := by
    unfold serve
    have g0 : l0.c.goaway = false := hi.goaway
    have e0 : l0.eof = false := hi.eof
    have n9 : ¬ l0.buf < 9 := by omega
    simp only [g0, e0, av, n9, Bool.false_eq_true, if_false, if_true, fr]
  rw [run.eq_def]
  simp only [step]
  rw [run.eq_def]
  simp only [step]
  rw [turn_wait app 9 [] w la hi.closed hi.handler (by show 0 < l.sock + 9; omega) av, turnLoop.eq_def]
  simp only
  rw [sv]

example : crash hello [fSettings, { fPing with length := 20000 }] [.arrive 9, .turn 9 [] false, .arrive 9, .turn 9 [] false] = some .short := by
  decide +kernel

/-! ## C204 — a client that says goodbye gets the answers to its requests -/

theorem goawayHandle_silent {l l' : Link} {ev : List Ev} (h : goawayHandle l = .ok (l', ev)) (hg : l.c.goaway = true) :
    sentOf ev = [] ∧ l'.c.goaway = true := by
  have key : ∀ (ss : List Stream) (l : Link), goawayLoop l ss = .ok (l', ev) → l.c.goaway = true → sentOf ev = [] ∧ l'.c.goaway = true := by
    intro ss
    induction ss with
    | nil =>
      intro l h hg
      simp only [goawayLoop, Except.ok.injEq, Prod.mk.injEq] at h
      obtain ⟨rfl, rfl⟩ := h
      exact ⟨rfl, hg⟩
    | cons s ss ih =>
      intro l h hg
      rw [goawayLoop.eq_def] at h
      simp only at h
      split at h
      · exact ih _ h hg
      · split at h
        · simp at h
        · simp only [Except.ok.injEq, Prod.mk.injEq] at h
          obtain ⟨rfl, rfl⟩ := h
          exact ⟨rfl, hg⟩
  unfold goawayHandle at h
  split at h
  · simp only [Except.ok.injEq, Prod.mk.injEq] at h
    obtain ⟨rfl, rfl⟩ := h
    exact ⟨rfl, hg⟩
  · exact key _ _ h hg

/-- With GOAWAY in force a pass through the handler is `goawayHandle`. -/
theorem turnLoop_goaway (app : Nat → Option Nat) (av : Row) (l : Link) (more : List Nat) (hg : l.c.goaway = true) :
    turnLoop app av l more = goawayHandle l := by
  have sv : serve app av l = (goawayHandle l).map fun r => (r.1, r.2, none) := by
    unfold serve; simp only [hg, if_true]
  cases more with
  | nil =>
    rw [turnLoop.eq_def]
    simp only [sv]
    cases goawayHandle l <;> rfl
  | cons k ks =>
    rw [turnLoop.eq_def]
    simp only [sv]
    cases goawayHandle l <;> rfl

theorem turn_goaway (app : Nat → Option Nat) (k : Nat) (more : List Nat) (w : Bool) (l l' : Link) (ev : List Ev) (hg : l.c.goaway = true)
    (h : turn app k more w l = .ok (l', ev)) : sentOf ev = [] ∧ l'.c.goaway = true := by
  unfold turn at h
  split at h
  · simp only [Except.ok.injEq, Prod.mk.injEq] at h
    obtain ⟨rfl, rfl⟩ := h
    exact ⟨rfl, hg⟩
  · simp only at h
    split at h
    · simp only [Except.ok.injEq, Prod.mk.injEq] at h
      obtain ⟨rfl, rfl⟩ := h
      exact ⟨rfl, hg⟩
    · split at h
      · rw [turnLoop_goaway app _ l more hg] at h
        exact goawayHandle_silent h hg
      · split at h
        · rw [turnLoop_goaway app _ (recv k l) more hg] at h
          exact goawayHandle_silent h hg
        · split at h
          · rw [turnLoop_goaway app _ { l with eof := true } more hg] at h
            exact goawayHandle_silent h hg
          · simp only [Except.ok.injEq, Prod.mk.injEq] at h
            obtain ⟨rfl, rfl⟩ := h
            exact ⟨rfl, hg⟩

/-- **C204 refuted.** Once the client's GOAWAY has been handled nothing is sent to it any more, in any schedule: neither
the responses to its requests nor anything else. -/
theorem C204_nothing_sent_after_goodbye_refuted (app : Nat → Option Nat) (l : Link) (hg : l.c.goaway = true) (ss : List Step) (l' : Link) (ev : List Ev)
    (h : run app l ss = .ok (l', ev)) : sentOf ev = [] := by
  induction ss generalizing l l' ev with
  | nil =>
    simp only [run, Except.ok.injEq, Prod.mk.injEq] at h
    rw [← h.2]; rfl
  | cons s ss ih =>
    rw [run.eq_def] at h
    simp only at h
    cases e : step app l s with
    | error b => rw [e] at h; simp at h
    | ok r =>
      obtain ⟨l1, ev1⟩ := r
      rw [e] at h
      simp only at h
      cases e2 : run app l1 ss with
      | error b => rw [e2] at h; simp at h
      | ok r =>
        obtain ⟨l2, ev2⟩ := r
        rw [e2] at h
        simp only [Except.ok.injEq, Prod.mk.injEq] at h
        have h1 : sentOf ev1 = [] ∧ l1.c.goaway = true := by
          cases s with
          | arrive n =>
            simp only [step, Except.ok.injEq, Prod.mk.injEq] at e
            obtain ⟨rfl, rfl⟩ := e
            exact ⟨rfl, hg⟩
          | fin =>
            simp only [step, Except.ok.injEq, Prod.mk.injEq] at e
            obtain ⟨rfl, rfl⟩ := e
            exact ⟨rfl, hg⟩
          | turn k more w => exact turn_goaway app k more w l l1 ev1 hg e
        have h2 := ih l1 h1.2 l2 ev2 e2
        rw [← h.2]
        unfold sentOf at h1 h2 ⊢
        rw [List.filterMap_append, h1.1, h2]; rfl

/-- The turn that handles GOAWAY, up to what it has just read. -/
theorem turn_wakes (app : Nat → Option Nat) (k : Nat) (more : List Nat) (w : Bool) (l : Link) (hs : SaidGoodbye l) (hw : Wakes w l)
    (hn : l.handler = .wait → 0 < l.sock ∨ l.fin = true) :
    ∃ l0 : Link, l0.c = l.c ∧ l0.queue = l.queue ∧ l0.lsid = l.lsid ∧ turn app k more w l = goawayHandle l0 := by
  have hav : (!(ready w l).read && !(ready w l).write) = false := by
    rcases hw with ⟨a, b⟩ | ⟨a, b⟩
    · rcases b with b | b <;> simp [ready, a, b]
    · simp [ready, a, b]
  unfold turn
  rw [if_neg (by simp [hs.2])]
  simp only [hav, Bool.false_eq_true, if_false]
  cases hh : l.handler with
  | serve => exact ⟨l, rfl, rfl, rfl, turnLoop_goaway app _ l more hs.1⟩
  | wait =>
    simp only
    by_cases hk : 0 < l.sock
    · rw [if_pos hk]
      exact ⟨recv k l, rfl, rfl, rfl, turnLoop_goaway app _ _ more hs.1⟩
    · rw [if_neg hk]
      have hf : l.fin = true := (hn hh).resolve_left hk
      rw [if_pos hf]
      refine ⟨_, ?_, ?_, ?_, turnLoop_goaway app (ready w l) _ more ?_⟩
      · rfl
      · rfl
      · rfl
      · exact hs.1

theorem goawayLoop_skip (s : Stream) (post : List Stream) : ∀ (pre : List Stream) (l : Link), (∀ t ∈ pre, t.peerEnd = false ∧ t.id ≠ s.id) →
    ∃ q, goawayLoop l (pre ++ s :: post) = goawayLoop { l with queue := q } (s :: post) ∧ ∀ i : Item, i.sid = s.id → (i ∈ q ↔ i ∈ l.queue)
  | [], l, _ => ⟨l.queue, rfl, fun _ _ => Iff.rfl⟩
  | t :: pre, l, h => by
    obtain ⟨q, h1, h2⟩ := goawayLoop_skip s post pre { l with queue := l.queue.filter fun i => i.sid != t.id } (fun u hu => h u (by simp [hu]))
    refine ⟨q, ?_, ?_⟩
    · rw [List.cons_append, goawayLoop.eq_def]
      simp only [(h t (by simp)).1, Bool.not_false, Bool.true_or, if_true]
      rw [h1]
    · intro i hi
      rw [h2 i hi, List.mem_filter]
      have : i.sid ≠ t.id := fun e => (h t (by simp)).2 (by rw [← e, hi])
      simp [this]

theorem ofStream_sid {sid : Nat} (h : sid ≠ 0) (i : Item) : i.sid = sid ↔ ofStream sid i := by
  unfold ofStream
  cases i <;> simp [Item.sid] <;> omega

/-- **C204 refuted.** Of the requests that were complete when the client said goodbye, take the first.  If a frame of its
response is still waiting, the next event of the connection reads freed memory. -/
theorem C204_waiting_response_refuted (app : Nat → Option Nat) (l : Link) (hs : SaidGoodbye l) (hl : l.c.maxHandled ≤ l.lsid)
    (pre post : List Stream) (s : Stream) (he : l.c.streams = pre ++ s :: post) (hroot : l.c.root.peerEnd = false ∧ l.c.root.id = 0)
    (hpre : ∀ t ∈ pre, t.peerEnd = false ∧ t.id ≠ s.id) (h0 : s.id ≠ 0) (hp : s.peerEnd = true) (i : Item) (hi : ofStream s.id i) (hq : i ∈ l.queue)
    (k : Nat) (more : List Nat) (w : Bool) (hw : Wakes w l) (hn : l.handler = .wait → 0 < l.sock ∨ l.fin = true) (ss : List Step) :
    run app l (.turn k more w :: ss) = .error .freed := by
  obtain ⟨l0, c0, q0, s0, ht⟩ := turn_wakes app k more w l hs hw hn
  obtain ⟨q, e1, e2⟩ := goawayLoop_skip s post (l0.c.root :: pre) l0
    (by intro t ht; rw [c0] at ht; rcases List.mem_cons.1 ht with rfl | ht
        · exact ⟨hroot.1, fun e => h0 (by rw [← e]; exact hroot.2)⟩
        · exact hpre t ht)
  have hf : goawayHandle l0 = .error .freed := by
    unfold goawayHandle
    rw [if_neg (by rw [c0, s0]; omega)]
    have : l0.c.root :: l0.c.streams = l0.c.root :: pre ++ s :: post := by rw [c0, he]; rfl
    rw [this, e1, goawayLoop.eq_def]
    have hm : (q.any fun i => i.sid == s.id) = true :=
      List.any_eq_true.2 ⟨i, (e2 i ((ofStream_sid h0 i).2 hi)).2 (by rw [q0]; exact hq), by simp [(ofStream_sid h0 i).2 hi]⟩
    simp [hp, hm]
  rw [run.eq_def]
  simp only [step]
  rw [ht, hf]

/-- **C204 refuted.** If all frames of its response that can be sent were sent (or its answer is still to come), the application's handler is called
once more for the same request. -/
theorem C204_handler_again_refuted (app : Nat → Option Nat) (l : Link) (hs : SaidGoodbye l) (hl : l.c.maxHandled ≤ l.lsid)
    (pre post : List Stream) (s : Stream) (he : l.c.streams = pre ++ s :: post) (hroot : l.c.root.peerEnd = false ∧ l.c.root.id = 0)
    (hpre : ∀ t ∈ pre, t.peerEnd = false ∧ t.id ≠ s.id) (h0 : s.id ≠ 0) (hp : s.peerEnd = true) (hc : s.canResp = true) (hq : ∀ i ∈ l.queue, ¬ ofStream s.id i)
    (k : Nat) (more : List Nat) (w : Bool) (hw : Wakes w l) (hn : l.handler = .wait → 0 < l.sock ∨ l.fin = true) :
    ∃ l', run app l [.turn k more w] = .ok (l', [.again s.id]) := by
  obtain ⟨l0, c0, q0, s0, ht⟩ := turn_wakes app k more w l hs hw hn
  obtain ⟨q, e1, e2⟩ := goawayLoop_skip s post (l0.c.root :: pre) l0
    (by intro t ht; rw [c0] at ht; rcases List.mem_cons.1 ht with rfl | ht
        · exact ⟨hroot.1, fun e => h0 (by rw [← e]; exact hroot.2)⟩
        · exact hpre t ht)
  have hm : (q.any fun i => i.sid == s.id) = false := by
    rw [List.any_eq_false]
    intro i hi
    simp only [beq_iff_eq]
    intro e
    exact hq i (by rw [← q0]; exact (e2 i e).1 hi) ((ofStream_sid h0 i).1 e)
  have hf : goawayHandle l0 = .ok ({ l0 with queue := q }, [.again s.id]) := by
    unfold goawayHandle
    rw [if_neg (by rw [c0, s0]; omega)]
    have : l0.c.root :: l0.c.streams = l0.c.root :: pre ++ s :: post := by rw [c0, he]; rfl
    rw [this, e1, goawayLoop.eq_def]
    simp [hp, hc, hm]
  refine ⟨{ l0 with queue := q }, ?_⟩
  rw [run.eq_def]
  simp only [step]
  rw [ht, hf]
  simp [run]

/-- **C204 refuted.** If a response was finished before and the GOAWAY names a lower stream (clients name 0, as the server opens no streams), the connection is
closed at the next event, whatever waits to be sent. -/
theorem C204_lower_stream_closes_refuted (app : Nat → Option Nat) (l : Link) (hs : SaidGoodbye l) (hl : l.lsid < l.c.maxHandled)
    (k : Nat) (more : List Nat) (w : Bool) (hw : Wakes w l) (hn : l.handler = .wait → 0 < l.sock ∨ l.fin = true) :
    ∃ l', run app l [.turn k more w] = .ok (l', []) ∧ l'.closed = true := by
  obtain ⟨l0, c0, q0, s0, ht⟩ := turn_wakes app k more w l hs hw hn
  have hf : goawayHandle l0 = .ok (l0.close, []) := by
    unfold goawayHandle
    rw [if_pos (by rw [c0, s0]; exact hl)]
  refine ⟨l0.close, ?_, rfl⟩
  rw [run.eq_def]
  simp only [step]
  rw [ht, hf]
  simp [run]

/-- **C204 (partial).** A client that says goodbye when none of its requests is complete (their header fields may be, if the rest of the body is
missing and nothing was sent for them) has its connection closed at the next event, in order.  Missing: all clients with a
request under way, see above. -/
theorem C204_goodbye_closes_partial (app : Nat → Option Nat) (l : Link) (hs : SaidGoodbye l)
    (hr : l.c.root.peerEnd = false) (hc : ∀ s ∈ l.c.streams, s.id ≠ 0 ∧ (s.peerEnd = false ∨ (s.canResp = false ∧ ∀ i ∈ l.queue, ¬ ofStream s.id i)))
    (k : Nat) (more : List Nat) (w : Bool) (hw : Wakes w l) (hn : l.handler = .wait → 0 < l.sock ∨ l.fin = true) :
    ∃ l', run app l [.turn k more w] = .ok (l', []) ∧ l'.closed = true := by
  obtain ⟨l0, c0, q0, s0, ht⟩ := turn_wakes app k more w l hs hw hn
  have hf : ∀ (ss : List Stream) (l : Link), (∀ s ∈ ss, s.peerEnd = false ∨ (s.canResp = false ∧ ∀ i ∈ l.queue, i.sid ≠ s.id)) →
      ∃ l', goawayLoop l ss = .ok (l', []) ∧ l'.closed = true := by
    intro ss
    induction ss with
    | nil => intro l _; exact ⟨l.close, rfl, rfl⟩
    | cons s ss ih =>
      intro l h
      obtain ⟨l', h1, h2⟩ := ih { l with queue := l.queue.filter fun i => i.sid != s.id }
        (fun t ht => (h t (by simp [ht])).imp id (fun a => ⟨a.1, fun i hi => a.2 i (List.mem_filter.1 hi).1⟩))
      refine ⟨l', ?_, h2⟩
      have hcond : (!s.peerEnd || (!s.canResp && !(l.queue.any fun i => i.sid == s.id))) = true := by
        rcases h s (by simp) with a | ⟨a, b⟩
        · simp [a]
        · have : (l.queue.any fun i => i.sid == s.id) = false := by
            rw [List.any_eq_false]
            intro i hi
            simpa using b i hi
          simp [a, this]
      rw [goawayLoop.eq_def]
      simp only [hcond, if_true]
      exact h1
  obtain ⟨l1, h1, h2⟩ : ∃ l', goawayHandle l0 = .ok (l', []) ∧ l'.closed = true := by
    unfold goawayHandle
    split
    · exact ⟨l0.close, rfl, rfl⟩
    · refine hf _ l0 ?_
      intro s hs
      rw [c0] at hs
      rcases List.mem_cons.1 hs with rfl | hs
      · exact .inl hr
      · obtain ⟨h0, h⟩ := hc s hs
        exact h.imp id (fun a => ⟨a.1, fun i hi e => a.2 i (by rw [← q0]; exact hi) ((ofStream_sid h0 i).1 e)⟩)
  refine ⟨l1, ?_, h2⟩
  rw [run.eq_def]
  simp only [step]
  rw [ht, h1]
  simp [run]

def fGoaway (last : Nat) : Frame := { type := 7, flags := 0, sid := 0, length := 8, lastSid := last }

/-- A client that asks for a page and says goodbye at once. -/
example : crash hello [fSettings, fGet 1, fGoaway 0] (.arrive 9 :: .turn 9 [] false :: .arrive (size (fGet 1)) :: .turn 100 [] false :: .arrive 17 :: beats 5) = some .freed := by
  decide +kernel

/-- The same after its headers were sent: the handler is called again, and the body is not sent. -/
example : (match run hello (Link.start 1000 [fSettings, fGet 1, fGoaway 5])
      (.arrive 9 :: .turn 9 [] false :: .arrive (size (fGet 1)) :: beats 3 ++ .arrive 17 :: beats 4) with
    | .ok (_, ev) => some (ev.filter fun e => match e with | .again _ => true | _ => false, sentOf ev)
    | .error _ => none) = some ([.again 1], [.settings, .settingsAck, .headers 1]) := by
  decide +kernel

/-- A client that was answered, says goodbye and leaves. -/
example : (match run hello (Link.start 1000 [fSettings, fGet 1, fGoaway 0])
      (.arrive 9 :: .turn 9 [] false :: .arrive (size (fGet 1)) :: beats 12 ++ .arrive 17 :: beats 2 ++ .fin :: beats 2) with
    | .ok (l, _) => l.closed
    | .error _ => false) = true := by
  decide +kernel

end Fly.H2L
