import Verif.H2Loop.Blocked
set_option linter.all false

/-! A request that arrives alone is answered. -/

namespace Fly.H2L
open Fly.H2S (Frame Out SState Stream Conn)

/-- The frames `fs` handled from `c` on ask the application for a response on `sid` at the last one. -/
inductive Asks (sid : Nat) : Conn → List Frame → Conn → List Out → Prop
  | last {c c2 : Conn} {f : Frame} {o : List Out} : f.length ≤ c.maxFrame → H2S.stepFrame c f = some (c2, o) → asked o = [sid] →
      c2.goaway = false → c2.ended = false → Asks sid c [f] c2 o
  | cons {c c1 c2 : Conn} {f : Frame} {fs : List Frame} {o1 o2 : List Out} : f.length ≤ c.maxFrame → H2S.stepFrame c f = some (c1, o1) →
      asked o1 = [] → c1.goaway = false → c1.ended = false → Asks sid c1 fs c2 o2 → Asks sid c (f :: fs) c2 (o1 ++ o2)

theorem apply_queue (app : Nat → Option Nat) (l : Link) (o : Out) : (apply app l o).queue = l.queue ++ owed o := by
  cases o <;> simp [apply, owed]
theorem applyAll_queue (app : Nat → Option Nat) : ∀ (os : List Out) (l : Link), (applyAll app l os).queue = l.queue ++ os.flatMap owed
  | [], l => by simp [applyAll]
  | o :: os, l => by
    have := applyAll_queue app os (apply app l o)
    rw [List.flatMap_cons, ← List.append_assoc, ← apply_queue app l o]; exact this

def fresh (app : Nat → Option Nat) (sid : Nat) : Resp := { sid := sid, len := app sid, left := (app sid).getD 0 }

theorem apply_resps (app : Nat → Option Nat) (l : Link) (o : Out) : (apply app l o).resps = l.resps ++ (asked [o]).map (fresh app) := by
  cases o <;> simp [apply, asked, fresh]
theorem asked_cons (o : Out) (os : List Out) : asked (o :: os) = asked [o] ++ asked os := by
  cases o <;> simp [asked]
theorem applyAll_resps (app : Nat → Option Nat) : ∀ (os : List Out) (l : Link),
    (applyAll app l os).resps = l.resps ++ (asked os).map (fresh app)
  | [], l => by simp [applyAll, asked]
  | o :: os, l => by
    have := applyAll_resps app os (apply app l o)
    rw [asked_cons, List.map_append, ← List.append_assoc, ← apply_resps app l o]; exact this

theorem begun_asked (os : List Out) : begun os = !(asked os).isEmpty := by
  induction os with
  | nil => rfl
  | cons o os ih =>
    rw [asked_cons]
    have : begun (o :: os) = (begun [o] || begun os) := by simp [begun]
    rw [this, ih]
    cases o <;> simp [begun, asked]

theorem apply_row (app : Nat → Option Nat) (l : Link) (o : Out) (h : l.row.read = true) : (apply app l o).row.read = true := by
  cases o <;> simp [apply, h]
theorem applyAll_row (app : Nat → Option Nat) : ∀ (os : List Out) (l : Link), l.row.read = true → (applyAll app l os).row.read = true
  | [], l, h => h
  | o :: os, l, h => applyAll_row app os (apply app l o) (apply_row app l o h)

theorem applyAll_begun_write (app : Nat → Option Nat) : ∀ (os : List Out) (l : Link), asked os ≠ [] → (applyAll app l os).row.write = true
  | [], l, h => by simp [asked] at h
  | o :: os, l, h => by
    have e : applyAll app l (o :: os) = applyAll app (apply app l o) os := rfl
    rw [e]
    by_cases ho : asked [o] = []
    · refine applyAll_begun_write app os _ ?_
      rw [asked_cons, ho] at h; exact h
    · refine applyAll_write app os _ ?_
      cases o <;> simp_all [asked, apply]

theorem apply_wq (app : Nat → Option Nat) (l : Link) (o : Out) (h : l.row.write = true → l.queue ≠ []) :
    (apply app l o).row.write = true → (apply app l o).queue ≠ [] := by
  intro hw
  cases o <;> simp_all [apply]
theorem applyAll_wq (app : Nat → Option Nat) : ∀ (os : List Out) (l : Link), (l.row.write = true → l.queue ≠ []) →
    (applyAll app l os).row.write = true → (applyAll app l os).queue ≠ []
  | [], l, h => h
  | o :: os, l, h => applyAll_wq app os (apply app l o) (apply_wq app l o h)

/-- Nothing but this request: the ghost data of the proof.  `q` is all that is to be queued. -/
structure Req where
  app : Nat → Option Nat
  sid : Nat
  rest : List Frame
  c2 : Conn
  q : List Item

/-- Fields that stay. -/
structure Plain (l : Link) : Prop where
  fin : l.fin = false
  eof : l.eof = false
  closed : l.closed = false
  go : l.c.goaway = false
  read : l.row.read = true

/-- Receiving the request: `t` bytes are still to come. -/
structure Pre (R : Req) (t : Nat) (sent : List Item) (fs : List Frame) (l : Link) : Prop where
  plain : Plain l
  input : l.input = fs ++ R.rest
  asks : ∃ o, Asks R.sid l.c fs R.c2 o ∧ sent ++ l.queue ++ o.flatMap owed = R.q
  resps : l.resps = []
  bytes : l.buf + l.sock + t = bytes fs
  wq : l.row.write = true → l.queue ≠ []

structure Rec (R : Req) (t : Nat) (sent : List Item) (l : Link) : Prop where
  pre : ∃ f fs, Pre R t sent (f :: fs) l ∧ l.buf < size f

/-- The conditions under which the response can be sent. -/
structure Open (R : Req) (c : Conn) : Prop where
  find : ∃ s, c.streams.find? (fun s => s.id == R.sid) = some s ∧ s.st = .halfRemote ∧ 0 < s.window
  window : 0 < c.window

/-- The response is under way: `4` queued, `3` headers sent, `2` header of DATA sent, `1` body sent, `0` done. -/
structure Base (R : Req) (l : Link) : Prop where
  plain : Plain l
  input : l.input = R.rest
  buf : l.buf = 0
  sock : l.sock = 0

def Stage (R : Req) (sent : List Item) (l : Link) : Nat → Prop
  | 4 => Base R l ∧ l.row.write = true ∧ Open R l.c ∧ l.resps = [fresh R.app R.sid] ∧ .headers R.sid ∈ l.queue ∧ sent ++ l.queue = R.q
  | 3 => Base R l ∧ l.row.write = true ∧ Open R l.c ∧ l.resps = [{ fresh R.app R.sid with headersSent := true }] ∧ l.queue = [] ∧ sent = R.q
  | 2 => Base R l ∧ l.row.write = true ∧ Open R l.c ∧ l.resps = [{ fresh R.app R.sid with headersSent := true, phase := .data }] ∧ l.queue = [] ∧
      (R.app R.sid).getD 0 ≠ 0 ∧ sent = R.q ++ [.dataHeader R.sid ((R.app R.sid).getD 0)]
  | 1 => Base R l ∧ l.row.write = true ∧ (∃ r, l.resps = [r] ∧ r.sid = R.sid ∧ r.done = true) ∧ l.queue = [] ∧
      (∃ s, l.c.streams.find? (fun s => s.id == R.sid) = some s ∧ s.st = .closed) ∧ sent = R.q ++ bodyOf R.sid (R.app R.sid)
  | 0 => Base R l ∧ l.resps = [] ∧ l.queue = [] ∧ sent = R.q ++ bodyOf R.sid (R.app R.sid) ∧
      l.c.streams.find? (fun s => s.id == R.sid) = none
  | _ => False

theorem asked_headers (os : List Out) (sid : Nat) (h : sid ∈ asked os) : Item.headers sid ∈ os.flatMap owed := by
  induction os with
  | nil => simp [asked] at h
  | cons o os ih =>
    rw [asked_cons, List.mem_append] at h
    rw [List.flatMap_cons, List.mem_append]
    rcases h with h | h
    · left; cases o <;> simp_all [asked, owed]
    · exact .inr (ih h)

theorem bytes_cons (f : Frame) (fs : List Frame) : bytes (f :: fs) = size f + bytes fs := by
  simp [bytes]

theorem bytes_pos (f : Frame) (fs : List Frame) : 9 ≤ bytes (f :: fs) := by
  rw [bytes_cons]; unfold size; omega

theorem asks_ne {sid : Nat} {c c2 : Conn} {fs : List Frame} {o : List Out} (h : Asks sid c fs c2 o) : fs ≠ [] := by
  cases h <;> simp

/-- The frames of the request are handled as far as they are there. -/
theorem frames_live (R : Req) (ho : Open R R.c2) (av : Row) (t : Nat) (sent : List Item) :
    ∀ (fs : List Frame) (l : Link), Pre R t sent fs l →
      ∃ l' ev av', frames R.app av l (fs ++ R.rest) = .ok (l', ev, .block av') ∧ sentOf ev = [] ∧ l'.sock = l.sock ∧
        ((Rec R t sent l' ∧ av' = av) ∨ (t = 0 ∧ Stage R sent l' 4))
  | [], l, h => by
    obtain ⟨o, ha, _⟩ := h.asks
    exact absurd rfl (asks_ne ha)
  | f :: fs, l, h => by
    obtain ⟨o, ha, hq⟩ := h.asks
    have hlen : f.length ≤ l.c.maxFrame := by cases ha <;> assumption
    have hstep : ∃ c1 o1, H2S.stepFrame l.c f = some (c1, o1) ∧ c1.goaway = false ∧ c1.ended = false ∧
        ((fs = [] ∧ asked o1 = [R.sid] ∧ c1 = R.c2 ∧ o1 = o) ∨ (asked o1 = [] ∧ ∃ o2, Asks R.sid c1 fs R.c2 o2 ∧ o = o1 ++ o2)) := by
      cases ha with
      | last a b c d e => exact ⟨_, _, b, d, e, .inl ⟨rfl, c, rfl, rfl⟩⟩
      | cons a b c d e g => exact ⟨_, _, b, d, e, .inr ⟨c, _, g, rfl⟩⟩
    have same : ∀ l' : Link, l'.input = f :: (fs ++ R.rest) → { l' with input := f :: (fs ++ R.rest) } = l' := by
      intro l' e; rw [← e]
    rw [List.cons_append, frames.eq_def]
    simp only
    by_cases hb : l.buf < size f
    · rw [if_pos (by simp [hb, hlen])]
      refine ⟨_, _, _, rfl, rfl, rfl, .inl ⟨?_, rfl⟩⟩
      rw [same l h.input]
      exact ⟨f, fs, h, hb⟩
    · have hb9 : ¬ l.buf < 9 := by unfold size at hb; omega
      rw [if_neg (by simp [hb, hb9]), if_neg hb]
      obtain ⟨c1, o1, e, g1, g2, hcase⟩ := hstep
      simp only [e, g1, g2, Bool.false_eq_true, if_false]
      have sm := applyAll_same R.app o1 { l with c := c1, lsid := if f.type = 7 then f.lastSid else l.lsid }
      have eq_ := applyAll_queue R.app o1 { l with c := c1, lsid := if f.type = 7 then f.lastSid else l.lsid }
      have er := applyAll_resps R.app o1 { l with c := c1, lsid := if f.type = 7 then f.lastSid else l.lsid }
      have ew := applyAll_wq R.app o1 { l with c := c1, lsid := if f.type = 7 then f.lastSid else l.lsid } h.wq
      have err := applyAll_row R.app o1 { l with c := c1, lsid := if f.type = 7 then f.lastSid else l.lsid } h.plain.read
      have ewr := applyAll_begun_write R.app o1 { l with c := c1, lsid := if f.type = 7 then f.lastSid else l.lsid }
      have ea : applyAll R.app { l with c := c1, lsid := if f.type = 7 then f.lastSid else l.lsid } o1 = after R.app l f c1 o1 := rfl
      rw [ea] at sm eq_ er ew err ewr ⊢
      have pl : Plain (consume f (fs ++ R.rest) (after R.app l f c1 o1)) :=
        ⟨by show (after R.app l f c1 o1).fin = false; rw [sm.2.2.2.2.1]; exact h.plain.fin,
         by show (after R.app l f c1 o1).eof = false; rw [sm.2.2.2.2.2.1]; exact h.plain.eof,
         by show (after R.app l f c1 o1).closed = false; rw [sm.2.2.2.2.2.2.1]; exact h.plain.closed,
         by show (after R.app l f c1 o1).c.goaway = false; rw [sm.1]; exact g1, err⟩
      have hbuf : (consume f (fs ++ R.rest) (after R.app l f c1 o1)).buf = l.buf - size f := by
        show (after R.app l f c1 o1).buf - size f = _; rw [sm.2.2.1]
      have hsock : (consume f (fs ++ R.rest) (after R.app l f c1 o1)).sock = l.sock := by
        show (after R.app l f c1 o1).sock = _; rw [sm.2.2.2.1]
      have hby := h.bytes
      rw [bytes_cons] at hby
      rcases hcase with ⟨rfl, has, rfl, rfl⟩ | ⟨has, o2, ha2, rfl⟩
      · rw [if_pos (by rw [begun_asked, has]; rfl)]
        have h0 : bytes ([] : List Frame) = 0 := rfl
        refine ⟨_, _, _, rfl, sentOf_did _, hsock, .inr ⟨by omega, ⟨pl, rfl, by rw [hbuf]; omega, by rw [hsock]; omega⟩, ?_, ?_, ?_, ?_, ?_⟩⟩
        · exact ewr (by rw [has]; simp)
        · show Open R (after R.app l f R.c2 o1).c; rw [sm.1]; exact ho
        · show (after R.app l f R.c2 o1).resps = _
          rw [er, has]; show l.resps ++ _ = _; rw [h.resps]; rfl
        · show _ ∈ (after R.app l f R.c2 o1).queue
          rw [eq_]; exact List.mem_append_right _ (asked_headers o1 R.sid (by rw [has]; simp))
        · show sent ++ (after R.app l f R.c2 o1).queue = _
          rw [eq_, ← List.append_assoc]; exact hq
      · rw [if_neg (by rw [begun_asked, has]; simp)]
        have hpre : Pre R t sent fs (consume f (fs ++ R.rest) (after R.app l f c1 o1)) := by
          refine ⟨pl, rfl, ⟨o2, ?_, ?_⟩, ?_, by rw [hbuf, hsock]; omega, ew⟩
          · show Asks R.sid (after R.app l f c1 o1).c fs R.c2 o2; rw [sm.1]; exact ha2
          · show sent ++ (after R.app l f c1 o1).queue ++ _ = _
            rw [eq_, ← List.append_assoc, List.append_assoc (sent ++ _), ← List.flatMap_append]; exact hq
          · show (after R.app l f c1 o1).resps = []
            rw [er, has]; show l.resps ++ _ = _; rw [h.resps]; rfl
        obtain ⟨l', ev, av', e2, h1, h2, h3⟩ := frames_live R ho av t sent fs _ hpre
        rw [e2]
        exact ⟨_, _, _, rfl, by rw [sentOf_append, sentOf_did, h1]; rfl, by rw [h2, hsock], h3⟩

theorem serve_live (R : Req) (ho : Open R R.c2) (av : Row) (hav : av.read = true) (t : Nat) (sent : List Item) (f : Frame) (fs : List Frame)
    (l : Link) (h : Pre R t sent (f :: fs) l) :
    ∃ l' ev av', serve R.app av l = .ok (l', ev, some av') ∧ sentOf ev = [] ∧ l'.sock = l.sock ∧
        ((Rec R t sent l' ∧ av' = av) ∨ (t = 0 ∧ Stage R sent l' 4)) := by
  unfold serve
  simp only
  rw [if_neg (by simp [h.plain.go]), if_neg (by simp [h.plain.eof]), if_pos hav]
  by_cases hb : l.buf < 9
  · rw [if_pos hb]
    exact ⟨l, [], av, rfl, rfl, rfl, .inl ⟨⟨f, fs, h, by unfold size; omega⟩, rfl⟩⟩
  · rw [if_neg hb]
    obtain ⟨l', ev, av', e, h1, h2, h3⟩ := frames_live R ho av t sent (f :: fs) l h
    rw [h.input, e]
    exact ⟨l', ev, av', rfl, h1, h2, h3⟩

theorem Plain.row {l : Link} (h : Plain l) (hd : Handler) : Plain { l with handler := hd, row := { l.row with read := true } } :=
  ⟨h.fin, h.eof, h.closed, h.go, rfl⟩

theorem Rec.wait {R : Req} {t : Nat} {sent : List Item} {l : Link} (h : Rec R t sent l) (hd : Handler) :
    Rec R t sent { l with handler := hd, row := { l.row with read := true } } := by
  obtain ⟨f, fs, p, hb⟩ := h.pre
  exact ⟨f, fs, ⟨p.plain.row hd, p.input, p.asks, p.resps, p.bytes, p.wq⟩, hb⟩

theorem Stage.wait {R : Req} {sent : List Item} {l : Link} : ∀ (i : Nat) (hd : Handler), Stage R sent l i →
    Stage R sent { l with handler := hd, row := { l.row with read := true } } i
  | 0, hd, h => ⟨⟨h.1.plain.row hd, h.1.input, h.1.buf, h.1.sock⟩, h.2⟩
  | 1, hd, h => ⟨⟨h.1.plain.row hd, h.1.input, h.1.buf, h.1.sock⟩, h.2⟩
  | 2, hd, h => ⟨⟨h.1.plain.row hd, h.1.input, h.1.buf, h.1.sock⟩, h.2⟩
  | 3, hd, h => ⟨⟨h.1.plain.row hd, h.1.input, h.1.buf, h.1.sock⟩, h.2⟩
  | 4, hd, h => ⟨⟨h.1.plain.row hd, h.1.input, h.1.buf, h.1.sock⟩, h.2⟩
  | i + 5, hd, h => h

theorem Pre.recv {R : Req} {t : Nat} {sent : List Item} {fs : List Frame} {l : Link} (h : Pre R t sent fs l) (k : Nat) : Pre R t sent fs (recv k l) := by
  refine ⟨⟨h.plain.fin, h.plain.eof, h.plain.closed, h.plain.go, h.plain.read⟩, h.input, h.asks, h.resps, ?_, h.wq⟩
  have := h.bytes
  simp only [H2L.recv]
  omega

theorem recv_sock (k : Nat) (l : Link) : (recv k l).sock ≤ l.sock := by
  simp only [recv]; omega
theorem recv_less (k : Nat) (l : Link) (h : 0 < l.sock) : (recv k l).sock < l.sock := by
  simp only [recv]; omega

theorem turnLoop_live (R : Req) (ho : Open R R.c2) (av : Row) (hav : av.read = true) (t : Nat) (sent : List Item) :
    ∀ (more : List Nat) (f : Frame) (fs : List Frame) (l : Link), Pre R t sent (f :: fs) l →
    ∃ l' ev, turnLoop R.app av l more = .ok (l', ev) ∧ sentOf ev = [] ∧
      ((Rec R t sent l' ∧ l'.sock ≤ l.sock ∧ (0 < l'.sock → l'.handler = .wait)) ∨ (t = 0 ∧ Stage R sent l' 4))
  | [], f, fs, l, h => by
    obtain ⟨l', ev, av', e, h1, h2, h3⟩ := serve_live R ho av hav t sent f fs l h
    rw [turnLoop.eq_def]
    simp only [e]
    refine ⟨_, _, rfl, h1, ?_⟩
    rcases h3 with h3 | h3
    · exact .inl ⟨h3.1.wait _, Nat.le_of_eq h2, fun _ => rfl⟩
    · exact .inr ⟨h3.1, Stage.wait 4 _ h3.2⟩
  | k :: ks, f, fs, l, h => by
    obtain ⟨l', ev, av', e, h1, h2, h3⟩ := serve_live R ho av hav t sent f fs l h
    rw [turnLoop.eq_def]
    simp only [e]
    by_cases hs : l'.sock = 0
    · rw [if_pos hs]
      refine ⟨_, _, rfl, h1, ?_⟩
      rcases h3 with h3 | h3
      · exact .inl ⟨h3.1.wait _, Nat.le_of_eq h2, fun h => absurd h (by simp [hs])⟩
      · exact .inr ⟨h3.1, Stage.wait 4 _ h3.2⟩
    · rw [if_neg hs]
      rcases h3 with ⟨h3, rfl⟩ | h3
      · obtain ⟨g, gs, p, _⟩ := h3.pre
        obtain ⟨l2, ev2, e2, q1, q2⟩ := turnLoop_live R ho av' hav t sent ks g gs (recv k l') (p.recv k)
        rw [e2]
        refine ⟨_, _, rfl, by rw [sentOf_append, h1, q1]; rfl, ?_⟩
        rcases q2 with q2 | q2
        · have := recv_sock k l'
          exact .inl ⟨q2.1, by omega, q2.2.2⟩
        · exact .inr q2
      · exact absurd h3.2.1.sock hs

def wt (l : Link) : Nat := match l.handler with
  | .wait => 1
  | .serve => 0

/-- How long the request may still take to be received. -/
def rankA (l : Link) : Nat := 10 + 2 * l.sock + (1 - wt l)

theorem rec_turn (R : Req) (ho : Open R R.c2) (t : Nat) (sent : List Item) (k : Nat) (more : List Nat) (w : Bool) (l : Link) (h : Rec R t sent l) :
    ∃ l' ev, turn R.app k more w l = .ok (l', ev) ∧
      ((Rec R t (sent ++ sentOf ev) l' ∧ (t = 0 → rankA l' < rankA l)) ∨ (t = 0 ∧ Stage R (sent ++ sentOf ev) l' 4)) := by
  obtain ⟨f, fs, p, hb⟩ := h.pre
  have hby := p.bytes
  rw [bytes_cons] at hby
  have ht0 : t = 0 → 0 < l.sock := by intro e; omega
  unfold turn
  rw [if_neg (by simp [p.plain.closed])]
  simp only
  by_cases hs : 0 < l.sock
  · have hr : (ready w l).read = true := by simp [ready, p.plain.read, hs]
    rw [if_neg (by simp [hr])]
    cases hh : l.handler with
    | serve =>
      obtain ⟨l', ev, e, h1, h2⟩ := turnLoop_live R ho (ready w l) hr t sent more f fs l p
      simp only [e]
      refine ⟨_, _, rfl, ?_⟩
      rw [h1, List.append_nil]
      rcases h2 with ⟨a, b, c⟩ | a
      · refine .inl ⟨a, fun e => ?_⟩
        obtain ⟨g, gs, pg, hg⟩ := a.pre
        have := pg.bytes
        rw [bytes_cons] at this
        have hw := c (by omega)
        have w1 : wt l' = 1 := by unfold wt; rw [hw]
        have w2 : wt l = 0 := by unfold wt; rw [hh]
        unfold rankA; omega
      · exact .inr a
    | wait =>
      obtain ⟨l', ev, e, h1, h2⟩ := turnLoop_live R ho (ready w l) hr t sent more f fs (recv k l) (p.recv k)
      simp only
      rw [if_pos hs, e]
      refine ⟨_, _, rfl, ?_⟩
      rw [h1, List.append_nil]
      rcases h2 with ⟨a, b, c⟩ | a
      · refine .inl ⟨a, fun e => ?_⟩
        obtain ⟨g, gs, pg, hg⟩ := a.pre
        have := pg.bytes
        rw [bytes_cons] at this
        have hw := c (by omega)
        have w1 : wt l' = 1 := by unfold wt; rw [hw]
        have := recv_less k l hs
        unfold rankA; omega
      · exact .inr a
  · have hs0 : l.sock = 0 := by omega
    have hr : (ready w l).read = false := by simp [ready, p.plain.fin, hs0]
    have nt : t = 0 → False := fun e => hs (ht0 e)
    by_cases hw : (ready w l).write = true
    · rw [if_neg (by simp [hw])]
      have hwr := ready_write hw
      cases hh : l.handler with
      | wait =>
        simp only
        rw [if_neg hs, if_neg (by simp [p.plain.fin])]
        refine ⟨_, _, rfl, .inl ⟨?_, fun e => absurd (nt e) (by simp)⟩⟩
        have := h.wait .serve
        show Rec R t (sent ++ []) _
        rw [List.append_nil]; exact this
      | serve =>
        have hq := p.wq hwr
        have es : serve R.app (ready w l) l = .ok ((sendAll l).1, (sendAll l).2, none) := by
          unfold serve
          simp only
          rw [if_neg (by simp [p.plain.go]), if_neg (by simp [p.plain.eof]), if_neg (by simp [hr]), if_pos hw, if_pos hq]
        have et : turnLoop R.app (ready w l) l more = .ok ((sendAll l).1, (sendAll l).2) := by
          cases more with
          | nil => rw [turnLoop.eq_def]; simp only [es]
          | cons a b => rw [turnLoop.eq_def]; simp only [es]
        simp only [et]
        refine ⟨_, _, rfl, .inl ⟨⟨f, fs, ⟨⟨p.plain.fin, p.plain.eof, p.plain.closed, p.plain.go, p.plain.read⟩, p.input, ?_, ?_, p.bytes, ?_⟩, hb⟩,
          fun e => absurd (nt e) (by simp)⟩⟩
        · obtain ⟨o, a, b⟩ := p.asks
          refine ⟨o, a, ?_⟩
          have : sentOf (sendAll l).2 = l.queue := sentOf_sent _
          rw [this]
          show sent ++ l.queue ++ [] ++ _ = _
          rw [List.append_nil]; exact b
        · simp only [sendAll, p.resps, List.map_nil]
        · intro hx
          simp only [sendAll, p.resps, List.isEmpty_nil, Bool.not_true, Bool.and_false, Bool.false_eq_true] at hx
    · rw [if_pos (by simp [hr, hw])]
      refine ⟨_, _, rfl, .inl ⟨?_, fun e => absurd (nt e) (by simp)⟩⟩
      show Rec R t (sent ++ []) _
      rw [List.append_nil]; exact h

/-- How long the response may still take. -/
def rankB (i : Nat) (l : Link) : Nat := 2 * i + wt l

theorem stage_serve (R : Req) (sent : List Item) (i : Nat) (hi : 0 < i) (av : Row) (hr : av.read = false) (hw : av.write = true) (l : Link)
    (h : Stage R sent l i) :
    ∃ l' ev j, serve R.app av l = .ok (l', ev, none) ∧ j < i ∧ Stage R (sent ++ sentOf ev) l' j ∧ l'.handler = .serve := by
  have base : Base R l := by
    match i, h with
    | 1, h => exact h.1
    | 2, h => exact h.1
    | 3, h => exact h.1
    | 4, h => exact h.1
    | i + 5, h => exact absurd h (by simp [Stage])
  have go : serve R.app av l = (if l.queue ≠ [] then .ok ((sendAll l).1, (sendAll l).2, none)
      else match l.resps with
        | r :: rs => (respond l r rs).map fun r => (r.1, r.2, none)
        | [] => if l.buf < 9 then .error .stale else
          match frames R.app av l l.input with
          | .error b => .error b
          | .ok (l', ev, .block av') => .ok (l', ev, some av')
          | .ok (l', ev, .goaway) => (goawayHandle l').map fun r => (r.1, ev ++ r.2, none)
          | .ok (l', ev, .emergency) => .ok (l'.close, ev ++ [.sent (.goaway 2), .workerEnds], none)) := by
    unfold serve
    simp only
    rw [if_neg (by simp [base.plain.go]), if_neg (by simp [base.plain.eof]), if_neg (by simp [hr]), if_pos hw]
    rfl
  have nb : ∀ (l' : Link), l'.input = l.input → l'.buf = l.buf → l'.sock = l.sock → l'.fin = l.fin → l'.eof = l.eof → l'.closed = l.closed →
      l'.c.goaway = l.c.goaway → l'.row.read = true → Base R l' := by
    intro l' a b c d e f g h
    exact ⟨⟨by rw [d]; exact base.plain.fin, by rw [e]; exact base.plain.eof, by rw [f]; exact base.plain.closed,
      by rw [g]; exact base.plain.go, h⟩, by rw [a]; exact base.input, by rw [b]; exact base.buf, by rw [c]; exact base.sock⟩
  have hget : (fresh R.app R.sid).len = R.app R.sid := rfl
  match i, h with
  | 4, h =>
    obtain ⟨_, hwr, op, hrs, hh, hq⟩ := h
    rw [go, if_pos (by intro e; rw [e] at hh; simp at hh)]
    refine ⟨_, _, 3, rfl, by omega, ⟨nb _ rfl rfl rfl rfl rfl rfl rfl base.plain.read, ?_, op, ?_, rfl, ?_⟩, rfl⟩
    · simp [sendAll, hwr, hrs]
    · simp only [sendAll, hrs, List.map_cons, List.map_nil]
      unfold markSent
      rw [if_pos (by simpa [fresh] using hh)]
    · have : sentOf (sendAll l).2 = l.queue := sentOf_sent _
      rw [this]; exact hq
  | 3, h =>
    obtain ⟨_, hwr, op, hrs, hq, hs⟩ := h
    obtain ⟨s, hf, hst, hwin⟩ := op.find
    rw [go, if_neg (by simp [hq])]
    simp only [hrs]
    have e : respond l { fresh R.app R.sid with headersSent := true } [] = body l { fresh R.app R.sid with headersSent := true } [] s := by
      unfold respond
      simp only [fresh] at hf ⊢
      rw [hf]
      simp
    have hfr : ({ fresh R.app R.sid with headersSent := true } : Resp).phase = .header := rfl
    rw [e]
    unfold body
    rw [hfr]
    simp only
    have hw2 := op.window
    rw [if_neg (by simp; omega)]
    by_cases hz : (R.app R.sid).getD 0 = 0
    · rw [if_pos (by exact hz)]
      refine ⟨_, _, 1, rfl, by omega, ?_, ?_⟩
      · unfold bodyDone
        simp only
        rw [if_pos hst]
        refine ⟨nb _ rfl rfl rfl rfl rfl rfl rfl rfl, rfl, ⟨_, rfl, rfl, rfl⟩, hq, ⟨{ s with st := .closed }, ?_, rfl⟩, ?_⟩
        · have hid : s.id = R.sid := by have := List.find?_some hf; simpa using this
          have := find_setStream l.c R.sid (fun s => { s with st := .closed }) s (fun _ => rfl) hf
          have e2 : setStream l.c s.id = setStream l.c R.sid := by rw [hid]
          simp only [e2]; exact this
        · show sent ++ [] = _
          rw [hs]; unfold bodyOf; rw [if_pos hz]
      · unfold bodyDone; simp only; split <;> rfl
    · rw [if_neg (by exact hz)]
      refine ⟨_, _, 2, rfl, by omega, ⟨nb _ rfl rfl rfl rfl rfl rfl rfl base.plain.read, hwr, op, rfl, hq, hz, ?_⟩, rfl⟩
      rw [hs]; rfl
  | 2, h =>
    obtain ⟨_, hwr, op, hrs, hq, hz, hs⟩ := h
    obtain ⟨s, hf, hst, hwin⟩ := op.find
    rw [go, if_neg (by simp [hq])]
    simp only [hrs]
    have e : respond l { fresh R.app R.sid with headersSent := true, phase := .data } [] =
        body l { fresh R.app R.sid with headersSent := true, phase := .data } [] s := by
      unfold respond
      simp only [fresh] at hf ⊢
      rw [hf]
      simp
    rw [e]
    unfold body
    simp only
    rw [if_neg (by
      intro e
      have e : (R.app R.sid).isNone = true := e
      rw [Option.isNone_iff_eq_none] at e
      rw [e] at hz; simp at hz), if_neg (by exact hz)]
    refine ⟨_, _, 1, rfl, by omega, ?_, ?_⟩
    · unfold bodyDone
      simp only
      rw [if_pos hst]
      refine ⟨nb _ rfl rfl rfl rfl rfl rfl rfl rfl, rfl, ⟨_, rfl, rfl, rfl⟩, hq, ⟨?_, ?_, ?_⟩, ?_⟩
      · exact { s with window := s.window - ((R.app R.sid).getD 0 : Nat), st := .closed }
      · have hid : s.id = R.sid := by have := List.find?_some hf; simpa using this
        have h1 := find_setStream l.c R.sid (fun s => { s with window := s.window - ((R.app R.sid).getD 0 : Nat) }) s (fun _ => rfl) hf
        have h2 := find_setStream (spend l.c R.sid ((R.app R.sid).getD 0)) R.sid (fun s => { s with st := .closed }) _ (fun _ => rfl) h1
        have e2 : setStream (spend l.c R.sid ((R.app R.sid).getD 0)) s.id = setStream (spend l.c R.sid ((R.app R.sid).getD 0)) R.sid := by rw [hid]
        show (setStream (spend l.c R.sid ((R.app R.sid).getD 0)) s.id _).streams.find? _ = _
        rw [e2]; exact h2
      · rfl
      · rw [hs]; unfold bodyOf; rw [if_neg hz, List.append_assoc]; rfl
    · unfold bodyDone; simp only; split <;> rfl
  | 1, h =>
    obtain ⟨_, hwr, ⟨r, hrs, hsid, hd⟩, hq, ⟨s, hf, hst⟩, hs⟩ := h
    rw [go, if_neg (by simp [hq])]
    simp only [hrs]
    have e : respond l r [] = .ok (finish l r [] s) := by
      unfold respond
      rw [hsid, hf]
      simp [hd]
    rw [e]
    refine ⟨_, _, 0, rfl, by omega, ⟨nb _ rfl rfl rfl rfl rfl rfl rfl rfl, rfl, hq, ?_, ?_⟩, rfl⟩
    · show sent ++ [] = _; rw [List.append_nil]; exact hs
    · simp only [finish, hst, if_true, hsid]
      rw [List.find?_eq_none]
      intro x hx
      simp only [List.mem_filter, bne_iff_ne, ne_eq] at hx
      simpa using hx.2
  | i + 5, h => exact absurd h (by simp [Stage])

theorem stage_base {R : Req} {sent : List Item} {l : Link} : ∀ (i : Nat), Stage R sent l i → Base R l ∧ i ≤ 4 ∧ (0 < i → l.row.write = true)
  | 0, h => ⟨h.1, by omega, by omega⟩
  | 1, h => ⟨h.1, by omega, fun _ => h.2.1⟩
  | 2, h => ⟨h.1, by omega, fun _ => h.2.1⟩
  | 3, h => ⟨h.1, by omega, fun _ => h.2.1⟩
  | 4, h => ⟨h.1, by omega, fun _ => h.2.1⟩
  | i + 5, h => absurd h (by simp [Stage])

theorem stage_zero {R : Req} {sent : List Item} {l : Link} (h : Stage R sent l 0) (ok : OK l) : l.row.write = false := by
  rcases ok with a | a | a
  · rw [h.1.plain.closed] at a; simp at a
  · rw [h.1.plain.go] at a; simp at a
  · cases hw : l.row.write
    · rfl
    · rcases a.write hw with b | b
      · exact absurd h.2.2.1 b
      · exact absurd h.2.1 b

theorem stage_turn (R : Req) (sent : List Item) (i : Nat) (k : Nat) (more : List Nat) (w : Bool) (l : Link) (ok : OK l) (h : Stage R sent l i) :
    ∃ l' ev j, turn R.app k more w l = .ok (l', ev) ∧ Stage R (sent ++ sentOf ev) l' j ∧ j ≤ i ∧ (w = true → 0 < i → rankB j l' < rankB i l) := by
  obtain ⟨b, i4, hwr⟩ := stage_base i h
  unfold turn
  rw [if_neg (by simp [b.plain.closed])]
  simp only
  have hr : (ready w l).read = false := by simp [ready, b.plain.fin, b.sock]
  by_cases hw : (ready w l).write = true
  · rw [if_neg (by simp [hw])]
    have hi : 0 < i := by
      rcases Nat.eq_zero_or_pos i with e | e
      · subst e
        have := stage_zero h ok
        rw [ready_write hw] at this; simp at this
      · exact e
    cases hh : l.handler with
    | serve =>
      obtain ⟨l', ev, j, e, hj, hs, hd⟩ := stage_serve R sent i hi (ready w l) hr hw l h
      have et : turnLoop R.app (ready w l) l more = .ok (l', ev) := by
        cases more with
        | nil => rw [turnLoop.eq_def]; simp only [e]
        | cons a b => rw [turnLoop.eq_def]; simp only [e]
      simp only [et]
      refine ⟨_, _, j, rfl, hs, by omega, fun _ _ => ?_⟩
      have w1 : wt l' = 0 := by unfold wt; rw [hd]
      unfold rankB; omega
    | wait =>
      simp only
      rw [if_neg (by rw [b.sock]; omega), if_neg (by simp [b.plain.fin])]
      refine ⟨_, _, i, rfl, ?_, Nat.le_refl _, fun _ _ => ?_⟩
      · show Stage R (sent ++ []) _ i
        rw [List.append_nil]; exact Stage.wait i .serve h
      · have w2 : wt l = 1 := by unfold wt; rw [hh]
        unfold rankB
        show 2 * i + 0 < _
        omega
  · rw [if_pos (by simp [hr, hw])]
    refine ⟨_, _, i, rfl, ?_, Nat.le_refl _, fun e hi => ?_⟩
    · show Stage R (sent ++ []) _ i
      rw [List.append_nil]; exact h
    · exfalso; apply hw; simp [ready, hwr hi, e]

/-- The request is being received, or its response is under way. -/
def Alive (R : Req) (t : Nat) (sent : List Item) (l : Link) : Prop := Rec R t sent l ∨ (t = 0 ∧ ∃ i, Stage R sent l i)

theorem alive_run (R : Req) (ho : Open R R.c2) : ∀ (ss : List Step) (t : Nat) (sent : List Item) (l : Link), OK l → (∀ s ∈ ss, s.isFin = false) →
    Alive R (arriving ss + t) sent l → ∃ l' ev, run R.app l ss = .ok (l', ev) ∧ Alive R t (sent ++ sentOf ev) l' ∧ OK l'
  | [], t, sent, l, ok, _, h => by
    refine ⟨l, [], rfl, ?_, ok⟩
    have e : arriving [] + t = t := Nat.zero_add t
    rw [e] at h
    show Alive R t (sent ++ []) l
    rw [List.append_nil]; exact h
  | s :: ss, t, sent, l, ok, hs, h => by
    have hs' : ∀ s ∈ ss, s.isFin = false := fun s m => hs s (List.mem_cons_of_mem _ m)
    have hok := step_ok R.app l s ok
    have key : ∀ l1 ev1, step R.app l s = .ok (l1, ev1) → Alive R (arriving ss + t) (sent ++ sentOf ev1) l1 →
        ∃ l' ev, run R.app l (s :: ss) = .ok (l', ev) ∧ Alive R t (sent ++ sentOf ev) l' ∧ OK l' := by
      intro l1 ev1 e a
      rw [e] at hok
      obtain ⟨l2, ev2, e2, a2, ok2⟩ := alive_run R ho ss t _ l1 hok.1 hs' a
      refine ⟨l2, ev1 ++ ev2, ?_, ?_, ok2⟩
      · rw [run.eq_def]; simp only [e, e2]
      · rw [sentOf_append, ← List.append_assoc]; exact a2
    cases s with
    | arrive n =>
      refine key _ [] rfl ?_
      have e : arriving (.arrive n :: ss) + t = n + (arriving ss + t) := by simp only [arriving]; omega
      rw [e] at h
      show Alive R _ (sent ++ []) _
      rw [List.append_nil]
      rcases h with h | ⟨h0, i, h⟩
      · obtain ⟨f, fs, p, hb⟩ := h.pre
        refine .inl ⟨f, fs, ⟨⟨p.plain.fin, p.plain.eof, p.plain.closed, p.plain.go, p.plain.read⟩, p.input, p.asks, p.resps, ?_, p.wq⟩, hb⟩
        have := p.bytes
        show l.buf + (l.sock + n) + (arriving ss + t) = _
        omega
      · refine .inr ⟨by omega, i, ?_⟩
        have e0 : n = 0 := by omega
        subst e0
        exact h
    | fin => have := hs .fin List.mem_cons_self; simp [Step.isFin] at this
    | turn k more w =>
      have e : arriving (.turn k more w :: ss) + t = arriving ss + t := rfl
      rw [e] at h
      rcases h with h | ⟨h0, i, h⟩
      · obtain ⟨l1, ev1, e1, a⟩ := rec_turn R ho _ sent k more w l h
        refine key l1 ev1 e1 ?_
        rcases a with a | a
        · exact .inl a.1
        · exact .inr ⟨a.1, 4, a.2⟩
      · obtain ⟨l1, ev1, j, e1, a, _⟩ := stage_turn R sent i k more w l ok h
        exact key l1 ev1 e1 (.inr ⟨h0, j, a⟩)

/-- Turns in which the socket is writable. -/
theorem stage_run (R : Req) : ∀ (m : List (Nat × List Nat)) (sent : List Item) (i : Nat) (l : Link), OK l → Stage R sent l i → rankB i l ≤ m.length + 1 →
    ∃ l' ev, run R.app l (pulse m) = .ok (l', ev) ∧ Stage R (sent ++ sentOf ev) l' 0
  | [], sent, i, l, ok, h, hm => by
    have : i = 0 := by unfold rankB at hm; simp at hm; omega
    subst this
    exact ⟨l, [], rfl, by show Stage R (sent ++ []) l 0; rw [List.append_nil]; exact h⟩
  | x :: m, sent, i, l, ok, h, hm => by
    obtain ⟨l1, ev1, j, e1, a, hj, hr⟩ := stage_turn R sent i x.1 x.2 true l ok h
    have hok := step_ok R.app l (.turn x.1 x.2 true) ok
    have e1' : step R.app l (.turn x.1 x.2 true) = .ok (l1, ev1) := e1
    rw [e1'] at hok
    have hb : rankB j l1 ≤ m.length + 1 := by
      rcases Nat.eq_zero_or_pos i with e | e
      · have : j = 0 := by omega
        subst this
        unfold rankB wt; split <;> omega
      · have := hr rfl e
        simp only [List.length_cons] at hm
        omega
    obtain ⟨l2, ev2, e2, a2⟩ := stage_run R m _ j l1 hok.1 a hb
    refine ⟨l2, ev1 ++ ev2, ?_, by rw [sentOf_append, ← List.append_assoc]; exact a2⟩
    simp only [pulse, List.map_cons]
    rw [run.eq_def]
    simp only [e1']
    have e2' : run R.app l1 (m.map fun x => .turn x.1 x.2 true) = .ok (l2, ev2) := e2
    rw [e2']

theorem rec_run (R : Req) (ho : Open R R.c2) : ∀ (m : List (Nat × List Nat)) (sent : List Item) (l : Link), OK l → Rec R 0 sent l → rankA l ≤ m.length →
    ∃ l' ev, run R.app l (pulse m) = .ok (l', ev) ∧ Stage R (sent ++ sentOf ev) l' 0
  | [], sent, l, ok, h, hm => by unfold rankA at hm; simp at hm
  | x :: m, sent, l, ok, h, hm => by
    obtain ⟨l1, ev1, e1, a⟩ := rec_turn R ho 0 sent x.1 x.2 true l h
    have hok := step_ok R.app l (.turn x.1 x.2 true) ok
    have e1' : step R.app l (.turn x.1 x.2 true) = .ok (l1, ev1) := e1
    rw [e1'] at hok
    have key : (∃ l' ev, run R.app l1 (pulse m) = .ok (l', ev) ∧ Stage R (sent ++ sentOf ev1 ++ sentOf ev) l' 0) →
        ∃ l' ev, run R.app l (pulse (x :: m)) = .ok (l', ev) ∧ Stage R (sent ++ sentOf ev) l' 0 := by
      rintro ⟨l2, ev2, e2, a2⟩
      refine ⟨l2, ev1 ++ ev2, ?_, by rw [sentOf_append, ← List.append_assoc]; exact a2⟩
      simp only [pulse, List.map_cons]
      rw [run.eq_def]
      simp only [e1']
      have e2' : run R.app l1 (m.map fun x => .turn x.1 x.2 true) = .ok (l2, ev2) := e2
      rw [e2']
    simp only [List.length_cons] at hm
    rcases a with ⟨a, hr⟩ | ⟨_, a⟩
    · have := hr rfl
      exact key (rec_run R ho m _ l1 hok.1 a (by omega))
    · refine key (stage_run R m _ 4 l1 hok.1 a ?_)
      have : wt l1 ≤ 1 := by unfold wt; split <;> omega
      unfold rankA at hm
      unfold rankB
      omega

end Fly.H2L
