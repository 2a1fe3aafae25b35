import Verif.Access.Lemmas

/-! # C197: the access log of a connection -/

namespace Fly.Access
open ReqEvent (Msg Rcv Env Reply St Plain dataOf)
open Keep (End next)
open Site (Site)
open Header (HList)
open PyBridge (Cfg Ret)
open Response (SendBuf codeOfType explain decimal statusLine)
open Trip (Seen CfgOk Readable Each client WrittenPath)
open Nego (negotiating)
open Refuse (Step Offence)

/-! ## The status -/

/-- Number and phrase, as they are printed. -/
def phrase (n : Nat) : Bytes :=
  (match codeOfType n with | some c => decimal c | none => b!"-1") ++ b!" " ++ (match explain n with | some e => e | none => b!"(null)")

theorem phrase_plain (n : Nat) : 13 ∉ phrase n ∧ Log.Clean (phrase n) ∧ (phrase n).length ≤ 36 := by
  have h : ∀ r ∈ Response.responses, 13 ∉ decimal r.1 ++ b!" " ++ r.2 ∧ Log.Clean (decimal r.1 ++ b!" " ++ r.2) ∧ (decimal r.1 ++ b!" " ++ r.2).length ≤ 36 := by
    decide +kernel
  unfold phrase codeOfType explain
  cases hf : Response.responses.find? (·.1 == n) with
  | none => exact ⟨by decide, by decide, by decide⟩
  | some r => exact h r (List.mem_of_find?_eq_some hf)

/-- The bytes begin with the status line for `n`. -/
def Begins (n : Nat) (bs : Bytes) : Prop := ∃ rest, bs = b!"HTTP/1.1 " ++ phrase n ++ 13 :: 10 :: rest

theorem line_begins {n : Nat} {line : Bytes} (h : statusLine .v1_1 n = some line) : line = b!"HTTP/1.1 " ++ phrase n ++ [13, 10] := by
  unfold statusLine at h
  have e : (b!"HTTP/1.1 " : Bytes) = Response.Version.full .v1_1 ++ b!" " := by decide
  rw [e]
  unfold phrase
  cases hc : codeOfType n <;> cases he : explain n <;> simp only [hc, he, Option.ite_none_left_eq_some, Option.some.injEq] at h ⊢ <;>
    (rw [← h.2]; simp only [List.append_assoc])

theorem serialize_begins {n count : Nat} {p : Response.Prepared} {buf : SendBuf} (h : Response.serialize .v1_1 n count p = some buf) : Begins n buf.bytes := by
  cases p with
  | tooLarge => cases h
  | ready b len hd =>
    unfold Response.serialize Response.setSendPtr at h
    cases hl : statusLine .v1_1 n with
    | none => rw [hl] at h; cases h
    | some line =>
      rw [hl] at h
      have hb := line_begins hl
      have key : ∀ x y : Bytes, Begins n (line ++ x ++ [13, 10] ++ y) := fun x y => ⟨x ++ [13, 10] ++ y, by rw [hb]; simp⟩
      have key' : ∀ x : Bytes, Begins n (line ++ x ++ [13, 10]) := fun x => ⟨x ++ [13, 10], by rw [hb]; simp⟩
      cases b with
      | encoded enc => simp only [Option.some.injEq] at h; rw [← h]; exact key _ _
      | default => cases h
      | noContent => simp only [Option.some.injEq] at h; rw [← h]; exact key' _
      | file content =>
        simp only [Option.ite_none_left_eq_some, Option.some.injEq] at h
        rw [← h.2]; exact key _ _
      | body bs =>
        cases bs with
        | none => cases h
        | some bs =>
          simp only [Option.ite_none_left_eq_some, Option.some.injEq] at h
          rw [← h.2]; exact key _ _

theorem send_begins {c : Cfg} {st : Option Nat} {h : HList} {body : Option Bytes} {buf : SendBuf} (hs : PyBridge.send c st h body = some buf) : Begins (sentStatus c st h body) buf.bytes := by
  unfold PyBridge.send at hs
  unfold sentStatus
  cases hp : PyBridge.prepareReply c (st.getD 0) h body with
  | none => rw [hp] at hs; cases hs
  | some p =>
    rw [hp] at hs
    cases p with
    | tooLarge =>
      simp only [if_true]
      simp only at hs
      split at hs
      · cases hs
      · split at hs
        · cases hs
        · exact serialize_begins hs
    | ready b l h' =>
      rw [if_neg (by simp)]
      exact serialize_begins hs

theorem respond_begins {c : Cfg} {head : Bool} {r : Ret} {buf : SendBuf} (hs : PyBridge.respond c head r = some buf) : Begins (resultStatus c head r) buf.bytes := by
  unfold PyBridge.respond at hs
  unfold resultStatus
  simp only at hs ⊢
  cases hc : PyBridge.convert false head c.maxLen r with
  | undefined => rw [hc] at hs; cases hs
  | reply st h body =>
    rw [hc] at hs
    simp only at hs ⊢
    cases hq : PyBridge.complete c.date h with
    | none => rw [hq] at hs; cases hs
    | some h' => rw [hq] at hs; exact send_begins hs
  | tooLarge =>
    rw [hc] at hs
    simp only at hs ⊢
    cases hv : PyBridge.serverHeader c.date b!"close" with
    | none => rw [hv] at hs; cases hs
    | some h =>
      rw [hv] at hs
      simp only at hs ⊢
      cases hq : PyBridge.complete c.date h with
      | none => rw [hq] at hs; cases hs
      | some h' => rw [hq] at hs; exact send_begins hs
  | error =>
    rw [hc] at hs
    simp only at hs ⊢
    cases hv : PyBridge.serverHeader c.date b!"keep-alive" with
    | none => rw [hv] at hs; cases hs
    | some h =>
      rw [hv] at hs
      simp only at hs ⊢
      cases hq : PyBridge.complete c.date h with
      | none => rw [hq] at hs; cases hs
      | some h' => rw [hq] at hs; exact send_begins hs

theorem own_begins {s : Site} {n : Nat} {conn bs : Bytes} (h : Refuse.own s n conn = some bs) : Begins (ownStatus s n conn) bs := by
  unfold Refuse.own at h
  unfold ownStatus
  cases hv : PyBridge.serverHeader s.app.cfg0.date conn with
  | none => rw [hv] at h; cases h
  | some hd =>
    rw [hv] at h
    simp only [Option.map_eq_some_iff] at h
    obtain ⟨buf, h1, rfl⟩ := h
    exact send_begins h1

theorem file_begins {c : Cfg} {f : Site.Served} {now : Bytes} {buf : SendBuf} (h : Site.sendFile c f now = some buf) (mem : Nat → Nat) : Begins 200 (Site.onWire mem buf) := by
  unfold Site.sendFile at h
  split at h
  · cases h
  · split at h
    · cases h
    · obtain ⟨rest, hr⟩ := serialize_begins h
      exact ⟨rest ++ (List.range (buf.sendLen - buf.bytes.length)).map mem, by unfold Site.onWire; rw [hr]; simp⟩

theorem app_begins {s : Site} {r : Reply} {buf : SendBuf} {b : Bool} {q : Reply} (h : s.full.bytes r = some buf) : Begins (status s q (r, b)) buf.bytes := by
  cases r with
  | file => cases h
  | handler i l hd body =>
    unfold Trip.App.bytes at h
    unfold status
    simp only at h ⊢
    cases hr : s.full.result l hd body with
    | none => rw [hr] at h; cases h
    | some ret => rw [hr] at h; exact respond_begins h
  | status n =>
    unfold Trip.App.bytes at h
    simp only at h
    have key : (n = 404 ∨ n = 406) → Begins (ownStatus s n b!"keep-alive") buf.bytes := by
      intro hn
      rw [if_pos hn] at h
      apply own_begins
      unfold Refuse.own
      have e : s.full.cfg0 = s.app.cfg0 := rfl
      rw [e] at h
      cases hv : PyBridge.serverHeader s.app.cfg0.date b!"keep-alive" with
      | none => rw [hv] at h; cases h
      | some hd => rw [hv] at h; simp only at h; simp only [h, Option.map_some]
    by_cases hn : n = 404 ∨ n = 406
    · rcases hn with rfl | rfl
      · exact key (Or.inl rfl)
      · exact key (Or.inr rfl)
    · rw [if_neg hn] at h; cases h

/-- **C197**, the status.  Whatever response is written to a client, by the application, of a file or of the server, its status line shows number and phrase of the status that
is recorded. -/
theorem status_begins {s : Site} {now : Bytes → Bytes} {mem : Nat → Nat} {q r : Reply} {b : Bool} {bs : Bytes} (h : Refuse.bytes s now mem q (r, b) = some bs) :
    Begins (status s q (r, b)) bs := by
  unfold Refuse.bytes at h
  split at h
  · next e => cases e; exact own_begins h
  · next e => cases e; exact own_begins h
  · next e => cases e; exact own_begins h
  · next r' b' n1 n2 n3 e =>
    cases e
    have rest : (s.full.bytes r).map (·.bytes) = some bs → Begins (status s q (r, b)) bs := by
      intro h
      simp only [Option.map_eq_some_iff] at h
      obtain ⟨buf, h1, rfl⟩ := h
      exact app_begins h1
    unfold Site.bytes at h
    cases q with
    | status _ => exact rest h
    | file => exact rest h
    | handler i l hd body =>
      simp only at h
      split at h
      · split at h
        · cases h
        · simp only [Option.map_eq_some_iff] at h
          obtain ⟨buf, h1, rfl⟩ := h
          exact file_begins h1 mem
      · unfold status
        simp only
        cases hv : Site.notAllowedHeader s.app.cfg0.date s.app.table l.uri with
        | none => rw [hv] at h; cases h
        | some hd =>
          rw [hv] at h
          simp only [Option.map_eq_some_iff] at h
          obtain ⟨buf, h1, rfl⟩ := h
          exact send_begins h1
      · exact rest h

theorem read_status {n : Nat} {bs : Bytes} {o : Seen} (hb : Begins n bs) (hr : Readable bs o) : o.1 = b!"HTTP/1.1 " ++ phrase n := by
  obtain ⟨rest, rfl⟩ := hb
  have h := hr.2 []
  have hp := (phrase_plain n).1
  have ht := Response.takeLine_append (b!"HTTP/1.1 " ++ phrase n) (rest ++ []) (by
    intro hm
    rcases List.mem_append.1 hm with hm | hm
    · revert hm; decide
    · exact hp hm)
  unfold Trip.readOne Response.readResponse at h
  have ea : b!"HTTP/1.1 " ++ phrase n ++ 13 :: 10 :: rest ++ [] = b!"HTTP/1.1 " ++ phrase n ++ 13 :: 10 :: (rest ++ []) := by simp
  rw [ea, ht] at h
  simp only at h
  split at h
  · cases h
  · next line fs r1 hx =>
    simp only [Option.map_eq_some_iff] at hx
    obtain ⟨p, _, e⟩ := hx
    split at h
    · cases h
    · split at h
      · cases h
      · simp only [Option.some.injEq, Prod.mk.injEq] at h
        rw [← h.1]
        simp only [Prod.mk.injEq] at e
        exact e.1.symm

/-! ## Entries -/

theorem entry_record {c : Ends} {line : Bytes} (hf : Fits c line) (raw : Option Bytes) (hl : Log.line1 raw = line) (stamp : Bytes) {n : Nat} {bs : Bytes} {o : Seen} (hb : Begins n bs)
    (hr : Readable bs o) : entry c stamp raw n = record c stamp line o := by
  have ho := read_status hb hr
  have hd : o.1.drop (b!"HTTP/1.1 ").length = phrase n := by rw [ho, List.drop_left]
  have hlen := (phrase_plain n).2.2
  have ht : Log.accessText ⟨c.host, c.port, c.myHost, c.myPort, n⟩ line =
      c.host ++ b!":" ++ c.port ++ b!" (" ++ line ++ b!") --> " ++ c.myHost ++ b!":" ++ c.myPort ++ b!" (" ++ phrase n ++ b!")\n" := by
    unfold Log.accessText phrase
    cases codeOfType n <;> cases explain n <;> simp only [List.append_assoc]
  unfold entry record Log.stored
  rw [hl, ht, hd, if_neg]
  · simp only [List.append_assoc]
  · unfold Fits at hf
    simp only [List.length_append, List.length_cons, List.length_nil]
    omega

theorem record_line {c : Ends} (hc : c.Ok) {stamp line : Bytes} (hs : Tidy stamp) (hl : Tidy line) {n : Nat} {bs : Bytes} {o : Seen} (hb : Begins n bs) (hr : Readable bs o) :
    Log.IsLine (record c stamp line o) := by
  obtain ⟨h1, h2, h3, h4⟩ := hc
  have hd : o.1.drop (b!"HTTP/1.1 ").length = phrase n := by rw [read_status hb hr, List.drop_left]
  have hp := (phrase_plain n).2.1
  have e : (b!")\n" : Bytes) = b!")" ++ [10] := by decide
  have key : Log.Clean (stamp ++ c.host ++ b!":" ++ c.port ++ b!" (" ++ line ++ b!") --> " ++ c.myHost ++ b!":" ++ c.myPort ++ b!" (" ++ phrase n ++ b!")") :=
    Log.Clean.append (Log.Clean.append (Log.Clean.append (Log.Clean.append (Log.Clean.append (Log.Clean.append (Log.Clean.append (Log.Clean.append (Log.Clean.append
      (Log.Clean.append (Log.Clean.append (Log.Clean.append hs h1) (by decide)) h2) (by decide)) hl) (by decide)) h3) (by decide)) h4) (by decide)) hp) (by decide)
  refine ⟨_, ?_, key.1, key.2⟩
  unfold record
  rw [hd, e]
  simp only [List.append_assoc]

/-! ## Request lines are one line -/

theorem chars_tidy {ok : Nat → Prop} (hok : ∀ c, ok c → 33 ≤ c) {t : Bytes} (h : Req.Chars ok t) : ∀ c ∈ t, 32 ≤ c := by
  induction h with
  | nil => simp
  | byte c s h _ ih =>
    intro x hx
    rcases List.mem_cons.1 hx with rfl | hx
    · have := hok _ h; omega
    · exact ih x hx
  | pct h1 h2 s a b _ ih =>
    intro x hx
    simp only [List.mem_cons] at hx
    unfold Req.RfcHex at a b
    rcases hx with rfl | rfl | rfl | hx
    · omega
    · omega
    · omega
    · exact ih x hx

theorem pchar_ge {c : Nat} (h : Req.RfcPchar c) : 33 ≤ c := by
  unfold Req.RfcPchar Req.RfcUnreserved Req.RfcSubDelims at h
  simp only [List.mem_cons, List.not_mem_nil, or_false] at h
  omega

theorem accepted_visible {l : Bytes} {r : Req.ReqLine} (h : Req.Accepted l r) : ∀ c ∈ l, 32 ≤ c := by
  obtain ⟨k, j, n, t, ht, rfl⟩ := h
  have hpath : ∀ c, Req.PathByte c → 33 ≤ c := by
    rintro c (h | h)
    · exact pchar_ge h
    · simp at h; omega
  have hquery : ∀ c, Req.QueryByte c → 33 ≤ c := by
    rintro c (h | h)
    · exact pchar_ge h
    · simp at h; omega
  have huser : ∀ c, Req.UserByte c → 33 ≤ c := by
    intro c h
    unfold Req.UserByte Req.RfcUnreserved Req.RfcSubDelims at h
    simp only [List.mem_cons, List.not_mem_nil, or_false] at h
    omega
  have htv : ∀ c ∈ t, 32 ≤ c := by
    generalize r.method = m at ht
    generalize r.uri = u at ht
    generalize r.query = q at ht
    cases ht with
    | origin _ _ qt _ hm hp hq =>
      intro c hc
      rcases List.mem_append.1 hc with hc | hc
      · exact chars_tidy hpath hp.1 c hc
      · cases hq with
        | absent => simp at hc
        | lone => simp at hc; omega
        | plain d q hd hch =>
          rcases List.mem_cons.1 hc with rfl | hc
          · omega
          · exact chars_tidy hquery hch c hc
        | cut a b q ha hb hch =>
          exact chars_tidy hquery (.byte 63 _ (Or.inr (by decide)) (.pct _ _ _ ha hb hch)) c hc
    | authority us hs port h1 h2 h3 h4 h5 h6 =>
      intro c hc
      simp only [List.mem_append] at hc
      rcases hc with (((hc | hc) | hc) | hc) | hc
      · exact chars_tidy huser h2 c hc
      · simp at hc; omega
      · have := h4 c hc; unfold Req.AlNum at this; omega
      · simp at hc; omega
      · have := h6 c hc; omega
  have hmv : ∀ m : Req.Method, ∀ c ∈ Req.methodName m, 32 ≤ c := by intro m; cases m <;> decide
  have hvv : ∀ v : Req.Version, ∀ c ∈ Req.versionNumber v, 32 ≤ c := by intro m; cases m <;> decide
  intro c hc
  simp only [List.mem_append] at hc
  rcases hc with (((((hc | hc) | hc) | hc) | hc) | hc) | hc
  · exact hmv _ c hc
  · have := List.eq_of_mem_replicate hc; omega
  · exact htv c hc
  · have := List.eq_of_mem_replicate hc; omega
  · rw [List.mem_flatten] at hc
    obtain ⟨x, hx, hc⟩ := hc
    rw [List.eq_of_mem_replicate hx] at hc
    exact (by decide : ∀ c ∈ (b!"HTTP" : Bytes), 32 ≤ c) c hc
  · exact (by decide : ∀ c ∈ (b!"/" : Bytes), 32 ≤ c) c hc
  · exact hvv _ c hc

theorem good_line {m : Msg} (hg : m.Good) : Tidy m.lineText ∧ Log.line1 (some (m.lineText ++ b!"\r\n")) = m.lineText := by
  have hv := accepted_visible hg.line
  refine ⟨⟨fun h => by have := hv _ h; omega, fun h => by have := hv _ h; omega⟩, ?_⟩
  exact Log.C106_request_line_shown m.lineText [] fun c hc => by
    have := hv c hc
    omega

/-! ## Connections -/

theorem logAll_one (s : Site) (mem : Nat → Nat) (c : Ends) {q r : Reply} {b : Bool} {raw : Option Bytes} {l : List (Reply × Reply × Bool × Option Bytes)} {now : Bytes → Bytes} {bs : Bytes}
    (h : Refuse.bytes s now mem q (r, b) = some bs) (blocked room : Nat) (hl : bs.length ≤ room) (ns : List (Bytes → Bytes)) (ss : List (List Send.Sys)) (stamp : Bytes) (stamps : List Bytes) :
    logAll s mem c ((q, r, b, raw) :: l) (now :: ns) ((List.replicate blocked .block ++ [.sent room]) :: ss) (stamp :: stamps) =
      entry c stamp raw (status s q (r, b)) ++ logAll s mem c l ns ss stamps := by
  have hw := Send.C16_h1_exactly_once_partial bs blocked room hl []
  simp only [logAll, List.headD_cons, h, hw, List.tail_cons]

theorem step_msg {t : Step} {s : Site} {mem : Nat → Nat} (ht : t.Proper s mem) : ∃ m, m.Good ∧ Keep.Arrives m t.pieces ∧ lineOf t = m.lineText := by
  cases t with
  | turn t => exact ⟨_, ht.good, ht.arrives, rfl⟩
  | garbled m rs _ _ => exact ⟨m, ht.1, ht.2.2.2.2.1, rfl⟩

/-- A response after which the connection goes on, and its entry. -/
theorem step_logged (s : Site) (hr : ∀ x ∈ s.app.routes, WrittenPath x.1) (mem : Nat → Nat) (hc : CfgOk s.app.cfg0) (hd : s.app.cfg0.dflt 400 = none)
    (c : Ends) (t : Step) (ht : t.Proper (negotiating s) mem) :
    ∃ bs o n raw, Readable bs o ∧ t.Shown (negotiating s) o ∧ Begins n bs ∧ Log.line1 raw = lineOf t ∧ Tidy (lineOf t) ∧ ∀ rounds ns ss stamp stamps,
      Refuse.received (negotiating s) mem (t.pieces :: rounds) (t.now :: ns) (t.writes :: ss) = bs ++ Refuse.received (negotiating s) mem rounds ns ss ∧
      logged (negotiating s) mem c (t.pieces :: rounds) (t.now :: ns) (t.writes :: ss) (stamp :: stamps) =
        entry c stamp raw n ++ logged (negotiating s) mem c rounds ns ss stamps := by
  obtain ⟨q, r, b, b', bs, o, g1, g2, g3, ⟨blocked, room, g4, g5⟩, g6, g7, g8⟩ := Refuse.step_round s hr mem hc hd t ht
  obtain ⟨m, m1, ⟨m2, m3⟩, m4⟩ := step_msg ht
  obtain ⟨l1, l2⟩ := good_line m1
  have hk := round_kept _ _ g6 g8 m2 (line := m.lineText) (rest := (m.headers.map (· ++ b!"\r\n")).flatten ++ b!"\r\n" ++ m.body)
    (by rw [m3]; unfold ReqEvent.Msg.text; simp only [List.append_assoc]) m1.cr
  refine ⟨bs, o, _, some (m.lineText ++ b!"\r\n"), g1, g2, status_begins g3, by rw [m4]; exact l2, by rw [m4]; exact l1, fun rounds ns ss stamp stamps => ?_⟩
  rw [g4]
  refine ⟨(Refuse.kept_read _ mem g3 g5 g6 g7 rounds ns ss).1, ?_⟩
  unfold logged
  rw [Refuse.session, session, hk, g7]
  simp only [List.singleton_append, List.map_cons, List.zip_cons_cons]
  exact logAll_one _ mem c g3 _ _ g5 ns ss stamp stamps

/-- The lines for these requests and responses. -/
def records (c : Ends) (ts : List (Step × Bytes)) (os : List Seen) : List Bytes := List.zipWith (fun x o => record c x.2 (lineOf x.1) o) ts os

theorem steps_logged (s : Site) (hr : ∀ x ∈ s.app.routes, WrittenPath x.1) (mem : Nat → Nat) (hc : CfgOk s.app.cfg0) (hd : s.app.cfg0.dflt 400 = none)
    (c : Ends) (hco : c.Ok) (ts : List (Step × Bytes)) (h : ∀ x ∈ ts, x.1.Proper (negotiating s) mem ∧ Tidy x.2 ∧ Fits c (lineOf x.1)) :
    ∃ bufs os, Each Readable bufs os ∧ Each (Step.Shown (negotiating s)) (ts.map (·.1)) os ∧ (∀ o ∈ os, b!"HTTP/1.1 " <+: o.1) ∧ (∀ l ∈ records c ts os, Log.IsLine l) ∧ ∀ rounds ns ss stamps,
      Refuse.received (negotiating s) mem (ts.map (·.1.pieces) ++ rounds) (ts.map (·.1.now) ++ ns) (ts.map (·.1.writes) ++ ss) =
        bufs.flatten ++ Refuse.received (negotiating s) mem rounds ns ss ∧
      logged (negotiating s) mem c (ts.map (·.1.pieces) ++ rounds) (ts.map (·.1.now) ++ ns) (ts.map (·.1.writes) ++ ss) (ts.map (·.2) ++ stamps) =
        (records c ts os).flatten ++ logged (negotiating s) mem c rounds ns ss stamps := by
  induction ts with
  | nil => exact ⟨[], [], .nil, .nil, by simp, by simp [records], fun _ _ _ _ => ⟨rfl, rfl⟩⟩
  | cons t ts ih =>
    obtain ⟨bufs, os, i1, i2, i3, i4, i5⟩ := ih fun x hx => h x (by simp [hx])
    obtain ⟨k1, k2, k3⟩ := h t (by simp)
    obtain ⟨bs, o, n, raw, h1, h2, h3, h4, h5, h6⟩ := step_logged s hr mem hc hd c t.1 k1
    have hen := entry_record k3 raw h4 t.2 h3 h1
    refine ⟨bs :: bufs, o :: os, .cons h1 i1, .cons h2 i2, ?_, ?_, fun rounds ns ss stamps => ?_⟩
    · intro x hx
      rcases List.mem_cons.1 hx with rfl | hx
      · exact ⟨phrase n, (read_status h3 h1).symm⟩
      · exact i3 x hx
    · intro l hl
      unfold records at hl
      rw [List.zipWith_cons_cons] at hl
      rcases List.mem_cons.1 hl with rfl | hl
      · exact record_line hco k2 h5 h3 h1
      · exact i4 l hl
    · obtain ⟨j1, j2⟩ := h6 (ts.map (·.1.pieces) ++ rounds) (ts.map (·.1.now) ++ ns) (ts.map (·.1.writes) ++ ss) t.2 (ts.map (·.2) ++ stamps)
      obtain ⟨l1, l2⟩ := i5 rounds ns ss stamps
      simp only [List.map_cons, List.cons_append]
      rw [j1, l1, j2, l2, hen]
      unfold records
      rw [List.zipWith_cons_cons]
      simp only [List.flatten_cons, List.append_assoc]
      exact ⟨trivial, trivial⟩

/-- **C197** *(partial)*, connections that go on.  A client sends any number of requests on a connection, each in any pieces: for functions of the application, for files, for what is not
there, with wishes that cannot be met, with garbled fields.  The connection then has added to the access log exactly one line for each response the client has read, in their order, and
line by line the log shows the addresses, the request line the client sent and the status the client read.  Missing: entries of 297 bytes and more (C106). -/
theorem C197_log_agrees_partial (s : Site) (hr : ∀ x ∈ s.app.routes, WrittenPath x.1) (mem : Nat → Nat) (hc : CfgOk s.app.cfg0) (hd : s.app.cfg0.dflt 400 = none)
    (c : Ends) (hco : c.Ok) (ts : List (Step × Bytes)) (h : ∀ x ∈ ts, x.1.Proper (negotiating s) mem ∧ Tidy x.2 ∧ Fits c (lineOf x.1)) :
    ∃ os, client (Refuse.received (negotiating s) mem (ts.map (·.1.pieces)) (ts.map (·.1.now)) (ts.map (·.1.writes))) = some os ∧
      Each (Step.Shown (negotiating s)) (ts.map (·.1)) os ∧ (∀ o ∈ os, b!"HTTP/1.1 " <+: o.1) ∧
      Log.readLines (logged (negotiating s) mem c (ts.map (·.1.pieces)) (ts.map (·.1.now)) (ts.map (·.1.writes)) (ts.map (·.2))) =
        List.zipWith (fun x o => record c x.2 (lineOf x.1) o) ts os := by
  obtain ⟨bufs, os, h1, h2, h3, h4, h5⟩ := steps_logged s hr mem hc hd c hco ts h
  obtain ⟨k1, k2⟩ := h5 [] [] [] []
  simp only [List.append_nil] at k1 k2
  refine ⟨os, ?_, h2, h3, ?_⟩
  · rw [k1]
    show client (bufs.flatten ++ []) = _
    rw [List.append_nil]
    exact Trip.client_all bufs os h1
  · rw [k2]
    show Log.readLines ((records c ts os).flatten ++ []) = _
    rw [List.append_nil]
    exact Log.readLines_flatten _ h4

/-- The line kept for what ends a connection. -/
theorem offence_logged (s : Site) (mem : Nat → Nat) (hc : CfgOk s.app.cfg0) (hd : s.app.cfg0.dflt 400 = none) (hd' : s.app.cfg0.dflt 413 = none) (c : Ends) (x : Offence)
    (hx : x.Proper (negotiating s)) (rs : List Rcv) (hp : Plain rs) (ht : dataOf rs = x.text) (blocked r : Nat) (hrm : Refuse.room s ≤ r) (rounds : List (List Rcv))
    (now : Bytes → Bytes) (ns : List (Bytes → Bytes)) (ss : List (List Send.Sys)) (stamp : Bytes) (stamps : List Bytes) :
    ∃ bs n raw, Readable bs (Refuse.short s x.status b!"close") ∧ Begins n bs ∧ Log.line1 raw = lastLine x ∧ Tidy (lastLine x) ∧
      logged (negotiating s) mem c (rs :: rounds) (now :: ns) ((List.replicate blocked .block ++ [.sent r]) :: ss) (stamp :: stamps) = entry c stamp raw n := by
  obtain ⟨q, b, b', n, h1, h2, h3, h4, h5⟩ := Refuse.offence_round s mem hc hd hd' x hx rs hp ht
  obtain ⟨bs, e1, e2, e3⟩ := h5 now
  obtain ⟨p1, p2⟩ := round_lines (negotiating s).full.env (negotiating s).full.keeps rs.length St.init none rs
  rw [h1] at p1 p2
  cases hl : round (negotiating s).full.env (negotiating s).full.keeps rs.length St.init none rs with
  | mk out rest =>
    obtain ⟨fin, kept⟩ := rest
    rw [hl] at p1 p2
    simp only at p1 p2
    cases out with
    | nil => cases p1
    | cons y l =>
      simp only [List.map_cons, List.cons.injEq, Prod.mk.injEq, List.map_eq_nil_iff] at p1
      obtain ⟨⟨y1, y2⟩, rfl⟩ := p1
      obtain ⟨yr, yb, raw⟩ := y
      simp only at y1 y2
      subst y1 y2 p2
      refine ⟨bs, status (negotiating s) q (.status n, yb), raw, e3, status_begins e1, ?_, ?_, ?_⟩
      · cases x with
        | line z more =>
          have := refused_none (negotiating s).full.env (negotiating s).full.keeps rs.length St.init none rs (.status n, yb, raw) (by rw [hl]; simp) (h3 ⟨z, more, rfl⟩)
          simp only at this
          rw [this]; rfl
        | long m =>
          have hn := h4 ⟨m, rfl⟩
          have hb : yb = false := by
            cases hb : yb with
            | false => rfl
            | true =>
              exfalso
              have := refused_status (negotiating s).full.env (negotiating s).full.keeps rs.length St.init rs (.status n, yb) (by rw [h1]; simp) hb
              rw [hn] at this
              cases this
          have hcr := hx.1.cr
          have hT : ReqEvent.search b!"\r\n" b!"\r\n" 0 (dataOf rs) = some (m.lineText.length + 2) := by
            rw [ht]
            have := ReqEvent.search_crlf m.lineText ((m.headers.map (· ++ b!"\r\n")).flatten ++ b!"\r\n" ++ m.body) hcr 0
            unfold Offence.text ReqEvent.Msg.text
            simpa using this
          have := first_line hT (negotiating s).full.env (negotiating s).full.keeps rs.length St.init none rs (.status n, yb, raw) [] (Or.inl ⟨rfl, rfl, rfl, hp, rfl, rfl⟩)
            (by rw [hl]) hb
          simp only at this
          rw [this, ht]
          have e : (Offence.text (.long m)).take (m.lineText.length + 2) = m.lineText ++ b!"\r\n" := by
            unfold Offence.text ReqEvent.Msg.text
            simp only [List.append_assoc]
            rw [← List.append_assoc, List.take_left' (by simp)]
          rw [e]
          exact (good_line hx.1).2
      · cases x with
        | line z more => exact ⟨by simp [lastLine], by simp [lastLine]⟩
        | long m => exact (good_line hx.1).1
      · unfold logged
        rw [Refuse.session, session, hl, h2]
        simp only [List.map_cons, List.map_nil, List.zip_cons_cons, List.zip_nil_right]
        rw [logAll_one _ mem c e1 _ _ (Nat.le_trans e2 hrm)]
        simp [logAll]

/-- **C197** *(partial)*, connections that end.  Behind such requests the client sends something that is no request line, or too much content: the log also has exactly one line
for the response the client then reads, 400 or 413.  A line that is no request line is not shown; whatever the client sends behind it adds nothing to the log. -/
theorem C197_last_response_partial (s : Site) (hr : ∀ x ∈ s.app.routes, WrittenPath x.1) (mem : Nat → Nat) (hc : CfgOk s.app.cfg0) (hd : s.app.cfg0.dflt 400 = none)
    (hd' : s.app.cfg0.dflt 413 = none) (c : Ends) (hco : c.Ok) (ts : List (Step × Bytes)) (h : ∀ x ∈ ts, x.1.Proper (negotiating s) mem ∧ Tidy x.2 ∧ Fits c (lineOf x.1))
    (x : Offence) (hx : x.Proper (negotiating s)) (hxf : Fits c (lastLine x)) (rs : List Rcv) (hp : Plain rs) (ht : dataOf rs = x.text) (blocked r : Nat) (hrm : Refuse.room s ≤ r)
    (rounds : List (List Rcv)) (now : Bytes → Bytes) (ns : List (Bytes → Bytes)) (ss : List (List Send.Sys)) (stamp : Bytes) (hst : Tidy stamp) (stamps : List Bytes) :
    ∃ os, client (Refuse.received (negotiating s) mem (ts.map (·.1.pieces) ++ rs :: rounds) (ts.map (·.1.now) ++ now :: ns)
        (ts.map (·.1.writes) ++ (List.replicate blocked .block ++ [.sent r]) :: ss)) = some (os ++ [Refuse.short s x.status b!"close"]) ∧
      Each (Step.Shown (negotiating s)) (ts.map (·.1)) os ∧ (∀ o ∈ os, b!"HTTP/1.1 " <+: o.1) ∧
      Log.readLines (logged (negotiating s) mem c (ts.map (·.1.pieces) ++ rs :: rounds) (ts.map (·.1.now) ++ now :: ns)
        (ts.map (·.1.writes) ++ (List.replicate blocked .block ++ [.sent r]) :: ss) (ts.map (·.2) ++ stamp :: stamps)) =
        List.zipWith (fun x o => record c x.2 (lineOf x.1) o) ts os ++ [record c stamp (lastLine x) (Refuse.short s x.status b!"close")] := by
  obtain ⟨bufs, os, h1, h2, h3, h4, h5⟩ := steps_logged s hr mem hc hd c hco ts h
  obtain ⟨k1, k2⟩ := h5 (rs :: rounds) (now :: ns) ((List.replicate blocked .block ++ [.sent r]) :: ss) (stamp :: stamps)
  obtain ⟨o1, _⟩ := Refuse.offence_read s mem hc hd hd' x hx rs hp ht blocked r hrm rounds (now :: ns) ss
  obtain ⟨bs, n, raw, p1, p2, p3, p4, p5⟩ := offence_logged s mem hc hd hd' c x hx rs hp ht blocked r hrm rounds now ns ss stamp stamps
  refine ⟨os, ?_, h2, h3, ?_⟩
  · rw [k1]
    have := Trip.client_all _ _ (Refuse.each_snoc h1 o1)
    rw [List.flatten_append, List.flatten_singleton] at this
    exact this
  · rw [k2, p5, entry_record hxf raw p3 stamp p2 p1]
    have := Log.readLines_flatten (records c ts os ++ [record c stamp (lastLine x) (Refuse.short s x.status b!"close")]) (by
      intro l hl
      rcases List.mem_append.1 hl with hl | hl
      · exact h4 l hl
      · rw [List.mem_singleton.1 hl]
        exact record_line hco hst p4 p2 p1)
    rw [List.flatten_append, List.flatten_singleton] at this
    exact this

theorem h1Run_fail {data : Bytes} (h : data ≠ []) (k : Nat) (ss : List Send.Sys) : Send.h1Run data 0 (List.replicate k .block ++ .fail :: ss) = ([], false) := by
  have hl : ¬ data.length ≤ 0 := by
    have := List.length_pos_iff.2 h
    omega
  induction k with
  | zero => simp only [List.replicate_zero, List.nil_append, Send.h1Run, if_neg hl]
  | succ k ih => simp only [List.replicate_succ, List.cons_append, Send.h1Run, if_neg hl, ih]

/-- **C197**, clients that have gone.  When a response cannot be written (its client has gone), the log does not claim it: it has the lines for the responses before it and no other,
whatever comes later on that connection. -/
theorem C197_unwritten_not_logged (s : Site) (hr : ∀ x ∈ s.app.routes, WrittenPath x.1) (mem : Nat → Nat) (hc : CfgOk s.app.cfg0) (hd : s.app.cfg0.dflt 400 = none)
    (c : Ends) (hco : c.Ok) (ts : List (Step × Bytes)) (h : ∀ x ∈ ts, x.1.Proper (negotiating s) mem ∧ Tidy x.2 ∧ Fits c (lineOf x.1)) (t : Step) (ht : t.Proper (negotiating s) mem)
    (blocked : Nat) (writes : List Send.Sys) (rounds : List (List Rcv)) (ns : List (Bytes → Bytes)) (ss : List (List Send.Sys)) (stamps : List Bytes) :
    ∃ os, client (Refuse.received (negotiating s) mem (ts.map (·.1.pieces) ++ t.pieces :: rounds) (ts.map (·.1.now) ++ t.now :: ns)
        (ts.map (·.1.writes) ++ (List.replicate blocked .block ++ .fail :: writes) :: ss)) = some os ∧
      Each (Step.Shown (negotiating s)) (ts.map (·.1)) os ∧
      Log.readLines (logged (negotiating s) mem c (ts.map (·.1.pieces) ++ t.pieces :: rounds) (ts.map (·.1.now) ++ t.now :: ns)
        (ts.map (·.1.writes) ++ (List.replicate blocked .block ++ .fail :: writes) :: ss) (ts.map (·.2) ++ stamps)) =
        List.zipWith (fun x o => record c x.2 (lineOf x.1) o) ts os := by
  obtain ⟨bufs, os, h1, h2, h3, h4, h5⟩ := steps_logged s hr mem hc hd c hco ts h
  obtain ⟨k1, k2⟩ := h5 (t.pieces :: rounds) (t.now :: ns) ((List.replicate blocked .block ++ .fail :: writes) :: ss) stamps
  obtain ⟨q, r, b, b', bs, o, g1, g2, g3, _, g6, g7, g8⟩ := Refuse.step_round s hr mem hc hd t ht
  obtain ⟨m, m1, ⟨m2, m3⟩, m4⟩ := step_msg ht
  have hk := round_kept _ _ g6 g8 m2 (line := m.lineText) (rest := (m.headers.map (· ++ b!"\r\n")).flatten ++ b!"\r\n" ++ m.body)
    (by rw [m3]; unfold ReqEvent.Msg.text; simp only [List.append_assoc]) m1.cr
  have hne : bs ≠ [] := by
    rintro rfl
    have := status_begins g3
    simp [Begins] at this
  have hw := h1Run_fail hne blocked writes
  refine ⟨os, ?_, h2, ?_⟩
  · rw [k1]
    unfold Refuse.received
    rw [Refuse.session, Refuse.session, g6, g7]
    simp only [List.singleton_append, List.map_cons, List.zip_cons_cons, Refuse.writeAll, List.headD_cons, g3, hw, List.append_nil]
    exact Trip.client_all bufs os h1
  · rw [k2]
    unfold logged
    rw [Refuse.session, session, hk, g7]
    simp only [List.singleton_append, List.map_cons, List.zip_cons_cons, logAll, List.headD_cons, g3, hw, List.append_nil]
    exact Log.readLines_flatten _ h4

/-! ## A connection -/

def sampleEnds : Ends := ⟨b!"192.0.2.7", b!"40000", b!"192.0.2.1", b!"80"⟩

def stamped : List (Step × Bytes) := Refuse.sampleSteps.map fun t => (t, b!"Mon Nov 16 18:00:00 2026 (12): ")

example : (∀ x ∈ stamped, x.1.Proper (negotiating Refuse.sampleSite) Site.sampleMem ∧ Tidy x.2 ∧ Fits sampleEnds (lineOf x.1)) ∧ sampleEnds.Ok ∧
    Fits sampleEnds (lastLine (.line b!"BREW /pot-1 HTCPCP/1.0" [])) ∧ Fits sampleEnds (lastLine (.long ReqEvent.sample)) := by
  refine ⟨?_, by unfold Ends.Ok Tidy; decide, by unfold Fits; decide, by unfold Fits; decide⟩
  intro x hx
  simp only [stamped, List.mem_map] at hx
  obtain ⟨t, ht, rfl⟩ := hx
  refine ⟨Refuse.sampleSteps_proper t ht, by simp [Tidy], ?_⟩
  simp only [Refuse.sampleSteps, List.mem_cons, List.not_mem_nil, or_false] at ht
  rcases ht with rfl | rfl | rfl <;> (unfold Fits; decide)

/-- What is logged for a connection: a garbled field, then no request line. -/
example : logged (negotiating Refuse.sampleSite) Site.sampleMem sampleEnds
      [[.data Refuse.fineMsg.text false], [.data b!"BREW /pot-1 HTCPC" false, .block, .data b!"P/1.0\r\nHost" false], [.data Refuse.fineMsg.text false]]
      [fun _ => [], fun _ => [], fun _ => []] [[.sent 1000], [.block, .sent 1000], [.sent 1000]] [b!"A ", b!"B ", b!"C "] =
    b!"A 192.0.2.7:40000 (GET /f HTTP/1.1) --> 192.0.2.1:80 (400 Bad Request)\nB 192.0.2.7:40000 (?) --> 192.0.2.1:80 (400 Bad Request)\n" := by
  decide +kernel

end Fly.Access
