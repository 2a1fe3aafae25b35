import Verif.Refuse.Spec
import Verif.Refuse.Model
import Verif.Request.Props
import Verif.Nego.Props

/-! # Refusals: lemmas -/

namespace Fly.Refuse
open ReqEvent
open Header (Pairs HList view setFirst)
open Site (Site)
open Trip (Seen CfgOk Readable)
open Nego (negotiating told h1)
open PyBridge (Cfg)
open Keep (End next refusedLine)

/-! ## Rounds -/

/-- The marks change nothing else. -/
theorem round_marks (e : Env) (app : Reply → Bool) : ∀ (f : Nat) (s : St) (rs : List Rcv),
    (round e app f s rs).1.map (·.1) = (Keep.round e app f s rs).1 ∧ (round e app f s rs).2 = (Keep.round e app f s rs).2
  | 0, _, _ => ⟨rfl, rfl⟩
  | f + 1, s, rs => by
    unfold round Keep.round
    by_cases h0 : rs = []
    · rw [if_pos h0, if_pos h0]; exact ⟨rfl, rfl⟩
    · rw [if_neg h0, if_neg h0]
      cases hh : handle e s rs with
      | wait s' left => exact round_marks e app f s' left
      | close => exact ⟨rfl, rfl⟩
      | error => exact ⟨rfl, rfl⟩
      | crash => exact ⟨rfl, rfl⟩
      | reply r =>
        simp only
        cases hn : next app (refusedLine s rs) r with
        | close => exact ⟨rfl, rfl⟩
        | undef => exact ⟨rfl, rfl⟩
        | again =>
          obtain ⟨h1, h2⟩ := round_marks e app f (reuse s) (Keep.handleLeft e s rs)
          exact ⟨by rw [List.map_cons, h1], h2⟩

/-- The mark of a response after which the connection is open. -/
theorem round_again (e : Env) (app : Reply → Bool) : ∀ (f : Nat) (s s' : St) (rs : List Rcv) (r : Reply), Keep.round e app f s rs = ([r], .open s') →
    ∃ b, round e app f s rs = ([(r, b)], .open s') ∧ next app b r = .again
  | 0, _, _, _, _, h => by simp [Keep.round] at h
  | f + 1, s, s', rs, r, h => by
    unfold Keep.round at h
    unfold round
    by_cases h0 : rs = []
    · rw [if_pos h0] at h; cases h
    · rw [if_neg h0] at h ⊢
      cases hh : handle e s rs with
      | wait s1 left => rw [hh] at h; exact round_again e app f s1 s' left r h
      | close => rw [hh] at h; cases h
      | error => rw [hh] at h; cases h
      | crash => rw [hh] at h; cases h
      | reply r' =>
        rw [hh] at h
        simp only at h ⊢
        cases hn : next app (refusedLine s rs) r' with
        | close => rw [hn] at h; cases h
        | undef => rw [hn] at h; cases h
        | again =>
          rw [hn] at h
          simp only [Prod.mk.injEq, List.cons.injEq] at h ⊢
          obtain ⟨⟨rfl, h1⟩, h2⟩ := h
          obtain ⟨m1, m2⟩ := round_marks e app f (reuse s) (Keep.handleLeft e s rs)
          rw [h1] at m1
          refine ⟨refusedLine s rs, ⟨⟨⟨rfl, rfl⟩, List.map_eq_nil_iff.1 m1⟩, by rw [m2, h2]⟩, hn⟩

/-- A response that ends the connection. -/
theorem round_last (e : Env) (app : Reply → Bool) (r : Reply) (hn : ∀ b, next app b r = .close) : ∀ (f : Nat) (s : St) (rs : List Rcv), serve e f s rs = .reply r →
    ∃ b, round e app f s rs = ([(r, b)], .closed)
  | 0, _, _, h => by simp [serve] at h
  | f + 1, s, rs, h => by
    unfold serve at h
    unfold round
    by_cases h0 : rs = []
    · rw [if_pos h0] at h; cases h
    · rw [if_neg h0] at h ⊢
      cases hh : handle e s rs with
      | wait s1 left => rw [hh] at h; exact round_last e app r hn f s1 left h
      | close => rw [hh] at h; cases h
      | error => rw [hh] at h; cases h
      | crash => rw [hh] at h; cases h
      | reply r' =>
        rw [hh] at h
        simp only at h ⊢
        injection h with h
        subst h
        rw [hn]
        exact ⟨_, rfl⟩

/-! ## A request line that is none -/

theorem not_parsed {x : Bytes} (hx : 13 ∉ x) (hn : ¬ ∃ r, Req.Accepted x r) : Req.parseReqline (x ++ b!"\r\n") = .bad := by
  refine (Req.C22_accepted_iff_partial _).2 ?_
  rintro ⟨l, tl, r, h1, h2⟩
  apply hn
  refine ⟨r, ?_⟩
  have s1 := search_crlf x [] hx
  have : l = x := by
    have hl : l.length ≤ x.length := by
      apply Nat.le_of_not_lt
      intro hlt
      have e2 : (l ++ b!"\r\n" ++ tl).length = (x ++ b!"\r\n").length := by rw [h1]
      simp only [List.length_append, List.length_cons, List.length_nil] at e2
      omega
    rcases Nat.lt_or_eq_of_le hl with hlt | heq
    · exfalso
      have e2 : (x ++ b!"\r\n")[l.length]? = (l ++ b!"\r\n" ++ tl)[l.length]? := by rw [h1]
      rw [List.getElem?_append_left hlt, List.append_assoc, List.getElem?_append_right (Nat.le_refl _)] at e2
      simp only [Nat.sub_self, List.cons_append, List.getElem?_cons_zero] at e2
      exact hx (List.mem_of_getElem? e2)
    · rw [List.append_assoc] at h1
      exact (List.append_inj h1 heq.symm).1.symm
  rw [← this]; exact h2

/-- However it arrives, and whatever comes behind it. -/
theorem round_line (e : Env) (app : Reply → Bool) (x more : Bytes) (hx : 13 ∉ x) (hl : x.length + 2 < 8000) (hn : ¬ ∃ r, Req.Accepted x r) (rs : List Rcv) (hp : Plain rs)
    (hd : dataOf rs = x ++ b!"\r\n" ++ more) : round e app rs.length St.init rs = ([(.status 400, true)], .closed) := by
  have s2 : search b!"\r\n" b!"\r\n" 0 (x ++ b!"\r\n" ++ more) = some (x.length + 2) := by
    have := search_crlf x more hx 0
    simpa using this
  have s4 : ∀ k, k < x.length + 2 → has b!"\r\n\r\n" ((x ++ b!"\r\n" ++ more).take k) = false := by
    intro k hk
    cases h : has b!"\r\n\r\n" ((x ++ b!"\r\n" ++ more).take k) with
    | false => rfl
    | true =>
      obtain ⟨n, h4⟩ := Option.isSome_iff_exists.1 h
      rw [List.take_append_of_le_length (by simp; omega)] at h4
      have := search_append _ _ _ _ ((x ++ b!"\r\n").drop k) _ h4
      rw [List.take_append_drop, search4_line x [] hx] at this
      simp [search] at this
  have hlen : (x ++ b!"\r\n" ++ more).length = x.length + 2 + more.length := by simp; omega
  have hpar := not_parsed hx hn
  have main : ∀ (n k : Nat) (rs : List Rcv), rs.length ≤ n → Plain rs → k < x.length + 2 → dataOf rs = (x ++ b!"\r\n" ++ more).drop k →
      round e app n ⟨(x ++ b!"\r\n" ++ more).take k, .line, false, false, none, Header.HList.init, false, 0⟩ rs = ([(.status 400, true)], .closed) := by
    intro n
    induction n with
    | zero =>
      intro k rs hn hp hk hd
      have e1 : rs = [] := List.eq_nil_of_length_eq_zero (by omega)
      subst e1
      have h1 := congrArg List.length hd
      rw [List.length_drop, hlen] at h1
      simp [dataOf] at h1; omega
    | succ n ih =>
      intro k rs hn hp hk hd
      have hr : rs ≠ [] := by
        rintro rfl
        have h1 := congrArg List.length hd
        rw [List.length_drop, hlen] at h1
        simp [dataOf] at h1; omega
      obtain ⟨o, t, rs', er, g1, g2, g3, g4, g5⟩ := receive_plain rs ⟨(x ++ b!"\r\n" ++ more).take k, .line, false, false, none, Header.HList.init, false, 0⟩ false hp rfl
      have g4 := g4 hr
      have hd' : (x ++ b!"\r\n" ++ more).drop k = t ++ dataOf rs' := by rw [← hd, g1]
      have hd2 : dataOf rs' = (x ++ b!"\r\n" ++ more).drop (k + t.length) := by rw [← List.drop_drop, hd', List.drop_left]
      have htake := take_add _ _ _ _ hd'
      have step : (handle e ⟨(x ++ b!"\r\n" ++ more).take k, .line, false, false, none, Header.HList.init, false, 0⟩ rs = .reply (.status 400) ∧
            refusedLine ⟨(x ++ b!"\r\n" ++ more).take k, .line, false, false, none, Header.HList.init, false, 0⟩ rs = true) ∨
          (k + t.length < x.length + 2 ∧ handle e ⟨(x ++ b!"\r\n" ++ more).take k, .line, false, false, none, Header.HList.init, false, 0⟩ rs =
            .wait ⟨(x ++ b!"\r\n" ++ more).take (k + t.length), .line, false, false, none, Header.HList.init, false, 0⟩ rs') := by
        rcases g5 with rfl | ⟨rfl, rfl, _⟩
        · by_cases hk2 : x.length + 2 ≤ k + t.length
          · left
            have htk : ((x ++ b!"\r\n" ++ more).take (k + t.length)).take (x.length + 2) = x ++ b!"\r\n" := by
              rw [List.take_take, Nat.min_eq_left hk2, List.take_left' (by simp)]
            unfold handle refusedLine
            simp only [Bool.false_eq_true, if_false]
            rw [er]
            simp only [got, ← htake, has_take _ _ _ _ s2, line, Bool.not_false, Bool.true_and]
            rw [search_take _ _ _ _ s2]
            rw [if_pos hk2]
            simp only
            rw [if_neg (by omega), htk, hpar]
            simp [hl]
          · right
            refine ⟨by omega, ?_⟩
            unfold handle
            simp only [Bool.false_eq_true, if_false]
            rw [er]
            simp only [got, ← htake, has_take _ _ _ _ s2, s4 _ (Nat.lt_of_not_le hk2), Bool.and_false, Bool.or_false, line]
            rw [search_take _ _ _ _ s2]
            rw [if_neg hk2]
            simp [hk2]
        · right
          unfold handle
          simp only [Bool.false_eq_true, if_false]
          rw [er]
          simp only [got_nil]
          exact ⟨by simpa using hk, by simp⟩
      rw [round, if_neg hr]
      rcases step with ⟨h, h2⟩ | ⟨h1, h2⟩
      · rw [h]
        simp only [h2]
        rfl
      · rw [h2]
        exact ih _ _ (by omega) g2 h1 hd2
  have := main rs.length 0 rs (Nat.le_refl _) hp (by omega) (by simpa using hd)
  simpa [St.init] using this

/-! ## The bytes -/

theorem own_wire (c : Cfg) (hc : CfgOk c) {n : Nat} {line : Bytes} (hline : Response.statusLine .v1_1 n = some (line ++ [13, 10])) (hcr : 13 ∉ line) (hd : c.dflt n = none)
    (conn : Bytes) (hconn : 13 ∉ conn) :
    ∃ h buf, PyBridge.serverHeader c.date conn = some h ∧ PyBridge.send c (some n) h none = some buf ∧
      buf.bytes.length = line.length + c.date.length + conn.length + 58 ∧
      Readable buf.bytes (line,
        [(b!"Server", b!"fly"), (b!"Date", c.date), (b!"Connection", conn), (b!"Content-Length", b!"0")], []) := by
  obtain ⟨h1, e1, i1, v1⟩ := PyBridge.addIfNo_ok PyBridge.inv_init (n := b!"Server") ⟨by simp, by decide⟩ b!"fly"
  have v1 : view h1 = [(b!"Server", b!"fly")] := by rw [v1]; simp [view, HList.init]
  obtain ⟨h2, e2, i2, v2⟩ := PyBridge.addIfNo_ok i1 (n := b!"Date") ⟨by simp, by decide⟩ c.date
  have v2 : view h2 = [(b!"Server", b!"fly"), (b!"Date", c.date)] := by rw [v2, v1]; simp
  obtain ⟨i3, v3⟩ := PyBridge.append_ok i2 (n := b!"Connection") ⟨by simp, by decide⟩ conn
  have hs : PyBridge.serverHeader c.date conn = some (Header.add h2 b!"Connection" conn false) := by
    unfold PyBridge.serverHeader; rw [e1]; simp only; rw [e2]
  have hco : PyBridge.codingOf c [] = none := by unfold PyBridge.codingOf; rw [if_neg (by have := hc.threshold; simp; omega)]
  have hout : PyBridge.outBody c [] = [] := by unfold PyBridge.outBody; rw [hco]
  have hfl : PyBridge.outFields c [] = [] := by unfold PyBridge.outFields; rw [hco]
  obtain ⟨b, h4, e4, hb, hnf, i4, v4⟩ := PyBridge.prepare_ok c hc.threshold none (by intro k hk; rw [show (none : Option Bytes).getD [] = [] from rfl, hco] at hk; simp at hk) i3
  simp only [Option.getD_none, hout, hfl, List.append_nil] at e4 hb v4
  have v4 : view h4 = [(b!"Server", b!"fly"), (b!"Date", c.date), (b!"Connection", conn), (b!"Content-Length", b!"0")] := by
    rw [v4, v3, v2]
    have : Response.contLenStr ([] : Bytes).length = b!"0" := by decide
    rw [this]
    simp [setFirst]
  obtain ⟨buf, e5, _, hr⟩ := PyBridge.serialize_ok (t := n) (line := line) hline hcr i4
    (by
      rw [v4]
      intro p hp
      simp only [List.mem_cons, List.not_mem_nil, or_false] at hp
      rcases hp with rfl | rfl | rfl | rfl
      · exact ⟨by decide, by decide, by decide⟩
      · exact ⟨by simp, by simp, hc.date⟩
      · exact ⟨by simp, by simp, hconn⟩
      · exact ⟨by decide, by decide, by decide⟩) hb hnf
  rw [v4] at hr
  refine ⟨_, buf, hs, ?_, ?_, Trip.read_of _ _ _ _ b!"0" hr (by simp) ⟨by decide, by decide, by decide⟩⟩
  · unfold PyBridge.send PyBridge.prepareReply
    simp only [Option.getD_some, hd, PyBridge.defaultHeaders, e4]
    exact e5
  · have hw := Response.C17_serialized_layout .v1_1 n _ hline h4 i4 b [] hb 0 (Nat.le_refl _)
    have e5 : Response.setSendPtr .v1_1 n h4 ([] : Bytes).length 0 b = some buf := e5
    rw [hw] at e5
    injection e5 with e5
    rw [← e5, v4]
    simp [Response.wire]
    omega

end Fly.Refuse
