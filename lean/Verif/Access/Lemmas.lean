import Verif.Access.Spec
import Verif.Refuse.Props
import Verif.Log.Props

/-! # The access log: lemmas -/

namespace Fly.Access
open ReqEvent
open Keep (End next refusedLine)
open Site (Site)
open Header (HList)
open PyBridge (Cfg Ret)
open Response (SendBuf)

/-! ## Rounds -/

/-- The lines change nothing else. -/
theorem round_lines (e : Env) (app : Reply → Bool) : ∀ (f : Nat) (s : St) (raw : Option Bytes) (rs : List Rcv),
    (round e app f s raw rs).1.map (fun x => (x.1, x.2.1)) = (Refuse.round e app f s rs).1 ∧ (round e app f s raw rs).2.1 = (Refuse.round e app f s rs).2
  | 0, _, _, _ => ⟨rfl, rfl⟩
  | f + 1, s, raw, rs => by
    unfold round Refuse.round
    by_cases h0 : rs = []
    · rw [if_pos h0, if_pos h0]; exact ⟨rfl, rfl⟩
    · rw [if_neg h0, if_neg h0]
      cases hh : handle e s rs with
      | wait s' left => exact round_lines e app f s' _ left
      | close => exact ⟨rfl, rfl⟩
      | error => exact ⟨rfl, rfl⟩
      | crash => exact ⟨rfl, rfl⟩
      | reply r =>
        simp only
        cases hn : next app (refusedLine s rs) r with
        | close => exact ⟨rfl, rfl⟩
        | undef => exact ⟨rfl, rfl⟩
        | again =>
          obtain ⟨h1, h2⟩ := round_lines e app f (reuse s) none (Keep.handleLeft e s rs)
          exact ⟨by simp only [List.map_cons, h1], h2⟩

theorem build_wait {l : Option Req.ReqLine} {r : Reply} {s : St} {rs : List Rcv} : build l r ≠ .wait s rs := by
  unfold build
  cases l with
  | none => simp
  | some l => simp only; split <;> simp

theorem finish_wait {e : Env} {l : Req.ReqLine} {h : HList} {b : Option Bytes} {s : St} {rs : List Rcv} : finish e l h b ≠ .wait s rs := by
  unfold finish
  split
  · simp
  · exact build_wait

theorem receive_fase : ∀ (rs : List Rcv) (s : St) (tot : Bool), (receive s tot rs).2.1.fase = s.fase
  | [], _, _ => rfl
  | .block :: _, _, _ => rfl
  | .eof :: _, _, _ => rfl
  | .err :: _, _, _ => rfl
  | .data bs limit :: rs, s, tot => by
    unfold receive
    simp only
    split
    · rw [receive_fase rs]
    · split
      · rfl
      · split
        · rfl
        · rw [receive_fase rs]

theorem body_fase {e : Env} {s s' : St} {rs left : List Rcv} (h : body e s rs = .wait s' left) : s'.fase = .body := by
  unfold body at h
  cases hl : s.line with
  | none => rw [hl] at h; cases h
  | some l =>
    rw [hl] at h
    simp only at h
    split at h
    · exact absurd h build_wait
    · split at h
      · unfold ReqEvent.discard at h
        simp only at h
        split at h
        · cases h
        · have hr := receive_fase rs { { s with fase := .body, line := some l } with discard := true } false
          simp only at hr
          cases hx : receive { { s with fase := .body, line := some l } with discard := true } false rs with
          | mk o p =>
            obtain ⟨s1, rs1⟩ := p
            simp only at hx
            rw [hx] at h hr
            cases o <;> simp only at h
            all_goals first
              | (cases h; done)
              | (split at h
                 · injection h with h1 h2
                   rw [← h1]; exact hr
                 · cases h)
      · split at h
        · injection h with h1 _; rw [← h1]
        · exact absurd h finish_wait

theorem header_fase {e : Env} {s s' : St} {rs left : List Rcv} (h : header e s rs = .wait s' left) : s'.fase ≠ .line := by
  unfold header at h
  simp only at h
  split at h
  · injection h with h1 _; rw [← h1]; simp
  · split at h
    · injection h with h1 _; rw [← h1]; simp
    · split at h
      · cases h
      · exact absurd h build_wait
      · injection h with h1 _; rw [← h1]; simp
      · split at h
        · exact absurd h build_wait
        · exact absurd h build_wait
        · cases h
        · split at h
          · split at h
            · cases h
            · exact absurd h finish_wait
          · rw [body_fase h]; simp

/-- While no line has been read, none is kept. -/
theorem wait_line {e : Env} {s s' : St} {raw : Option Bytes} {rs left : List Rcv} (hs : s.fase = .line → raw = none) (h : handle e s rs = .wait s' left) (hf : s'.fase = .line) :
    keptLine s raw rs = none := by
  unfold handle at h
  unfold keptLine
  have hr := receive_fase rs s false
  split
  · next hd => rw [if_pos hd, ] at h; rw [body_fase h] at hf; cases hf
  · next hd =>
    rw [if_neg hd] at h
    cases hx : receive s false rs with
    | mk o p =>
      obtain ⟨s1, rs1⟩ := p
      rw [hx] at h hr
      simp only at hr
      cases o with
      | fatal => cases h
      | ended => cases h
      | overflow => cases h
      | readBlock => simp only at h ⊢; injection h with h1 _; apply hs; rw [← hr, h1, hf]
      | success =>
        simp only at h ⊢
        cases hfa : s1.fase with
        | header => rw [hfa] at h; exact absurd hf (header_fase h)
        | body => rw [hfa] at h; simp only at h; rw [body_fase h] at hf; cases hf
        | line =>
          rw [hfa] at h
          simp only at h ⊢
          unfold line at h
          simp only at h
          cases hsr : search b!"\r\n" b!"\r\n" 0 s1.buf with
          | none => simp only; apply hs; rw [← hr, hfa]
          | some n =>
            rw [hsr] at h
            simp only at h ⊢
            split at h
            · exact absurd h build_wait
            · split at h
              · cases h
              · cases h
              · exact absurd hf (header_fase h)

theorem round_end (e : Env) (app : Reply → Bool) : ∀ (f : Nat) (s s' : St) (raw : Option Bytes) (rs : List Rcv), (s.fase = .line → raw = none) →
    (round e app f s raw rs).2.1 = .open s' → s'.fase = .line → (round e app f s raw rs).2.2 = none
  | 0, s, s', raw, rs, hs, h, hf => by
    simp only [round] at h ⊢
    injection h with h
    exact hs (by rw [h, hf])
  | f + 1, s, s', raw, rs, hs, h, hf => by
    unfold round at h ⊢
    by_cases h0 : rs = []
    · rw [if_pos h0] at h ⊢
      simp only at h ⊢
      injection h with h
      exact hs (by rw [h, hf])
    · rw [if_neg h0] at h ⊢
      cases hh : handle e s rs with
      | wait s1 left =>
        rw [hh] at h
        exact round_end e app f s1 s' _ left (fun hf1 => wait_line hs hh hf1) h hf
      | close => rw [hh] at h <;> cases h
      | error => rw [hh] at h <;> cases h
      | crash => rw [hh] at h <;> cases h
      | reply r =>
        rw [hh] at h
        simp only at h ⊢
        cases hn : next app (refusedLine s rs) r with
        | close => rw [hn] at h <;> cases h
        | undef => rw [hn] at h <;> cases h
        | again =>
          rw [hn] at h
          exact round_end e app f (reuse s) s' none _ (fun _ => rfl) h hf

/-! ## The line of the first request -/

/-- Either nothing but the beginning of the text has been read, or its first line is kept. -/
def Reading (T : Bytes) (n : Nat) (s : St) (raw : Option Bytes) (rs : List Rcv) : Prop :=
  (s.fase = .line ∧ s.discard = false ∧ s.line = none ∧ Plain rs ∧ s.buf ++ dataOf rs = T ∧ raw = none) ∨ (s.fase ≠ .line ∧ raw = some (T.take n))

theorem keptLine_after {s : St} {raw : Option Bytes} {rs : List Rcv} (h : s.fase ≠ .line) : keptLine s raw rs = raw := by
  unfold keptLine
  have hr := receive_fase rs s false
  split
  · rfl
  · split
    · next s1 _ hx =>
      rw [hx] at hr
      simp only at hr
      split
      · next hl => rw [hl] at hr; exact absurd hr.symm h
      · rfl
    · rfl

theorem handle_after {e : Env} {s s' : St} {rs left : List Rcv} (hs : s.fase ≠ .line) (h : handle e s rs = .wait s' left) : s'.fase ≠ .line := by
  unfold handle at h
  have hr := receive_fase rs s false
  split at h
  · rw [body_fase h]; simp
  · split at h
    · cases h
    · cases h
    · next s1 rs1 hx => rw [hx] at hr; injection h with h1 _; rw [← h1]; simp only at hr; rw [hr]; exact hs
    · cases h
    · next s1 rs1 hx =>
      rw [hx] at hr
      simp only at hr
      split at h
      · next hl => rw [hl] at hr; exact absurd hr.symm hs
      · exact header_fase h
      · rw [body_fase h]; simp

theorem reading_step {T : Bytes} {n : Nat} (hT : search b!"\r\n" b!"\r\n" 0 T = some n) {e : Env} {s : St} {raw : Option Bytes} {rs : List Rcv} (h0 : rs ≠ []) (h : Reading T n s raw rs) :
    (∀ s' left, handle e s rs = .wait s' left → Reading T n s' (keptLine s raw rs) left) ∧
    (∀ r, handle e s rs = .reply r → refusedLine s rs = false → keptLine s raw rs = some (T.take n)) := by
  rcases h with ⟨h1, h2, h3, h4, h5, h6⟩ | ⟨h1, h2⟩
  · obtain ⟨o, t, rs', er, g1, g2, _, _, g5⟩ := receive_plain rs s false h4 h2
    have hbuf : (got s t).buf ++ dataOf rs' = T := by rw [← h5, g1]; simp [got]
    have hfa : (got s t).fase = .line := by rw [← h1]; rfl
    rcases g5 with rfl | ⟨rfl, rfl, _⟩
    · have hh : handle e s rs = line e (got s t) rs' := by
        unfold handle
        rw [if_neg (by simp [h2]), er]
        simp only [hfa]
      rw [hh]
      cases hs : search b!"\r\n" b!"\r\n" 0 (got s t).buf with
      | none =>
        have hk : keptLine s raw rs = raw := by
          unfold keptLine
          rw [if_neg (by simp [h2]), er]
          simp only [hfa, hs]
        have hl : line e (got s t) rs' = .wait { got s t with fase := .line } rs' := by
          unfold line
          simp only [hs]
        rw [hk, hl]
        refine ⟨fun s' left he => ?_, fun r he => by cases he⟩
        injection he with e1 e2
        subst e1 e2
        exact Or.inl ⟨rfl, h2, h3, g2, hbuf, h6⟩
      | some k =>
        have hkn : k = n := by
          have := search_append _ _ _ _ (dataOf rs') _ hs
          rw [hbuf, hT] at this
          injection this with this
          exact this.symm
        have hle : k ≤ (got s t).buf.length := by have := search_bounds _ _ _ _ _ hs; simp at this; omega
        have htk : (got s t).buf.take k = T.take n := by
          rw [← hbuf, hkn, List.take_append_of_le_length (by omega)]
        by_cases hbig : k ≥ 8000
        · have hl : line e (got s t) rs' = .crash := by
            unfold line
            simp only [hs, if_pos hbig]
            have : (got s t).line = none := h3
            rw [this]; rfl
          rw [hl]
          exact ⟨fun s' left he => (by cases he), fun r he => (by cases he)⟩
        · have hk : keptLine s raw rs = some (T.take n) := by
            unfold keptLine
            rw [if_neg (by simp [h2]), er]
            simp only [hfa, hs, if_neg hbig, htk]
          rw [hk]
          refine ⟨fun s' left he => Or.inr ⟨?_, rfl⟩, fun _ _ _ => rfl⟩
          unfold line at he
          simp only [hs, if_neg hbig, htk] at he
          cases hp : Req.parseReqline (T.take n) with
          | crash => rw [hp] at he; cases he
          | bad => rw [hp] at he; cases he
          | ok l => rw [hp] at he; exact header_fase he
    · have hk : keptLine s raw rs = raw := by
        unfold keptLine
        rw [if_neg (by simp [h2]), er]
      have hh : handle e s rs = .wait (got s []) rs' := by
        unfold handle
        rw [if_neg (by simp [h2]), er]
      rw [hk, hh]
      refine ⟨fun s' left he => ?_, fun r he => by cases he⟩
      injection he with e1 e2
      subst e1 e2
      exact Or.inl ⟨hfa, h2, h3, g2, hbuf, h6⟩
  · rw [keptLine_after h1]
    exact ⟨fun s' left he => Or.inr ⟨handle_after h1 he, h2⟩, fun _ _ _ => h2⟩

/-- The first response on a connection refers to the first line that was sent. -/
theorem first_line {T : Bytes} {n : Nat} (hT : search b!"\r\n" b!"\r\n" 0 T = some n) (e : Env) (app : Reply → Bool) : ∀ (f : Nat) (s : St) (raw : Option Bytes) (rs : List Rcv)
    (x : Reply × Bool × Option Bytes) (l : List (Reply × Bool × Option Bytes)), Reading T n s raw rs → (round e app f s raw rs).1 = x :: l → x.2.1 = false → x.2.2 = some (T.take n)
  | 0, _, _, _, _, _, _, h, _ => by simp [round] at h
  | f + 1, s, raw, rs, x, l, hr, h, hx => by
    unfold round at h
    by_cases h0 : rs = []
    · rw [if_pos h0] at h; cases h
    · rw [if_neg h0] at h
      obtain ⟨r1, r2⟩ := reading_step hT (e := e) h0 hr
      cases hh : handle e s rs with
      | wait s' left => rw [hh] at h; exact first_line hT e app f s' _ left x l (r1 _ _ hh) h hx
      | close => rw [hh] at h; cases h
      | error => rw [hh] at h; cases h
      | crash => rw [hh] at h; cases h
      | reply r =>
        rw [hh] at h
        simp only at h
        have key : x = (r, refusedLine s rs, answeredLine s raw rs) := by
          cases hn : next app (refusedLine s rs) r with
          | close => rw [hn] at h; simp only [List.cons.injEq] at h; exact h.1.symm
          | undef => rw [hn] at h; simp only [List.cons.injEq] at h; exact h.1.symm
          | again => rw [hn] at h; simp only [List.cons.injEq] at h; exact h.1.symm
        rw [key] at hx ⊢
        simp only at hx ⊢
        unfold answeredLine
        rw [hx, if_neg (by simp)]
        exact r2 r hh hx

/-- A response to a refused line refers to none. -/
theorem refused_none (e : Env) (app : Reply → Bool) : ∀ (f : Nat) (s : St) (raw : Option Bytes) (rs : List Rcv), ∀ x ∈ (round e app f s raw rs).1, x.2.1 = true → x.2.2 = none
  | 0, _, _, _, x, h, _ => by simp [round] at h
  | f + 1, s, raw, rs, x, h, hx => by
    unfold round at h
    by_cases h0 : rs = []
    · rw [if_pos h0] at h; cases h
    · rw [if_neg h0] at h
      cases hh : handle e s rs with
      | wait s' left => rw [hh] at h; exact refused_none e app f s' _ left x h hx
      | close => rw [hh] at h; cases h
      | error => rw [hh] at h; cases h
      | crash => rw [hh] at h; cases h
      | reply r =>
        rw [hh] at h
        simp only at h
        have key : x = (r, refusedLine s rs, answeredLine s raw rs) → x.2.2 = none := by
          rintro rfl
          simp only at hx ⊢
          unfold answeredLine
          rw [hx, if_pos rfl]
        cases hn : next app (refusedLine s rs) r with
        | close => rw [hn] at h; exact key (by simpa using h)
        | undef => rw [hn] at h; exact key (by simpa using h)
        | again =>
          rw [hn] at h
          rcases List.mem_cons.1 h with h | h
          · exact key h
          · exact refused_none e app f _ _ _ x h hx

/-- A refused line is answered 400. -/
theorem refused_400 {e : Env} {s : St} {rs : List Rcv} (h : refusedLine s rs = true) : handle e s rs = .reply (.status 400) := by
  unfold refusedLine at h
  simp only [Bool.and_eq_true, Bool.not_eq_true'] at h
  obtain ⟨h1, h2⟩ := h
  unfold handle
  rw [if_neg (by simp [h1])]
  split at h2
  · next s1 rs1 hx =>
    simp only [Bool.and_eq_true, beq_iff_eq] at h2
    obtain ⟨h2, h3⟩ := h2
    rw [hx]
    simp only [h2, line]
    split at h3
    · next n hs =>
      simp only [Bool.and_eq_true, decide_eq_true_eq] at h3
      rw [hs]
      simp only
      rw [if_neg (by omega), h3.2]
    · cases h3
  · cases h2

/-- Only 400 is marked. -/
theorem refused_status (e : Env) (app : Reply → Bool) : ∀ (f : Nat) (s : St) (rs : List Rcv), ∀ x ∈ (Refuse.round e app f s rs).1, x.2 = true → x.1 = .status 400
  | 0, _, _, x, h, _ => by simp [Refuse.round] at h
  | f + 1, s, rs, x, h, hx => by
    unfold Refuse.round at h
    by_cases h0 : rs = []
    · rw [if_pos h0] at h; cases h
    · rw [if_neg h0] at h
      cases hh : handle e s rs with
      | wait s' left => rw [hh] at h; exact refused_status e app f s' left x h hx
      | close => rw [hh] at h; cases h
      | error => rw [hh] at h; cases h
      | crash => rw [hh] at h; cases h
      | reply r =>
        rw [hh] at h
        simp only at h
        have key : x = (r, refusedLine s rs) → x.1 = .status 400 := by
          rintro rfl
          simp only at hx ⊢
          rw [refused_400 hx] at hh
          injection hh with hh
          exact hh.symm
        cases hn : next app (refusedLine s rs) r with
        | close => rw [hn] at h; exact key (by simpa using h)
        | undef => rw [hn] at h; exact key (by simpa using h)
        | again =>
          rw [hn] at h
          rcases List.mem_cons.1 h with h | h
          · exact key h
          · exact refused_status e app f _ _ x h hx

/-- A response after which the connection goes on refers to the line that was sent. -/
theorem round_kept (e : Env) (app : Reply → Bool) {rs : List Rcv} {r : Reply} {b : Bool} (hr : Refuse.round e app rs.length St.init rs = ([(r, b)], .open St.init))
    (hn : next app b r = .again) (hp : Plain rs) {line rest : Bytes} (hd : dataOf rs = line ++ b!"\r\n" ++ rest) (hcr : 13 ∉ line) :
    round e app rs.length St.init none rs = ([(r, b, some (line ++ b!"\r\n"))], .open St.init, none) := by
  have hT : search b!"\r\n" b!"\r\n" 0 (dataOf rs) = some (line.length + 2) := by
    rw [hd]
    have := search_crlf line rest hcr 0
    simpa using this
  have htk : (dataOf rs).take (line.length + 2) = line ++ b!"\r\n" := by
    rw [hd, List.take_left' (by simp)]
  obtain ⟨p1, p2⟩ := round_lines e app rs.length St.init none rs
  rw [hr] at p1 p2
  have hend := round_end e app rs.length St.init St.init none rs (fun _ => rfl) p2 rfl
  cases hl : (round e app rs.length St.init none rs).1 with
  | nil => rw [hl] at p1; cases p1
  | cons x l =>
    rw [hl] at p1
    simp only [List.map_cons, List.cons.injEq, Prod.mk.injEq, List.map_eq_nil_iff] at p1
    obtain ⟨⟨x1, x2⟩, rfl⟩ := p1
    have hb : b = false := by
      cases hb : b with
      | false => rfl
      | true =>
        exfalso
        rw [hb] at hr
        have := refused_status e app _ _ _ _ (by rw [hr]; simp : (r, true) ∈ (Refuse.round e app rs.length St.init rs).1) rfl
        simp only at this
        rw [this, hb] at hn
        simp [next] at hn
    have hraw := first_line hT e app rs.length St.init none rs x [] (Or.inl ⟨rfl, rfl, rfl, hp, rfl, rfl⟩) hl (by rw [x2, hb])
    rw [htk] at hraw
    apply Prod.ext
    · rw [hl]
      simp only [List.cons.injEq, and_true]
      exact Prod.ext x1 (Prod.ext x2 hraw)
    · exact Prod.ext p2 hend

end Fly.Access
