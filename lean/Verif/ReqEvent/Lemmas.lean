import Verif.ReqEvent.Spec
import Verif.ReqHeader.Props
import Verif.Request.Lemmas

set_option linter.all false

namespace Fly.ReqEvent
open Req (ReqLine)

/-! ## search -/

theorem search_append (str : Bytes) : ∀ (D s : Bytes) (c : Nat) (E : Bytes) (n : Nat), search str s c D = some n →
    search str s c (D ++ E) = some n := by
  intro D
  induction D with
  | nil => intro s c E n h; cases s <;> simp [search] at h
  | cons x D ih =>
    intro s c E n h
    cases s with
    | nil => simp [search] at h
    | cons y s =>
      rw [List.cons_append]
      simp only [search] at h ⊢
      split at h
      · rename_i e1; rw [if_pos e1]
        split at h
        · rename_i e2; rw [if_pos e2]; exact h
        · rename_i e2; rw [if_neg e2]; exact ih _ _ _ _ h
      · rename_i e1; rw [if_neg e1]; exact ih _ _ _ _ h

theorem search_bounds (str : Bytes) : ∀ (D s : Bytes) (c n : Nat), search str s c D = some n → c < n ∧ n ≤ c + D.length := by
  intro D
  induction D with
  | nil => intro s c n h; cases s <;> simp [search] at h
  | cons x D ih =>
    intro s c n h
    cases s with
    | nil => simp [search] at h
    | cons y s =>
      simp only [search] at h
      split at h
      · split at h
        · simp at h; simp; omega
        · have := ih _ _ _ h; simp; omega
      · have := ih _ _ _ h; simp; omega

theorem search_prefix (str : Bytes) : ∀ (D s : Bytes) (c : Nat) (E : Bytes) (n : Nat), search str s c (D ++ E) = some n →
    n ≤ c + D.length → search str s c D = some n := by
  intro D
  induction D with
  | nil =>
    intro s c E n h hn
    have := search_bounds _ _ _ _ _ h
    simp at hn; omega
  | cons x D ih =>
    intro s c E n h hn
    cases s with
    | nil => simp [search] at h
    | cons y s =>
      rw [List.cons_append] at h
      simp only [search] at h ⊢
      simp only [List.length_cons] at hn
      split at h
      · rename_i e1; rw [if_pos e1]
        split at h
        · rename_i e2; rw [if_pos e2]; exact h
        · rename_i e2; rw [if_neg e2]; exact ih _ _ _ _ h (by omega)
      · rename_i e1; rw [if_neg e1]; exact ih _ _ _ _ h (by omega)

/-- What a search finds in a prefix of a text. -/
theorem search_take (str T : Bytes) (n k : Nat) (h : search str str 0 T = some n) :
    search str str 0 (T.take k) = if n ≤ k then some n else none := by
  have hb := search_bounds _ _ _ _ _ h
  split
  · rename_i hk
    rw [← List.take_append_drop k T] at h
    exact search_prefix _ _ _ _ _ _ h (by rw [List.length_take]; omega)
  · rename_i hk
    cases hs : search str str 0 (T.take k) with
    | none => rfl
    | some m =>
      have h1 := search_append _ _ _ _ (T.drop k) _ hs
      rw [List.take_append_drop, h] at h1
      have := search_bounds _ _ _ _ _ hs
      rw [List.length_take] at this
      simp at h1; omega

theorem has_take (str T : Bytes) (n k : Nat) (h : search str str 0 T = some n) : has str (T.take k) = decide (n ≤ k) := by
  unfold has
  rw [search_take _ _ _ _ h]
  by_cases hk : n ≤ k <;> simp [hk]

theorem search_crlf (x d : Bytes) (hx : 13 ∉ x) : ∀ c, search b!"\r\n" b!"\r\n" c (x ++ 13 :: 10 :: d) = some (c + x.length + 2) := by
  induction x with
  | nil => intro c; simp [search]
  | cons a x ih =>
    intro c
    simp at hx
    rw [List.cons_append]
    simp only [search]
    rw [if_neg (by omega), ih hx.2]
    simp; omega

theorem search4_line (x d : Bytes) (hx : 13 ∉ x) : ∀ c, search b!"\r\n\r\n" b!"\r\n\r\n" c (x ++ 13 :: 10 :: d) =
    search b!"\r\n\r\n" b!"\r\n" (c + x.length + 2) d := by
  induction x with
  | nil => intro c; simp [search]
  | cons a x ih =>
    intro c
    simp at hx
    rw [List.cons_append]
    rw [search, if_neg (by omega), ih hx.2]
    congr 1; simp; omega

theorem search4_block (d : Bytes) : ∀ (ys : List Bytes), (∀ y ∈ ys, y ≠ [] ∧ 13 ∉ y) → ∀ c,
    search b!"\r\n\r\n" b!"\r\n" c ((ys.map (· ++ b!"\r\n")).flatten ++ 13 :: 10 :: d) =
      some (c + ((ys.map (· ++ b!"\r\n")).flatten).length + 2) := by
  intro ys
  induction ys with
  | nil => intro _ c; simp [search]
  | cons y ys ih =>
    intro hy c
    obtain ⟨h1, h2⟩ := hy y (by simp)
    cases y with
    | nil => simp at h1
    | cons a y =>
      simp at h2
      have e : (((a :: y) :: ys).map (· ++ b!"\r\n")).flatten ++ 13 :: 10 :: d =
        a :: (y ++ 13 :: 10 :: ((ys.map (· ++ b!"\r\n")).flatten ++ 13 :: 10 :: d)) := by simp
      rw [e, search, if_neg (by omega), search4_line _ _ h2.2, ih fun z hz => hy z (by simp [hz])]
      simp; omega

/-! ## receiving -/

/-- The state after receiving `t`. -/
def got (s : St) (t : Bytes) : St :=
  { s with buf := s.buf ++ t, gotLine := s.gotLine || (!t.isEmpty && has b!"\r\n" (s.buf ++ t)), gotHeader := s.gotHeader || (!t.isEmpty && has b!"\r\n\r\n" (s.buf ++ t)) }

theorem got_nil (s : St) : got s [] = s := by simp [got]

theorem receive_plain (rs : List Rcv) : ∀ (s : St) (tot : Bool), Plain rs → s.discard = false →
    ∃ o t rs', receive s tot rs = (o, got s t, rs') ∧ dataOf rs = t ++ dataOf rs' ∧ Plain rs' ∧ rs'.length ≤ rs.length ∧
      (rs ≠ [] → rs'.length < rs.length) ∧ (o = .success ∨ (o = .readBlock ∧ t = [] ∧ tot = false)) := by
  induction rs with
  | nil =>
    intro s tot _ hd
    refine ⟨if !s.discard && tot then .success else .readBlock, [], [], ?_, rfl, by simp [Plain], by simp, by simp, ?_⟩
    · simp only [receive, got_nil]
    · cases tot <;> simp [hd]
  | cons r rs ih =>
    intro s tot hp hd
    have hp' : Plain rs := fun r hr => hp r (by simp [hr])
    rcases hp r (by simp) with rfl | ⟨bs, hbs, rfl⟩
    · refine ⟨if !s.discard && tot then .success else .readBlock, [], rs, ?_, rfl, hp', by simp, by simp, ?_⟩
      · simp only [receive, got_nil]
      · cases tot <;> simp [hd]
    · have hne : bs.isEmpty = false := by cases bs <;> simp_all
      simp only [receive, hd, Bool.false_eq_true, if_false]
      split
      · refine ⟨_, bs, rs, ?_, rfl, hp', by simp, by simp, Or.inl rfl⟩
        have e : ∀ a b : Bool, (a || (!a && b)) = (a || b) := by decide
        simp [got, hne, e, hd]
      · rename_i hlh
        simp only [Bool.not_eq_true, Bool.or_eq_false_iff] at hlh
        obtain ⟨o, t, rs', e, h1, h2, h3, h4, h5⟩ := ih { s with buf := s.buf ++ bs, gotLine := s.gotLine || (!s.gotLine && has b!"\r\n" (s.buf ++ bs)), gotHeader := s.gotHeader || (!s.gotHeader && has b!"\r\n\r\n" (s.buf ++ bs)) } true hp' hd
        refine ⟨o, bs ++ t, rs', ?_, by simp [dataOf, h1], h2, ?_, ?_, ?_⟩
        · rw [hd] at e
          rw [e]
          simp only [got, hlh.1, hlh.2]
          have hbt : (bs ++ t).isEmpty = false := by cases bs <;> simp_all
          have k : ∀ (g : Bool) (str : Bytes), (!g && has str (s.buf ++ bs)) = false →
              (g || false || (!t.isEmpty && has str (s.buf ++ bs ++ t))) = (g || (!(bs ++ t).isEmpty && has str (s.buf ++ (bs ++ t)))) := by
            intro g str hg
            rw [hbt]
            cases t with
            | nil => cases g <;> simp_all
            | cons a t => simp [List.append_assoc]
          rw [k _ _ hlh.1, k _ _ hlh.2, List.append_assoc, hd]
        · simp; omega
        · intro _; simp; omega
        · rcases h5 with h5 | h5
          · exact Or.inl h5
          · simp at h5

theorem receive_discard (rs : List Rcv) : ∀ (s : St) (tot : Bool), Plain rs → s.discard = true → s.gotLine = true → s.gotHeader = true →
    ∃ t rs', receive s tot rs = (.readBlock, { s with discardLen := s.discardLen + t.length }, rs') ∧ dataOf rs = t ++ dataOf rs' ∧
      Plain rs' ∧ rs'.length ≤ rs.length ∧ (rs ≠ [] → rs'.length < rs.length) := by
  induction rs with
  | nil =>
    intro s tot _ hd _ _
    exact ⟨[], [], by simp only [receive, hd]; simp; rw [← hd], rfl, by simp [Plain], by simp, by simp⟩
  | cons r rs ih =>
    intro s tot hp hd h1 h2
    have hp' : Plain rs := fun r hr => hp r (by simp [hr])
    rcases hp r (by simp) with rfl | ⟨bs, hbs, rfl⟩
    · exact ⟨[], rs, by simp only [receive, hd]; simp; rw [← hd], rfl, hp', by simp, by simp⟩
    · simp only [receive, hd, h1, h2, if_true, Bool.not_true, Bool.false_and, Bool.or_false]
      obtain ⟨t, rs', e, g1, g2, g3, g4⟩ := ih ({ s with gotLine := true, gotHeader := true, discard := true, discardLen := s.discardLen + bs.length }) true hp' rfl rfl rfl
      refine ⟨bs ++ t, rs', ?_, by simp [dataOf, g1], g2, by simp; omega, by simp; omega⟩
      rw [e, List.length_append, Nat.add_assoc]

/-! ## a well-formed message -/

theorem build_v1 (l : ReqLine) (r : Reply) (h : l.version = .v1_1) : build (some l) r = .reply r := by simp [build, h]

theorem finish_v1 (e : Env) (l : ReqLine) (h : Header.HList) (b : Option Bytes) (hv : l.version = .v1_1) :
    finish e l h b = .reply (select e l h b) := by
  unfold finish
  split
  · rename_i hs; rw [hs]
  · exact build_v1 _ _ hv

def Msg.hdrs (m : Msg) : Bytes := (m.headers.map (· ++ b!"\r\n")).flatten
def Msg.nL (m : Msg) : Nat := m.lineText.length + 2
def Msg.nH (m : Msg) : Nat := m.nL + m.hdrs.length + 2

theorem text_eq (m : Msg) : m.text = m.lineText ++ 13 :: 10 :: (m.hdrs ++ 13 :: 10 :: m.body) := by
  simp [Msg.text, Msg.hdrs]

theorem text_length (m : Msg) : m.text.length = m.nH + m.body.length := by
  rw [text_eq]; simp [Msg.nH, Msg.nL]; omega

theorem text_drop_nL (m : Msg) : m.text.drop m.nL = m.hdrs ++ 13 :: 10 :: m.body := by
  have e : m.text = (m.lineText ++ b!"\r\n") ++ (m.hdrs ++ 13 :: 10 :: m.body) := by rw [text_eq]; simp
  rw [e, List.drop_append_of_le_length (by simp [Msg.nL]), List.drop_of_length_le (by simp [Msg.nL])]; rfl

theorem text_drop_nH (m : Msg) : m.text.drop m.nH = m.body := by
  have e : m.text = (m.lineText ++ b!"\r\n" ++ m.hdrs ++ b!"\r\n") ++ m.body := by rw [text_eq]; simp
  rw [e, List.drop_append_of_le_length (by simp [Msg.nL, Msg.nH]; omega), List.drop_of_length_le (by simp [Msg.nL, Msg.nH]; omega)]; rfl

theorem text_take_nL (m : Msg) : m.text.take m.nL = m.lineText ++ b!"\r\n" := by
  have e : m.text = (m.lineText ++ b!"\r\n") ++ (m.hdrs ++ 13 :: 10 :: m.body) := by rw [text_eq]; simp
  rw [e, List.take_append_of_le_length (by simp [Msg.nL]), List.take_of_length_le (by simp [Msg.nL])]

theorem search_text2 (m : Msg) (hg : m.Good) : search b!"\r\n" b!"\r\n" 0 m.text = some m.nL := by
  rw [text_eq, search_crlf _ _ hg.cr]; simp [Msg.nL]

theorem search_text4 (m : Msg) (hg : m.Good) : search b!"\r\n\r\n" b!"\r\n\r\n" 0 m.text = some m.nH := by
  rw [text_eq, search4_line _ _ hg.cr, Msg.hdrs, search4_block _ _ fun y hy => ⟨(hg.plain y hy).1, (hg.plain y hy).2.1⟩]
  simp [Msg.nH, Msg.nL, Msg.hdrs]

theorem search_hdrs4 (m : Msg) (hg : m.Good) : search b!"\r\n\r\n" b!"\r\n\r\n" 0 (m.text.drop m.nL) = some (m.nH - m.nL) := by
  rw [text_drop_nL]
  have hp := hg.plain
  have hs := hg.some
  simp only [Msg.hdrs, Msg.nH]
  cases hh : m.headers with
  | nil => exact absurd hh hs
  | cons y ys =>
    rw [hh] at hp
    obtain ⟨h1, h2⟩ := hp y (by simp)
    have e : ((y :: ys).map (· ++ b!"\r\n")).flatten ++ 13 :: 10 :: m.body =
        y ++ 13 :: 10 :: ((ys.map (· ++ b!"\r\n")).flatten ++ 13 :: 10 :: m.body) := by simp
    rw [e, search4_line _ _ h2.1, search4_block _ _ fun z hz => ⟨(hp z (by simp [hz])).1, (hp z (by simp [hz])).2.1⟩]
    simp only [List.map_cons, List.flatten_cons, List.length_append, List.length_cons, List.length_nil]
    congr 1; omega

theorem parse_text (m : Msg) (hg : m.Good) : Req.parseReqline (m.text.take m.nL) = .ok m.line := by
  rw [text_take_nL]
  exact (Req.parse_iff _ _).2 ⟨m.lineText, [], by simp, hg.line⟩

theorem hdrs_lines (xs : List Bytes) : (xs.map (· ++ b!"\r\n")).flatten = ReqHeader.lines (xs.map (· ++ b!"\r")) := by
  induction xs with
  | nil => rfl
  | cons x xs ih => simp [ReqHeader.lines] at ih ⊢; exact ih

theorem header_text (m : Msg) (hg : m.Good) (k : Nat) (hk : m.nH ≤ k) :
    ReqHeader.headerOperation ((m.text.take k).drop m.nL) = .ok m.header ((m.text.take k).drop m.nH ++ [0]) := by
  have e1 : (m.text.take k).drop m.nL = ReqHeader.lines (m.headers.map (· ++ b!"\r")) ++ b!"\r\n" ++ (m.text.take k).drop m.nH := by
    rw [← hdrs_lines, List.drop_take, List.drop_take, text_drop_nL, text_drop_nH]
    have e : m.hdrs ++ 13 :: 10 :: m.body = (m.hdrs ++ b!"\r\n") ++ m.body := by simp
    rw [e, List.take_append, List.take_of_length_le (by simp [Msg.nH] at hk ⊢; omega)]
    congr 2
    simp [Msg.nH] at hk ⊢; omega
  rw [e1]
  refine ReqHeader.C69_header_fields_exact _ _ _ hg.fields ?_
  intro x hx
  obtain ⟨y, hy, rfl⟩ := List.mem_map.1 hx
  obtain ⟨h1, h2, h3, h4⟩ := hg.plain y hy
  refine ⟨by simp [h3], by simp [h4], ?_⟩
  cases y with
  | nil => simp at h1
  | cons a y =>
    intro he
    rcases he with he | he <;> simp at he
    simp at h2; omega

theorem bodyLength_eq (m : Msg) (hg : m.Good) : bodyLength m.header = m.body.length := by
  have := hg.body
  have := hg.fits
  unfold bodyLength
  omega

/-- State of a connection after `k` bytes of a message have been taken, the request being incomplete. -/
inductive Inv (e : Env) (m : Msg) : St → Nat → Prop
  | line (k : Nat) : k < m.nL → Inv e m ⟨m.text.take k, .line, false, false, none, Header.HList.init, false, 0⟩ k
  | header (k : Nat) : m.nL ≤ k → k < m.nH →
      Inv e m ⟨(m.text.take k).drop m.nL, .header, true, false, some m.line, Header.HList.init, false, 0⟩ k
  | body (k d : Nat) : m.nH ≤ k → k < m.text.length → e.nego m.header = .ok → Header.contentLength m.header ≠ 0 →
      Header.expect100 m.header = false → m.body.length ≤ e.maxLen →
      Inv e m ⟨(m.text.take k).drop m.nH, .body, true, true, some m.line, m.header, false, d⟩ k
  | discard (b : Bytes) (k : Nat) : m.nH ≤ k → k < m.text.length → e.nego m.header = .ok → Header.contentLength m.header ≠ 0 →
      Header.expect100 m.header = false → e.maxLen < m.body.length →
      Inv e m ⟨b, .body, true, true, some m.line, m.header, true, k - m.nH⟩ k

theorem inv_lt {e : Env} {m : Msg} {s : St} {k : Nat} (h : Inv e m s k) : k < m.text.length := by
  have := text_length m
  cases h <;> (try simp only [Msg.nH] at *) <;> omega

/-- One step: answered, or waiting with the invariant. -/
def Step (e : Env) (m : Msg) (k : Nat) (rs : List Rcv) (o : Out) : Prop :=
  o = answer e m ∨ ∃ s' rs' k', o = .wait s' rs' ∧ Inv e m s' k' ∧ dataOf rs' = m.text.drop k' ∧ Plain rs' ∧ rs'.length ≤ rs.length

theorem body_step (e : Env) (m : Msg) (hg : m.Good) (s : St) (k : Nat) (rs : List Rcv) (hp : Plain rs)
    (hd : dataOf rs = m.text.drop k) (hk : m.nH ≤ k) (hk2 : k ≤ m.text.length) (hn : e.nego m.header = .ok)
    (hc : Header.contentLength m.header ≠ 0) (h1 : s.line = some m.line) (h2 : s.header = m.header) (h3 : s.gotLine = true)
    (h4 : s.gotHeader = true) (h5 : m.body.length ≤ e.maxLen → s.buf = (m.text.take k).drop m.nH ∧ s.discard = false)
    (h6 : e.maxLen < m.body.length → s.discardLen = k - m.nH) :
    Step e m k rs (body e s rs) ∧ (s.discard = true → rs ≠ [] → ∀ s' rs', body e s rs = .wait s' rs' → rs'.length < rs.length) := by
  have hb := hg.body
  have hL := text_length m
  unfold body
  rw [h1]
  simp only [h2, bodyLength_eq m hg, build_v1 _ _ hg.version, finish_v1 _ _ _ _ hg.version]
  by_cases hx : Header.expect100 m.header = true
  · rw [if_pos hx]
    refine ⟨Or.inl ?_, by simp⟩
    simp [answer, hn, hc, hx, build_v1 _ _ hg.version]
  · rw [if_neg hx]
    have hx' : Header.expect100 m.header = false := by simpa using hx
    by_cases hm : m.body.length > e.maxLen
    · rw [if_pos hm]
      unfold discard
      simp only [h2, bodyLength_eq m hg]
      have h6 := h6 hm
      by_cases hq : m.body.length ≤ s.discardLen
      · rw [if_pos hq]
        refine ⟨Or.inl ?_, by simp⟩
        simp [answer, hn, hc, hx', hm]
      · rw [if_neg hq]
        obtain ⟨t, rs', er, g1, g2, g3, g4⟩ := receive_discard rs { s with fase := .body, line := some m.line, header := m.header, discard := true } false hp rfl h3 h4
        rw [er]
        simp only [bodyLength_eq m hg]
        have hdl : (dataOf rs).length = t.length + (dataOf rs').length := by rw [g1]; simp
        rw [hd, List.length_drop] at hdl
        by_cases hr : s.discardLen + t.length < m.body.length
        · rw [if_pos hr]
          refine ⟨Or.inr ⟨_, rs', k + t.length, rfl, ?_, ?_, g2, g3⟩, ?_⟩
          · have := Inv.discard (e := e) (m := m) s.buf (k + t.length) (by omega) (by omega) hn hc hx' hm
            have e2 : k + t.length - m.nH = s.discardLen + t.length := by omega
            rw [e2] at this
            simpa [h1, h3, h4] using this
          · rw [← List.drop_drop, ← hd, g1, List.drop_left]
          · intro _ hrs s' r' he; simp at he; rw [← he.2]; exact g4 hrs
        · rw [if_neg hr]
          refine ⟨Or.inl ?_, by simp⟩
          simp [answer, hn, hc, hx', hm]
    · rw [if_neg hm]
      obtain ⟨h5, h7⟩ := h5 (by omega)
      have hlen : s.buf.length = k - m.nH := by rw [h5, List.length_drop, List.length_take]; omega
      by_cases hw : s.buf = [] ∨ s.buf.length < m.body.length
      · rw [if_pos hw]
        refine ⟨Or.inr ⟨_, rs, k, rfl, ?_, hd, hp, Nat.le_refl _⟩, by simp [h7]⟩
        have hlt : s.buf.length < m.body.length := by
          rcases hw with hw | hw
          · rw [hw]; simp; omega
          · exact hw
        have := Inv.body (e := e) (m := m) k s.discardLen hk (by omega) hn hc hx' (by omega)
        simpa [h1, h3, h4, h5, h7, ← h2] using this
      · rw [if_neg hw]
        refine ⟨Or.inl ?_, by simp⟩
        simp only [not_or] at hw
        have ek : k = m.text.length := by omega
        have : s.buf.take m.body.length = m.body := by
          rw [h5, ek, List.take_length, text_drop_nH, List.take_length]
        simp [answer, hn, hc, hx', hm, this, finish_v1 _ _ _ _ hg.version]

theorem header_step (e : Env) (m : Msg) (hg : m.Good) (f : Fase) (gh : Bool) (k : Nat) (rs : List Rcv) (hp : Plain rs)
    (hd : dataOf rs = m.text.drop k) (hk : m.nL ≤ k) (hk2 : k ≤ m.text.length) (hgh : gh = decide (m.nH ≤ k)) :
    Step e m k rs (header e ⟨(m.text.take k).drop m.nL, f, true, gh, some m.line, Header.HList.init, false, 0⟩ rs) := by
  have hL := text_length m
  unfold header
  by_cases hk3 : m.nH ≤ k
  · have hgh' : gh = true := by simp [hgh, hk3]
    subst hgh'
    simp only [Bool.not_true, Bool.false_eq_true, if_false]
    rw [if_neg (by intro h0; have := congrArg List.length h0; rw [List.length_drop, List.length_take] at this; simp only [Msg.nH] at *; simp at this; omega),
      header_text m hg k hk3]
    simp only [List.dropLast_concat]
    cases hn : e.nego m.header with
    | syntaxError => exact Or.inl (by simp [answer, hn, build_v1 _ _ hg.version])
    | notAcceptable => exact Or.inl (by simp [answer, hn, build_v1 _ _ hg.version])
    | error => exact Or.inl (by simp [answer, hn])
    | ok =>
      simp only
      by_cases hc : Header.contentLength m.header = 0
      · rw [if_pos hc]; exact Or.inl (by simp [answer, hn, hc, finish_v1 _ _ _ _ hg.version])
      · rw [if_neg hc]
        refine (body_step e m hg _ k rs hp hd hk3 hk2 hn hc rfl rfl rfl rfl ?_ ?_).1
        · intro _; exact ⟨rfl, rfl⟩
        · intro _; simp only [List.length_drop, List.length_take]; omega
  · have hgh' : gh = false := by simp [hgh]; omega
    subst hgh'
    simp only [Bool.not_false, if_true]
    exact Or.inr ⟨_, rs, k, rfl, .header k hk (by omega), hd, hp, Nat.le_refl _⟩

theorem line_step (e : Env) (m : Msg) (hg : m.Good) (f : Fase) (gl gh : Bool) (k : Nat) (rs : List Rcv) (hp : Plain rs)
    (hd : dataOf rs = m.text.drop k) (hk2 : k ≤ m.text.length) (hgl : gl = decide (m.nL ≤ k)) (hgh : gh = decide (m.nH ≤ k)) :
    Step e m k rs (line e ⟨m.text.take k, f, gl, gh, none, Header.HList.init, false, 0⟩ rs) := by
  have hL := text_length m
  have hs := hg.short
  unfold line
  simp only
  rw [search_take _ _ _ _ (search_text2 m hg)]
  by_cases hk : m.nL ≤ k
  · rw [if_pos hk]
    simp only
    rw [if_neg (by simp [Msg.nL] at *; omega), List.take_take, Nat.min_eq_left hk, parse_text m hg]
    have : gl = true := by simp [hgl, hk]
    rw [this]
    exact header_step e m hg .line gh k rs hp hd hk hk2 hgh
  · rw [if_neg hk]
    have h1 : gl = false := by simp [hgl]; omega
    have h2 : gh = false := by simp [hgh]; simp only [Msg.nH] at *; omega
    rw [h1, h2]
    exact Or.inr ⟨_, rs, k, rfl, .line k (by omega), hd, hp, Nat.le_refl _⟩

theorem take_add (T t u : Bytes) (k : Nat) (h : T.drop k = t ++ u) : T.take (k + t.length) = T.take k ++ t := by
  rw [List.take_add, h, List.take_left]

theorem step_mono {e : Env} {m : Msg} {k k' : Nat} {rs rs' : List Rcv} {o : Out} (h : Step e m k rs' o) (hl : rs'.length < rs.length) :
    o = answer e m ∨ ∃ s' l k', o = .wait s' l ∧ Inv e m s' k' ∧ dataOf l = m.text.drop k' ∧ Plain l ∧ l.length < rs.length := by
  rcases h with h | ⟨s', l, k', h1, h2, h3, h4, h5⟩
  · exact Or.inl h
  · exact Or.inr ⟨s', l, k', h1, h2, h3, h4, by omega⟩

theorem handle_step (e : Env) (m : Msg) (hg : m.Good) (s : St) (k : Nat) (rs : List Rcv) (hi : Inv e m s k) (hp : Plain rs)
    (hd : dataOf rs = m.text.drop k) (hr : rs ≠ []) :
    handle e s rs = answer e m ∨ ∃ s' l k', handle e s rs = .wait s' l ∧ Inv e m s' k' ∧ dataOf l = m.text.drop k' ∧ Plain l ∧ l.length < rs.length := by
  have hkT := inv_lt hi
  have hL := text_length m
  unfold handle
  by_cases hsd : s.discard = true
  · rw [if_pos hsd]
    cases hi with
    | line => simp at hsd
    | header => simp at hsd
    | body => simp at hsd
    | discard b k a1 a2 a3 a4 a5 a6 =>
      obtain ⟨h1, h2⟩ := body_step e m hg ⟨b, .body, true, true, some m.line, m.header, true, k - m.nH⟩ k rs hp hd a1 (by omega) a3 a4 rfl rfl rfl rfl
        (by intro h; omega) (by intro _; rfl)
      rcases h1 with h1 | ⟨s', l, k', g1, g2, g3, g4, g5⟩
      · exact Or.inl h1
      · exact Or.inr ⟨s', l, k', g1, g2, g3, g4, h2 rfl hr _ _ g1⟩
  · rw [if_neg hsd]
    obtain ⟨o, t, rs', er, g1, g2, g3, g4, g5⟩ := receive_plain rs s false hp (by simpa using hsd)
    have g4 := g4 hr
    have hd' : m.text.drop k = t ++ dataOf rs' := by rw [← hd, g1]
    have hd2 : dataOf rs' = m.text.drop (k + t.length) := by rw [← List.drop_drop, hd', List.drop_left]
    have hkt : k + t.length ≤ m.text.length := by
      have := congrArg List.length hd'
      rw [List.length_drop, List.length_append] at this; omega
    rw [er]
    rcases g5 with rfl | ⟨rfl, rfl, _⟩
    · simp only
      have htake := take_add _ _ _ _ hd'
      cases hi with
      | line k a1 =>
        simp only [got, ← htake, has_take _ _ _ _ (search_text2 m hg), has_take _ _ _ _ (search_text4 m hg), Bool.false_or]
        have hX : ∀ n, k < n → (!t.isEmpty && decide (n ≤ k + t.length)) = decide (n ≤ k + t.length) := by
          intro n hn
          cases t with
          | nil => simp; omega
          | cons a t => simp
        rw [hX _ a1, hX m.nH (by simp only [Msg.nH]; omega)]
        exact step_mono (k' := 0) (line_step e m hg _ _ _ (k + t.length) rs' g2 hd2 hkt rfl rfl) g4
      | header k a1 a2 =>
        have hnL : m.nL ≤ (m.text.take k).length := by rw [List.length_take]; omega
        have hbuf : (m.text.take k).drop m.nL ++ t = (m.text.take (k + t.length)).drop m.nL := by
          rw [htake, List.drop_append_of_le_length hnL]
        have h4 : has b!"\r\n\r\n" ((m.text.take (k + t.length)).drop m.nL) = decide (m.nH ≤ k + t.length) := by
          rw [List.drop_take, has_take _ _ _ _ (search_hdrs4 m hg)]
          simp only [Msg.nH]
          congr 1
          simp only [eq_iff_iff]; omega
        simp only [got, hbuf, h4, Bool.true_or, Bool.false_or]
        have hX : (!t.isEmpty && decide (m.nH ≤ k + t.length)) = decide (m.nH ≤ k + t.length) := by
          cases t with
          | nil => simp; omega
          | cons a t => simp
        rw [hX]
        exact step_mono (k' := 0) (header_step e m hg _ _ (k + t.length) rs' g2 hd2 (by omega) hkt rfl) g4
      | body k d a1 a2 a3 a4 a5 a6 =>
        have hnH : m.nH ≤ (m.text.take k).length := by rw [List.length_take]; omega
        have hbuf : (m.text.take k).drop m.nH ++ t = (m.text.take (k + t.length)).drop m.nH := by
          rw [htake, List.drop_append_of_le_length hnH]
        simp only [got, hbuf, Bool.true_or]
        refine step_mono (k' := 0) (body_step e m hg _ (k + t.length) rs' g2 hd2 (by omega) hkt a3 a4 rfl rfl rfl rfl ?_ ?_).1 g4
        · intro _; exact ⟨rfl, rfl⟩
        · intro h; omega
      | discard => simp at hsd
    · simp only [got_nil]
      exact Or.inr ⟨s, rs', k, rfl, hi, by simpa using hd2, g2, g4⟩

theorem serve_answer (e : Env) (m : Msg) (hg : m.Good) : ∀ (n : Nat) (s : St) (k : Nat) (rs : List Rcv), rs.length ≤ n → Inv e m s k →
    Plain rs → dataOf rs = m.text.drop k → serve e n s rs = answer e m := by
  intro n
  induction n with
  | zero =>
    intro s k rs hn hi hp hd
    have e1 : rs = [] := List.eq_nil_of_length_eq_zero (by omega)
    subst e1
    have h1 := congrArg List.length hd
    have h2 := inv_lt hi
    rw [List.length_drop] at h1
    simp [dataOf] at h1; omega
  | succ n ih =>
    intro s k rs hn hi hp hd
    have hr : rs ≠ [] := by
      rintro rfl
      have h1 := congrArg List.length hd
      have h2 := inv_lt hi
      rw [List.length_drop] at h1
      simp [dataOf] at h1; omega
    unfold serve
    rw [if_neg hr]
    rcases handle_step e m hg s k rs hi hp hd hr with h | ⟨s', l, k', h1, h2, h3, h4, h5⟩
    · rw [h]
      have : ∀ s l, answer e m ≠ .wait s l := by
        intro s l
        unfold answer
        split <;> (try split) <;> (try split) <;> (try split) <;> simp
      cases ha : answer e m with
      | wait s l => exact absurd ha (this s l)
      | _ => rfl
    · rw [h1]
      exact ih s' k' l (by omega) h2 h4 h3

theorem connection_answer (e : Env) (m : Msg) (hg : m.Good) (rs : List Rcv) (hp : Plain rs) (hd : dataOf rs = m.text) :
    connection e rs = answer e m := by
  refine serve_answer e m hg _ _ 0 rs (Nat.le_refl _) ?_ hp (by simpa using hd)
  have := Inv.line (e := e) (m := m) 0 (by simp [Msg.nL])
  simpa [St.init] using this

end Fly.ReqEvent
