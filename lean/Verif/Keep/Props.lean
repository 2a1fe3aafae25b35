import Verif.Keep.Spec

/-! # C115, C116: persistent connections -/

namespace Fly.Keep
open ReqEvent
open Req (ReqLine)

/-! ## The results left are those the handler's own account of waiting gives -/

theorem discardLeft_wait (e : Env) (s : St) (rs : List Rcv) (s' : St) (l : List Rcv) (h : ReqEvent.discard e s rs = .wait s' l) : discardLeft s rs = l := by
  unfold ReqEvent.discard at h
  unfold discardLeft
  simp only at h
  split at h
  · cases h
  · rename_i hn
    rw [if_neg hn]
    split at h
    · cases h
    · cases h
    · rename_i heq
      rw [heq]
      split at h
      · injection h
      · cases h

theorem bodyLeft_wait (e : Env) (s : St) (rs : List Rcv) (s' : St) (l : List Rcv) (h : body e s rs = .wait s' l) : bodyLeft e s rs = l := by
  unfold body at h
  unfold bodyLeft
  split at h
  · cases h
  · rename_i l' hl
    rw [if_neg (by rw [hl]; simp)]
    simp only at h
    split at h
    · unfold build at h
      simp only at h
      split at h <;> cases h
    · rename_i hx
      rw [if_neg hx]
      split at h
      · rename_i hm
        rw [if_pos hm]
        exact discardLeft_wait e _ rs s' l h
      · rename_i hm
        rw [if_neg hm]
        split at h
        · injection h
        · unfold finish at h
          split at h
          · cases h
          · unfold build at h; simp only at h; split at h <;> cases h

theorem build_ne_wait (l : Option ReqLine) (r : Reply) (s : St) (x : List Rcv) : build l r ≠ .wait s x := by
  unfold build; cases l with
  | none => simp
  | some l => simp only; split <;> simp

theorem finish_ne_wait (e : Env) (l : ReqLine) (h : Header.HList) (b : Option Bytes) (s : St) (x : List Rcv) : finish e l h b ≠ .wait s x := by
  unfold finish; split
  · simp
  · exact build_ne_wait _ _ _ _

theorem headerLeft_wait (e : Env) (s : St) (rs : List Rcv) (s' : St) (l : List Rcv) (h : header e s rs = .wait s' l) : headerLeft e s rs = l := by
  unfold header at h
  unfold headerLeft
  simp only at h
  split at h
  · rename_i hg; rw [if_pos hg]; injection h
  · rename_i hg
    rw [if_neg hg]
    split at h
    · rename_i hb; rw [if_pos hb]; injection h
    · rename_i hb
      rw [if_neg hb]
      split at h
      · cases h
      · exact absurd h (build_ne_wait _ _ _ _)
      · rename_i heq; rw [heq]; injection h
      · rename_i hd rest heq
        rw [heq]
        simp only at h ⊢
        split at h
        · exact absurd h (build_ne_wait _ _ _ _)
        · exact absurd h (build_ne_wait _ _ _ _)
        · cases h
        · rename_i hn
          rw [if_neg (by simp [hn])]
          split at h
          · split at h
            · cases h
            · exact absurd h (finish_ne_wait _ _ _ _ _ _)
          · rename_i hc
            rw [if_neg hc]
            exact bodyLeft_wait e _ rs s' l h

theorem lineLeft_wait (e : Env) (s : St) (rs : List Rcv) (s' : St) (l : List Rcv) (h : line e s rs = .wait s' l) : lineLeft e s rs = l := by
  unfold line at h
  unfold lineLeft
  simp only at h
  split at h
  · rename_i hs; rw [hs]; injection h
  · rename_i n hs
    rw [hs]
    simp only
    split at h
    · exact absurd h (build_ne_wait _ _ _ _)
    · rename_i hn
      rw [if_neg hn]
      split at h
      · cases h
      · cases h
      · rename_i heq
        rw [heq]
        exact headerLeft_wait e _ rs s' l h

/-- Whenever the handler waits, the results left are the ones it says. -/
theorem handleLeft_wait (e : Env) (s : St) (rs : List Rcv) (s' : St) (l : List Rcv) (h : handle e s rs = .wait s' l) : handleLeft e s rs = l := by
  unfold handle at h
  unfold handleLeft
  split at h
  · rename_i hd; rw [if_pos hd]; exact bodyLeft_wait e s rs s' l h
  · rename_i hd
    rw [if_neg hd]
    split at h
    · cases h
    · cases h
    · rename_i heq; rw [heq]; injection h
    · cases h
    · rename_i heq
      rw [heq]
      simp only
      split at h
      · rename_i hf; rw [hf]; exact lineLeft_wait e _ _ s' l h
      · rename_i hf; rw [hf]; exact headerLeft_wait e _ _ s' l h
      · rename_i hf; rw [hf]; exact bodyLeft_wait e _ _ s' l h

/-! ## One request -/

theorem Within.whole {e : Env} {m : Msg} (h : Within e m) : Whole e m := ⟨h.good, .inl h.nego, h.plain, h.fits⟩

theorem bodyLeft_within (e : Env) (m : Msg) (hw : Whole e m) (s : St) (rs : List Rcv) (hs : s.header = m.header) : bodyLeft e s rs = rs := by
  unfold bodyLeft
  rw [hs, bodyLength_eq m hw.good, hw.plain]
  have := hw.fits
  split
  · rfl
  · rw [if_neg (by simp), if_neg (by omega)]

theorem headerLeft_within (e : Env) (m : Msg) (hw : Whole e m) (f : Fase) (gh : Bool) (k : Nat) (rs : List Rcv) (hgh : gh = decide (m.nH ≤ k)) :
    headerLeft e ⟨(m.text.take k).drop m.nL, f, true, gh, some m.line, Header.HList.init, false, 0⟩ rs = rs := by
  unfold headerLeft
  by_cases hk : m.nH ≤ k
  · have : gh = true := by simp [hgh, hk]
    subst this
    simp only [Bool.not_true, Bool.false_eq_true, if_false]
    split
    · rfl
    · rw [header_text m hw.good k hk]
      simp only
      split
      · rfl
      · split
        · rfl
        · exact bodyLeft_within e m hw _ rs rfl
  · have : gh = false := by simp [hgh]; omega
    subst this
    simp

theorem lineLeft_within (e : Env) (m : Msg) (hw : Whole e m) (f : Fase) (gl gh : Bool) (k : Nat) (rs : List Rcv) (hgl : gl = decide (m.nL ≤ k)) (hgh : gh = decide (m.nH ≤ k)) :
    lineLeft e ⟨m.text.take k, f, gl, gh, none, Header.HList.init, false, 0⟩ rs = rs := by
  unfold lineLeft
  simp only
  rw [search_take _ _ _ _ (search_text2 m hw.good)]
  by_cases hk : m.nL ≤ k
  · rw [if_pos hk]
    simp only
    split
    · rfl
    · rw [List.take_take, Nat.min_eq_left hk, parse_text m hw.good]
      have : gl = true := by simp [hgl, hk]
      rw [this]
      exact headerLeft_within e m hw .line gh k rs hgh
  · rw [if_neg hk]

theorem body_early (e : Env) (m : Msg) (hw : Whole e m) (s : St) (k : Nat) (rs : List Rcv) (hk : m.nH ≤ k) (hk2 : k < m.text.length) (h1 : s.line = some m.line)
    (h2 : s.header = m.header) (h3 : s.buf = (m.text.take k).drop m.nH) : ∃ s', body e s rs = .wait s' rs := by
  have hL := text_length m
  have hf := hw.fits
  unfold body
  rw [h1]
  simp only [h2, bodyLength_eq m hw.good, hw.plain, Bool.false_eq_true, if_false]
  rw [if_neg (by omega), if_pos (by right; rw [h3, List.length_drop, List.length_take]; omega)]
  exact ⟨_, rfl⟩

theorem header_early (e : Env) (m : Msg) (hw : Whole e m) (f : Fase) (gh : Bool) (k : Nat) (rs : List Rcv) (hk2 : k < m.text.length) (hgh : gh = decide (m.nH ≤ k)) :
    ∃ s', header e ⟨(m.text.take k).drop m.nL, f, true, gh, some m.line, Header.HList.init, false, 0⟩ rs = .wait s' rs := by
  have hL := text_length m
  have hb := hw.good.body
  unfold header
  by_cases hk : m.nH ≤ k
  · have : gh = true := by simp [hgh, hk]
    subst this
    simp only [Bool.not_true, Bool.false_eq_true, if_false]
    rw [if_neg (by intro h0; have := congrArg List.length h0; rw [List.length_drop, List.length_take] at this; simp only [Msg.nH] at *; simp at this; omega),
      header_text m hw.good k hk]
    have hne : e.nego m.header = .ok := hw.nego.resolve_right fun h => by have := congrArg List.length h.1; simp only [List.length_nil] at this; omega
    simp only [List.dropLast_concat, hne]
    rw [if_neg (by omega)]
    exact body_early e m hw _ k rs hk hk2 rfl rfl rfl
  · have : gh = false := by simp [hgh]; omega
    subst this
    exact ⟨_, rfl⟩

theorem line_early (e : Env) (m : Msg) (hw : Whole e m) (f : Fase) (gl gh : Bool) (k : Nat) (rs : List Rcv) (hk2 : k < m.text.length) (hgl : gl = decide (m.nL ≤ k))
    (hgh : gh = decide (m.nH ≤ k)) : ∃ s', line e ⟨m.text.take k, f, gl, gh, none, Header.HList.init, false, 0⟩ rs = .wait s' rs := by
  have hs := hw.good.short
  unfold line
  simp only
  rw [search_take _ _ _ _ (search_text2 m hw.good)]
  by_cases hk : m.nL ≤ k
  · rw [if_pos hk]
    simp only
    rw [if_neg (by simp [Msg.nL] at *; omega), List.take_take, Nat.min_eq_left hk, parse_text m hw.good]
    have : gl = true := by simp [hgl, hk]
    rw [this]
    exact header_early e m hw .line gh k rs hk2 hgh
  · rw [if_neg hk]; exact ⟨_, rfl⟩

/-- A call that does not wait has taken the whole request and nothing else, and has not refused the line. -/
theorem handle_end (e : Env) (m : Msg) (hw : Whole e m) (s : St) (k : Nat) (rs : List Rcv) (hi : Inv e m s k) (hp : Plain rs)
    (hd : dataOf rs = m.text.drop k) (hr : rs ≠ []) (hno : ∀ s' l, handle e s rs ≠ .wait s' l) :
    dataOf (handleLeft e s rs) = [] ∧ Plain (handleLeft e s rs) ∧ (handleLeft e s rs).length < rs.length ∧ refusedLine s rs = false := by
  have hfit := hw.fits
  have hL := text_length m
  have hsd : s.discard = false := by
    cases hi with
    | discard _ _ _ _ _ _ _ h => omega
    | _ => rfl
  obtain ⟨o, t, rs', er, g1, g2, g3, g4, g5⟩ := receive_plain rs s false hp hsd
  have g4 := g4 hr
  have hd' : m.text.drop k = t ++ dataOf rs' := by rw [← hd, g1]
  have hd2 : dataOf rs' = m.text.drop (k + t.length) := by rw [← List.drop_drop, hd', List.drop_left]
  have hkt : k + t.length ≤ m.text.length := by
    have := congrArg List.length hd'
    have := inv_lt hi
    simp only [List.length_drop, List.length_append] at *; omega
  have htake := take_add _ _ _ _ hd'
  unfold handle at hno
  rw [hsd, er] at hno
  simp only [Bool.false_eq_true, if_false] at hno
  rcases g5 with rfl | ⟨rfl, rfl, _⟩
  · have fin : k + t.length = m.text.length → dataOf rs' = [] := by
      intro h; rw [hd2, h, List.drop_length]
    have done : handleLeft e s rs = rs' ∧ k + t.length = m.text.length ∧ refusedLine s rs = false := by
      unfold handleLeft refusedLine
      rw [hsd, er]
      simp only [Bool.false_eq_true, if_false, Bool.not_false, Bool.true_and]
      cases hi with
      | line k a1 =>
        have hX : ∀ n, k < n → (!t.isEmpty && decide (n ≤ k + t.length)) = decide (n ≤ k + t.length) := by
          intro n hn
          cases t with
          | nil => simp; omega
          | cons a t => simp
        simp only [got, ← htake, has_take _ _ _ _ (search_text2 m hw.good), has_take _ _ _ _ (search_text4 m hw.good), Bool.false_or] at hno ⊢
        rw [hX _ a1, hX m.nH (by simp only [Msg.nH]; omega)] at hno ⊢
        refine ⟨lineLeft_within e m hw _ _ _ _ rs' rfl rfl, ?_, ?_⟩
        · by_cases h : k + t.length < m.text.length
          · obtain ⟨s', h'⟩ := line_early e m hw .line _ _ (k + t.length) rs' h rfl rfl
            exact absurd h' (hno _ _)
          · omega
        · rw [search_take _ _ _ _ (search_text2 m hw.good)]
          by_cases hk : m.nL ≤ k + t.length
          · rw [if_pos hk]
            simp only
            rw [List.take_take, Nat.min_eq_left hk, parse_text m hw.good]
            simp
          · rw [if_neg hk]; simp
      | header k a1 a2 =>
        have hnL : m.nL ≤ (m.text.take k).length := by rw [List.length_take]; omega
        have hbuf : (m.text.take k).drop m.nL ++ t = (m.text.take (k + t.length)).drop m.nL := by
          rw [htake, List.drop_append_of_le_length hnL]
        have h4 : has b!"\r\n\r\n" ((m.text.take (k + t.length)).drop m.nL) = decide (m.nH ≤ k + t.length) := by
          rw [List.drop_take, has_take _ _ _ _ (search_hdrs4 m hw.good)]
          simp only [Msg.nH]
          congr 1
          simp only [eq_iff_iff]; omega
        have hX : (!t.isEmpty && decide (m.nH ≤ k + t.length)) = decide (m.nH ≤ k + t.length) := by
          cases t with
          | nil => simp; omega
          | cons a t => simp
        simp only [got, hbuf, h4, Bool.true_or, Bool.false_or] at hno ⊢
        rw [hX] at hno ⊢
        refine ⟨headerLeft_within e m hw _ _ _ rs' rfl, ?_, by simp⟩
        by_cases h : k + t.length < m.text.length
        · obtain ⟨s', h'⟩ := header_early e m hw .header _ (k + t.length) rs' h rfl
          exact absurd h' (hno _ _)
        · omega
      | body k d a1 a2 a3 a4 a5 a6 =>
        have hnH : m.nH ≤ (m.text.take k).length := by rw [List.length_take]; omega
        have hbuf : (m.text.take k).drop m.nH ++ t = (m.text.take (k + t.length)).drop m.nH := by
          rw [htake, List.drop_append_of_le_length hnH]
        simp only [got, hbuf, Bool.true_or] at hno ⊢
        refine ⟨bodyLeft_within e m hw _ rs' rfl, ?_, by simp⟩
        by_cases h : k + t.length < m.text.length
        · obtain ⟨s', h'⟩ := body_early e m hw ⟨(m.text.take (k + t.length)).drop m.nH, .body, true, true, some m.line, m.header, false, d⟩ (k + t.length) rs' (by omega) h rfl rfl rfl
          exact absurd h' (hno _ _)
        · omega
      | discard => simp at hsd
    obtain ⟨d1, d2, d3⟩ := done
    rw [d1]
    exact ⟨fin d2, g2, g4, d3⟩
  · exact absurd rfl (hno _ _)

theorem dataless (e : Env) (app : Reply → Bool) : ∀ (f : Nat) (rs : List Rcv), rs.length ≤ f → Plain rs → dataOf rs = [] → round e app f St.init rs = ([], .open St.init)
  | 0, rs, _, _, _ => rfl
  | f + 1, [], _, _, _ => rfl
  | f + 1, r :: rs, hl, hp, hd => by
    rcases hp r (by simp) with rfl | ⟨bs, hbs, rfl⟩
    · have : handle e St.init (.block :: rs) = .wait St.init rs := rfl
      rw [round, if_neg (by simp), this]
      exact dataless e app f rs (by simpa using hl) (fun x hx => hp x (by simp [hx])) (by simpa [dataOf] using hd)
    · exfalso
      simp [dataOf] at hd
      exact hbs hd.1

/-- The answer to a request within the limits. -/
def replyTo (e : Env) (m : Msg) : Reply := select e m.line m.header (if Header.contentLength m.header = 0 then none else some m.body)

theorem answer_within (e : Env) (m : Msg) (hw : Within e m) : answer e m = .reply (replyTo e m) := by
  unfold answer replyTo
  have := hw.fits
  rw [hw.nego, hw.plain]
  simp only [Bool.false_eq_true, if_false]
  split
  · rfl
  · rw [if_neg (by omega)]

theorem next_within (e : Env) (app : Reply → Bool) (m : Msg) (hw : Within e m) (hk : Kept e app m) : next app false (replyTo e m) = .again := by
  cases h : replyTo e m with
  | handler i l hh b =>
    have := hk i l hh b (by rw [answer_within e m hw, h])
    simp [next, this]
  | file => rfl
  | status n =>
    have hn : n = 404 ∨ n = 405 ∨ n = 304 := by
      unfold replyTo at h
      generalize (if Header.contentLength m.header = 0 then none else some m.body) = b at h
      unfold select at h
      split at h
      · cases h
      · split at h
        · injection h with h; exact .inl h.symm
        · split at h
          · injection h with h; exact .inr (.inl h.symm)
          · split at h
            · injection h with h; exact .inl h.symm
            · split at h
              · injection h with h; exact .inr (.inr h.symm)
              · cases h
    rcases hn with rfl | rfl | rfl <;> rfl

/-- One request in a round: its answer; then what `next` says. -/
theorem round_one (e : Env) (app : Reply → Bool) (m : Msg) (hw : Whole e m) (r : Reply) (ha : answer e m = .reply r) : ∀ (n : Nat) (s : St) (k : Nat) (rs : List Rcv), rs.length ≤ n → Inv e m s k → Plain rs →
    dataOf rs = m.text.drop k → round e app n s rs =
      ([r], match next app false (r) with | .again => .open St.init | .close => .closed | .undef => .failed) := by
  intro n
  induction n with
  | zero =>
    intro s k rs hn hi hp hd
    have e1 : rs = [] := List.eq_nil_of_length_eq_zero (by omega)
    subst e1
    have h1 := congrArg List.length hd
    have h2 := inv_lt hi
    rw [List.length_drop] at h1
    simp [dataOf] at h1; omega
  | succ n ih =>
    intro s k rs hn hi hp hd
    have hr : rs ≠ [] := by
      rintro rfl
      have h1 := congrArg List.length hd
      have h2 := inv_lt hi
      rw [List.length_drop] at h1
      simp [dataOf] at h1; omega
    unfold round
    rw [if_neg hr]
    rcases handle_step e m hw.good s k rs hi hp hd hr with h | ⟨s', l, k', h1, h2, h3, h4, h5⟩
    · have hno : ∀ s' l, handle e s rs ≠ .wait s' l := by
        intro s' l; rw [h, ha]; simp
      obtain ⟨d1, d2, d3, d4⟩ := handle_end e m hw s k rs hi hp hd hr hno
      rw [h, ha]
      simp only
      rw [d4]
      cases hx : next app false (r) with
      | again =>
        simp only
        rw [show reuse s = St.init from rfl, dataless e app n _ (by omega) d2 d1]
      | close => rfl
      | undef => rfl
    · rw [h1]
      exact ih s' k' l (by omega) h2 h4 h3

theorem round_whole (e : Env) (app : Reply → Bool) (m : Msg) (hw : Whole e m) (r : Reply) (hr : answer e m = .reply r) (rs : List Rcv) (ha : Arrives m rs) :
    round e app rs.length St.init rs =
      ([r], match next app false (r) with | .again => .open St.init | .close => .closed | .undef => .failed) := by
  refine round_one e app m hw r hr _ _ 0 rs (Nat.le_refl _) ?_ ha.1 (by simpa using ha.2)
  have := Inv.line (e := e) (m := m) 0 (by simp [Msg.nL])
  simpa [St.init] using this

theorem round_arrives (e : Env) (app : Reply → Bool) (m : Msg) (hw : Within e m) (rs : List Rcv) (ha : Arrives m rs) :
    round e app rs.length St.init rs =
      ([replyTo e m], match next app false (replyTo e m) with | .again => .open St.init | .close => .closed | .undef => .failed) :=
  round_whole e app m hw.whole _ (answer_within e m hw) rs ha

/-- A request that is read to its end is answered, and the connection is kept. -/
theorem next_whole (e : Env) (app : Reply → Bool) (m : Msg) (hw : Whole e m) (hk : Kept e app m) :
    ∃ r, answer e m = .reply r ∧ next app false r = .again := by
  cases hn : e.nego m.header with
  | ok =>
    have hw' : Within e m := ⟨hw.good, hn, hw.plain, hw.fits⟩
    exact ⟨_, answer_within e m hw', next_within e app m hw' hk⟩
  | syntaxError => exact ⟨.status 400, by simp only [answer, hn], rfl⟩
  | notAcceptable => exact ⟨.status 406, by simp only [answer, hn], rfl⟩
  | error => exact absurd hn (hw.nego.elim (fun h => by rw [h]; simp) (·.2))

/-! ## C115 -/

/-- **C115** *(partial)*.  A client that waits for each response before it sends the next request gets the answers to all its requests, one for each, in order, for any number of
requests, however each of them arrives; then the connection is open for another.  Each answer is the one the request gets on a connection of its own.
Requests that are refused for their header are among them if they have no body.
Missing: clients that do not wait, and requests that are refused before their body was read, refuted below. -/
theorem C115_answers_in_order_partial (e : Env) (app : Reply → Bool) (ms : List (Msg × List Rcv))
    (h : ∀ p ∈ ms, Whole e p.1 ∧ Kept e app p.1 ∧ Arrives p.1 p.2) :
    (session e app St.init (ms.map (·.2))).1.map .reply = ms.map (fun p => answer e p.1) ∧ (session e app St.init (ms.map (·.2))).2 = .open St.init := by
  induction ms with
  | nil => exact ⟨rfl, rfl⟩
  | cons p ms ih =>
    obtain ⟨h1, h2, h3⟩ := h p (by simp)
    have ih := ih (fun q hq => h q (by simp [hq]))
    obtain ⟨r, ha, hn⟩ := next_whole e app p.1 h1 h2
    have hr := round_whole e app p.1 h1 r ha p.2 h3
    rw [hn] at hr
    simp only [List.map_cons]
    rw [session, hr]
    simp only
    refine ⟨?_, ih.2⟩
    rw [List.map_append, ih.1, List.map_singleton, ha]
    rfl

/-- A request for a file. -/
def sampleGet : Msg := ⟨b!"GET /f HTTP/1.1", ⟨.get, b!"/f", none, .v1_1⟩, [b!"Connection: close"], [(b!"Connection", b!"close")], []⟩

theorem sampleGet_good : sampleGet.Good where
  line := by
    refine ⟨0, 0, 1, b!"/f", .origin .get b!"/f" [] none (by decide) ⟨?_, rfl⟩ .absent, rfl⟩
    exact .byte _ _ (by simp [Req.PathByte]) <| .byte _ _ (by simp [Req.PathByte, Req.RfcPchar, Req.RfcUnreserved]) .nil
  version := rfl
  cr := by decide
  short := by decide
  some := by decide
  plain := by decide
  fields := by
    refine .field _ b!"Connection" b!"close" _ _ ⟨b!" ", b!"\r", rfl, ?_, by simp, ?_, ?_, ?_, Or.inl rfl⟩ .nil <;>
      simp [ReqHeader.NameByte, ReqHeader.ValueByte, ReqHeader.Blank]
  body := by decide +kernel
  fits := by decide

theorem sampleGet_within : Within (sampleEnv 100) sampleGet := ⟨sampleGet_good, rfl, by decide +kernel, by decide⟩

theorem sample_within : Within (sampleEnv 100) sample := ⟨sample_good, rfl, by decide +kernel, by decide⟩

theorem arrives_whole (m : Msg) (h : m.text ≠ []) : Arrives m [.data m.text false] :=
  ⟨fun r hr => by simp at hr; exact .inr ⟨_, h, hr⟩, by simp [dataOf]⟩

example : Within (sampleEnv 100) sample ∧ Kept (sampleEnv 100) (fun _ => true) sample ∧ Arrives sample [.data sample.text false] ∧
    Within (sampleEnv 100) sampleGet ∧ Kept (sampleEnv 100) (fun _ => true) sampleGet ∧ Arrives sampleGet [.data sampleGet.text false] :=
  ⟨sample_within, fun _ _ _ _ _ => rfl, arrives_whole _ (by decide), sampleGet_within, fun _ _ _ _ _ => rfl, arrives_whole _ (by decide)⟩

/-- The head of a message followed by anything. -/
theorem head_facts (m : Msg) (hg : m.Good) (x : Bytes) :
    search b!"\r\n" b!"\r\n" 0 (m.text ++ x) = some m.nL ∧ search b!"\r\n\r\n" b!"\r\n\r\n" 0 (m.text ++ x) = some m.nH ∧
    Req.parseReqline ((m.text ++ x).take m.nL) = .ok m.line ∧
    ReqHeader.headerOperation ((m.text ++ x).drop m.nL) = .ok m.header (m.body ++ x ++ [0]) := by
  have hL := text_length m
  refine ⟨search_append _ _ _ _ _ _ (search_text2 m hg), search_append _ _ _ _ _ _ (search_text4 m hg), ?_, ?_⟩
  · rw [List.take_append_of_le_length (by simp only [Msg.nH] at hL; omega)]
    exact parse_text m hg
  · rw [List.drop_append_of_le_length (by simp only [Msg.nH] at hL; omega), text_drop_nL, Msg.hdrs, hdrs_lines]
    have := ReqHeader.C69_header_fields_exact _ _ (m.body ++ x) hg.fields (by
      intro y hy
      obtain ⟨z, hz, rfl⟩ := List.mem_map.1 hy
      obtain ⟨h1, h2, h3, h4⟩ := hg.plain z hz
      refine ⟨by simp [h3], by simp [h4], ?_⟩
      cases z with
      | nil => simp at h1
      | cons a z =>
        intro he
        rcases he with he | he <;> simp at he
        simp at h2; omega)
    simpa [Msg.header] using this

/-- What the handler makes of a request within the limits that comes in one piece with other bytes behind it. -/
theorem handle_whole (e : Env) (m : Msg) (hw : Within e m) (x : Bytes) (rs : List Rcv) :
    handle e St.init (.data (m.text ++ x) false :: rs) = .reply (replyTo e m) ∧ handleLeft e St.init (.data (m.text ++ x) false :: rs) = rs ∧
    refusedLine St.init (.data (m.text ++ x) false :: rs) = false := by
  obtain ⟨f1, f2, f3, f4⟩ := head_facts m hw.good x
  have hL := text_length m
  have hs := hw.good.short
  have hb := hw.good.body
  have hfit := hw.fits
  have hne : (m.text ++ x).drop m.nL ≠ [] := by
    intro h0
    have := congrArg List.length h0
    rw [List.length_drop, List.length_append] at this
    simp only [Msg.nH, List.length_nil] at *
    omega
  have e1 : ((m.body ++ x) ++ [0]).dropLast = m.body ++ x := List.dropLast_concat
  refine ⟨?_, ?_, ?_⟩
  · simp only [handle, receive, St.init, has, List.nil_append, f1, f2, Bool.false_eq_true, if_false, Bool.not_false, Bool.true_and,
      Option.isSome, if_true, Bool.false_or, line, Bool.or_true]
    rw [if_neg (by simp only [Msg.nL]; omega), f3]
    simp only [header, Bool.not_true, Bool.false_eq_true, if_false]
    rw [if_neg hne, f4]
    simp only [e1, hw.nego]
    unfold replyTo
    by_cases hc : Header.contentLength m.header = 0
    · rw [if_pos hc, if_pos hc]
      exact finish_v1 _ _ _ _ hw.good.version
    · rw [if_neg hc, if_neg hc]
      simp only [body, hw.plain, Bool.false_eq_true, if_false, bodyLength_eq m hw.good]
      rw [if_neg (by omega), if_neg (by
        intro h
        rcases h with h | h
        · have := congrArg List.length h; simp at this; rw [this.1] at hb; simp at hb; omega
        · rw [List.length_append] at h; omega), List.take_append_of_le_length (Nat.le_refl _), List.take_length]
      exact finish_v1 _ _ _ _ hw.good.version
  · simp only [handleLeft, receive, St.init, has, List.nil_append, f1, f2, Bool.false_eq_true, if_false, Bool.not_false, Bool.true_and,
      Option.isSome, if_true, Bool.false_or, lineLeft, Bool.or_true]
    rw [if_neg (by simp only [Msg.nL]; omega), f3]
    simp only [headerLeft, Bool.not_true, Bool.false_eq_true, if_false]
    rw [if_neg hne, f4]
    simp only
    split
    · rfl
    · split
      · rfl
      · exact bodyLeft_within e m hw.whole _ rs rfl
  · simp only [refusedLine, receive, St.init, has, List.nil_append, f1, f2, Bool.false_eq_true, if_false, Bool.not_false, Bool.true_and,
      Option.isSome, if_true, Bool.false_or, Bool.or_true]
    rw [f3]; simp

/-- **C115 refuted** for clients that do not wait: everything that arrives together with a request, behind it, is thrown away.  Whatever requests follow in
the same piece, only the first is answered. -/
theorem C115_pipelined_lost_refuted (e : Env) (app : Reply → Bool) (m : Msg) (hw : Within e m) (hk : Kept e app m) (more : List Msg) :
    session e app St.init [[.data (m.text ++ (more.map Msg.text).flatten) false]] = ([replyTo e m], .open St.init) := by
  obtain ⟨h1, h2, h3⟩ := handle_whole e m hw (more.map Msg.text).flatten []
  have hr : round e app 1 St.init [.data (m.text ++ (more.map Msg.text).flatten) false] = ([replyTo e m], .open St.init) := by
    rw [round, if_neg (by simp), h1]
    simp only
    rw [h3, next_within e app m hw hk, h2]
    rfl
  rw [session, show ([Rcv.data (m.text ++ (more.map Msg.text).flatten) false] : List Rcv).length = 1 from rfl, hr]
  rfl

/-- Two requests sent together; one answer. -/
example : (session (sampleEnv 100) (fun _ => true) St.init [[.data (sampleGet.text ++ sample.text) false]]).1.length = 1 := by decide +kernel

/-- A request with a body that is refused for what its header says. -/
structure Refused (e : Env) (m : Msg) (n : Nat) : Prop where
  good : m.Good
  nego : (e.nego m.header = .notAcceptable ∧ n = 406) ∨ (e.nego m.header = .syntaxError ∧ n = 400)

/-- **C115 refuted** for requests that are refused for their header while their body is still on its way: the body is taken for the next request.  If it has the form of a request, that
request is carried out and answered. -/
theorem C115_body_taken_for_request_refuted (e : Env) (app : Reply → Bool) (m inner : Msg) (n : Nat) (hm : Refused e m n) (hb : m.body = inner.text) (hi : Within e inner)
    (hk : Kept e app inner) :
    session e app St.init [[.data (m.text.take m.nH) false, .data m.body false]] = ([.status n, replyTo e inner], .open St.init) := by
  have hL := text_length m
  have hs := hm.good.short
  have e2 := search_take _ _ m.nL m.nH (search_text2 m hm.good)
  rw [if_pos (by simp only [Msg.nH]; omega)] at e2
  have e4 := search_take _ _ m.nH m.nH (search_text4 m hm.good)
  rw [if_pos (Nat.le_refl _)] at e4
  have hne : (m.text.take m.nH).drop m.nL ≠ [] := by
    intro h0; have := congrArg List.length h0; rw [List.length_drop, List.length_take] at this; simp only [Msg.nH, List.length_nil] at *; omega
  have hp : Req.parseReqline ((m.text.take m.nH).take m.nL) = .ok m.line := by
    rw [List.take_take, Nat.min_eq_left (by simp only [Msg.nH]; omega)]; exact parse_text m hm.good
  have hh := header_text m hm.good m.nH (Nat.le_refl _)
  have h1 : handle e St.init [.data (m.text.take m.nH) false, .data m.body false] = .reply (.status n) := by
    simp only [handle, receive, St.init, has, List.nil_append, e2, e4, Bool.false_eq_true, if_false, Bool.not_false, Bool.true_and,
      Option.isSome, if_true, Bool.false_or, line, Bool.or_true]
    rw [if_neg (by simp only [Msg.nL]; omega), hp]
    simp only [header, Bool.not_true, Bool.false_eq_true, if_false]
    rw [if_neg hne, hh]
    simp only
    rcases hm.nego with ⟨h, rfl⟩ | ⟨h, rfl⟩ <;> rw [h] <;> exact build_v1 _ _ hm.good.version
  have h2 : handleLeft e St.init [.data (m.text.take m.nH) false, .data m.body false] = [.data m.body false] := by
    simp only [handleLeft, receive, St.init, has, List.nil_append, e2, e4, Bool.false_eq_true, if_false, Bool.not_false, Bool.true_and,
      Option.isSome, if_true, Bool.false_or, lineLeft, Bool.or_true]
    rw [if_neg (by simp only [Msg.nL]; omega), hp]
    simp only [headerLeft, Bool.not_true, Bool.false_eq_true, if_false]
    rw [if_neg hne, hh]
    simp only
    rw [if_pos (by rcases hm.nego with ⟨h, _⟩ | ⟨h, _⟩ <;> rw [h] <;> simp)]
  have h3 : refusedLine St.init [.data (m.text.take m.nH) false, .data m.body false] = false := by
    simp only [refusedLine, receive, St.init, has, List.nil_append, e2, e4, Bool.false_eq_true, if_false, Bool.not_false, Bool.true_and,
      Option.isSome, if_true, Bool.false_or, Bool.or_true]
    rw [hp]; simp
  have hn : next app false (.status n) = .again := by
    rcases hm.nego with ⟨_, rfl⟩ | ⟨_, rfl⟩ <;> rfl
  obtain ⟨i1, i2, i3⟩ := handle_whole e inner hi [] []
  rw [List.append_nil] at i1 i2 i3
  have hr : round e app 2 St.init [.data (m.text.take m.nH) false, .data m.body false] = ([.status n, replyTo e inner], .open St.init) := by
    rw [round, if_neg (by simp), h1]
    simp only
    rw [h3, hn, h2, show reuse St.init = St.init from rfl]
    simp only
    rw [round, if_neg (by simp), hb, i1]
    simp only
    rw [i3, next_within e app inner hi hk, i2]
    rfl
  rw [session, show ([Rcv.data (m.text.take m.nH) false, Rcv.data m.body false] : List Rcv).length = 2 from rfl, hr]
  rfl

/-- An upload with an Accept field that is refused; its content is a request. -/
def sampleUpload : Msg :=
  ⟨b!"POST /a HTTP/1.1", ⟨.post, b!"/a", none, .v1_1⟩, [b!"Accept: x", b!"Content-Length: 38"], [(b!"Accept", b!"x"), (b!"Content-Length", b!"38")], sampleGet.text⟩

def pickyEnv : Env := { sampleEnv 100 with nego := fun h => if h.items.any (fun f => f.name == some b!"accept") then .notAcceptable else .ok }

theorem sampleUpload_refused : Refused pickyEnv sampleUpload 406 where
  good :=
    { line := by
        refine ⟨0, 0, 1, b!"/a", .origin .post b!"/a" [] none (by decide) ⟨?_, rfl⟩ .absent, rfl⟩
        exact .byte _ _ (by simp [Req.PathByte]) <| .byte _ _ (by simp [Req.PathByte, Req.RfcPchar, Req.RfcUnreserved]) .nil
      version := rfl
      cr := by decide
      short := by decide
      some := by decide
      plain := by decide
      fields := by
        refine .field _ b!"Accept" b!"x" _ _ ⟨b!" ", b!"\r", rfl, ?_, by simp, ?_, ?_, ?_, Or.inl rfl⟩ <|
          .field _ b!"Content-Length" b!"38" _ _ ⟨b!" ", b!"\r", rfl, ?_, by simp, ?_, ?_, ?_, Or.inl rfl⟩ .nil <;>
          simp [ReqHeader.NameByte, ReqHeader.ValueByte, ReqHeader.Blank]
      body := by decide +kernel
      fits := by decide }
  nego := .inl ⟨by decide +kernel, rfl⟩

example : sampleUpload.body = sampleGet.text ∧ Within pickyEnv sampleGet :=
  ⟨rfl, sampleGet_good, by decide +kernel, by decide +kernel, by decide⟩

/-! ## C116 -/

/-- **C116**.  A response of the application that says `Connection: close` is the last one: the connection is closed, whatever the client sends after. -/
theorem C116_application_closes (e : Env) (app : Reply → Bool) (m : Msg) (hw : Within e m) (rs : List Rcv) (ha : Arrives m rs) (later : List (List Rcv))
    (i : Nat) (l : ReqLine) (h : Header.HList) (b : Option Bytes) (hr : answer e m = .reply (.handler i l h b)) (hc : app (.handler i l h b) = false) :
    session e app St.init (rs :: later) = ([.handler i l h b], .closed) := by
  have ht : replyTo e m = .handler i l h b := by
    have := answer_within e m hw
    rw [hr] at this
    injection this with this
    exact this.symm
  have hx := round_arrives e app m hw rs ha
  rw [ht] at hx
  simp only [next, hc, Bool.false_eq_true, if_false] at hx
  rw [session, hx]

example : answer (sampleEnv 100) sample = .reply (replyTo (sampleEnv 100) sample) ∧ ∃ i l h b, replyTo (sampleEnv 100) sample = .handler i l h b :=
  ⟨answer_within _ _ sample_within, 7, _, _, _, rfl⟩

/-- **C116 refuted** for clients: a client that sends `Connection: close` finds the connection still open after the answer, for every such request that is answered by
the server itself, or by an application that does not close the connection. -/
theorem C116_client_close_ignored_refuted (e : Env) (app : Reply → Bool) (m : Msg) (hw : Within e m) (hk : Kept e app m) (rs : List Rcv) (ha : Arrives m rs)
    (_ : (b!"Connection", b!"close") ∈ m.fields) : session e app St.init [rs] = ([replyTo e m], .open St.init) := by
  have hx := round_arrives e app m hw rs ha
  rw [next_within e app m hw hk] at hx
  rw [session, hx]
  rfl

example : Within (sampleEnv 100) sampleGet ∧ (b!"Connection", b!"close") ∈ sampleGet.fields := ⟨sampleGet_within, by simp [sampleGet]⟩

end Fly.Keep
