import Verif.Serve.Spec
import Verif.Trip.Props

/-! # A request that arrives while the worker looks at it again and again -/

namespace Fly.Serve
open ReqEvent (Rcv St Out Env Reply Msg Fase RecvOut receive build finish dataOf Plain Inv)
open Req (ReqLine)
open Keep (Within replyTo handleLeft refusedLine)

/-! ## `recv` that would block now and gives more later -/

/-- What one `receive` leaves of `… ++ [block, block] ++ more` where it leaves `l` of `…`. -/
def Ext1 (more l l' : List Rcv) : Prop := l' = l ++ .block :: .block :: more ∨ (l = [] ∧ l' = .block :: more)

/-- What two of them leave. -/
def Ext (more l l' : List Rcv) : Prop := Ext1 more l l' ∨ (l = [] ∧ l' = more)

theorem receive_ext1 (more : List Rcv) : ∀ (rs : List Rcv) (s : St) (tot : Bool),
    ∃ l', receive s tot (rs ++ .block :: .block :: more) = ((receive s tot rs).1, (receive s tot rs).2.1, l') ∧ Ext1 more (receive s tot rs).2.2 l'
  | [], s, tot => ⟨_, rfl, .inr ⟨rfl, rfl⟩⟩
  | .block :: rs, s, tot => ⟨_, rfl, .inl rfl⟩
  | .eof :: rs, s, tot => ⟨_, rfl, .inl rfl⟩
  | .err :: rs, s, tot => ⟨_, rfl, .inl rfl⟩
  | .data bs limit :: rs, s, tot => by
    simp only [List.cons_append, receive]
    split
    · exact receive_ext1 more rs _ _
    · split
      · exact ⟨_, rfl, .inl rfl⟩
      · split
        · exact ⟨_, rfl, .inl rfl⟩
        · exact receive_ext1 more rs _ _

theorem receive_ext (more : List Rcv) {rs rs' : List Rcv} (h : Ext1 more rs rs') (s : St) (tot : Bool) :
    ∃ l', receive s tot rs' = ((receive s tot rs).1, (receive s tot rs).2.1, l') ∧ Ext more (receive s tot rs).2.2 l' := by
  rcases h with rfl | ⟨rfl, rfl⟩
  · obtain ⟨l', e1, e2⟩ := receive_ext1 more rs s tot
    exact ⟨l', e1, .inl e2⟩
  · exact ⟨more, rfl, .inr ⟨rfl, rfl⟩⟩

def OutExt (more : List Rcv) (o o' : Out) : Prop :=
  (∃ s l l', o = .wait s l ∧ o' = .wait s l' ∧ Ext more l l') ∨ (o' = o ∧ ∀ s l, o ≠ .wait s l)

theorem ext_wait {more l l' : List Rcv} (h : Ext more l l') (s : St) : OutExt more (.wait s l) (.wait s l') := .inl ⟨s, l, l', rfl, rfl, h⟩

theorem ext_build (more : List Rcv) (l : Option ReqLine) (r : Reply) : OutExt more (build l r) (build l r) := .inr ⟨rfl, fun _ _ => Keep.build_ne_wait _ _ _ _⟩

theorem ext_finish (more : List Rcv) (e : Env) (l : ReqLine) (h : Header.HList) (b : Option Bytes) : OutExt more (finish e l h b) (finish e l h b) :=
  .inr ⟨rfl, fun _ _ => Keep.finish_ne_wait _ _ _ _ _ _⟩

theorem ext_const (more : List Rcv) {o : Out} (h : ∀ s l, o ≠ .wait s l) : OutExt more o o := .inr ⟨rfl, h⟩

theorem discard_ext (more : List Rcv) (e : Env) (s : St) {rs rs' : List Rcv} (h : Ext1 more rs rs') : OutExt more (ReqEvent.discard e s rs) (ReqEvent.discard e s rs') := by
  unfold ReqEvent.discard
  simp only
  split
  · exact ext_const _ (by simp)
  · obtain ⟨l', e1, e2⟩ := receive_ext more h { s with discard := true } false
    rw [e1]
    rcases hx : receive { s with discard := true } false rs with ⟨o, s2, l⟩
    rw [hx] at e2
    cases o <;> simp only <;> first | exact ext_const _ (by simp) | skip
    all_goals
      split
      · exact ext_wait e2 _
      · exact ext_const _ (by simp)

theorem discardLeft_ext (more : List Rcv) (s : St) {rs rs' : List Rcv} (h : Ext1 more rs rs') : Ext more (Keep.discardLeft s rs) (Keep.discardLeft s rs') := by
  unfold Keep.discardLeft
  split
  · exact .inl h
  · obtain ⟨l', e1, e2⟩ := receive_ext more h { s with discard := true } false
    rw [e1]
    exact e2

theorem body_ext (more : List Rcv) (e : Env) (s : St) {rs rs' : List Rcv} (h : Ext1 more rs rs') : OutExt more (ReqEvent.body e s rs) (ReqEvent.body e s rs') := by
  unfold ReqEvent.body
  split
  · exact ext_const _ (by simp)
  · simp only
    split
    · exact ext_build _ _ _
    · split
      · exact discard_ext more e _ h
      · split
        · exact ext_wait (.inl h) _
        · exact ext_finish _ _ _ _ _

theorem bodyLeft_ext (more : List Rcv) (e : Env) (s : St) {rs rs' : List Rcv} (h : Ext1 more rs rs') : Ext more (Keep.bodyLeft e s rs) (Keep.bodyLeft e s rs') := by
  unfold Keep.bodyLeft
  split
  · exact .inl h
  · split
    · exact .inl h
    · split
      · exact discardLeft_ext more _ h
      · exact .inl h

theorem header_ext (more : List Rcv) (e : Env) (s : St) {rs rs' : List Rcv} (h : Ext1 more rs rs') : OutExt more (ReqEvent.header e s rs) (ReqEvent.header e s rs') := by
  unfold ReqEvent.header
  simp only
  split
  · exact ext_wait (.inl h) _
  · split
    · exact ext_wait (.inl h) _
    · split
      · exact ext_const _ (by simp)
      · exact ext_build _ _ _
      · exact ext_wait (.inl h) _
      · split
        · exact ext_build _ _ _
        · exact ext_build _ _ _
        · exact ext_const _ (by simp)
        · split
          · split
            · exact ext_const _ (by simp)
            · exact ext_finish _ _ _ _ _
          · exact body_ext more e _ h

theorem headerLeft_ext (more : List Rcv) (e : Env) (s : St) {rs rs' : List Rcv} (h : Ext1 more rs rs') : Ext more (Keep.headerLeft e s rs) (Keep.headerLeft e s rs') := by
  unfold Keep.headerLeft
  split
  · exact .inl h
  · split
    · exact .inl h
    · split
      · split
        · exact .inl h
        · split
          · exact .inl h
          · exact bodyLeft_ext more e _ h
      · exact .inl h

theorem line_ext (more : List Rcv) (e : Env) (s : St) {rs rs' : List Rcv} (h : Ext1 more rs rs') : OutExt more (ReqEvent.line e s rs) (ReqEvent.line e s rs') := by
  unfold ReqEvent.line
  simp only
  split
  · exact ext_wait (.inl h) _
  · split
    · exact ext_build _ _ _
    · split
      · exact ext_const _ (by simp)
      · exact ext_const _ (by simp)
      · exact header_ext more e _ h

theorem lineLeft_ext (more : List Rcv) (e : Env) (s : St) {rs rs' : List Rcv} (h : Ext1 more rs rs') : Ext more (Keep.lineLeft e s rs) (Keep.lineLeft e s rs') := by
  unfold Keep.lineLeft
  split
  · exact .inl h
  · split
    · exact .inl h
    · split
      · exact headerLeft_ext more e _ h
      · exact .inl h

theorem handle_ext (more : List Rcv) (e : Env) (s : St) (rs : List Rcv) :
    OutExt more (ReqEvent.handle e s rs) (ReqEvent.handle e s (rs ++ .block :: .block :: more)) ∧
    Ext more (handleLeft e s rs) (handleLeft e s (rs ++ .block :: .block :: more)) ∧ refusedLine s (rs ++ .block :: .block :: more) = refusedLine s rs := by
  unfold ReqEvent.handle handleLeft refusedLine
  obtain ⟨l', e1, e2⟩ := receive_ext1 more rs s false
  rw [e1]
  rcases hx : receive s false rs with ⟨o, s2, l⟩
  rw [hx] at e2
  have e2 : Ext1 more l l' := e2
  refine ⟨?_, ?_, ?_⟩
  · split
    · exact body_ext more e _ (.inl rfl)
    · cases o <;> simp only
      · cases s2.fase <;> simp only
        · exact line_ext more e _ e2
        · exact header_ext more e _ e2
        · exact body_ext more e _ e2
      · exact ext_wait (.inl e2) _
      all_goals exact ext_const _ (by simp)
  · split
    · exact bodyLeft_ext more e _ (.inl rfl)
    · cases o <;> simp only
      · cases s2.fase <;> simp only
        · exact lineLeft_ext more e _ e2
        · exact headerLeft_ext more e _ e2
        · exact bodyLeft_ext more e _ e2
      all_goals exact .inl e2
  · cases o <;> rfl

theorem ext_data {more l l' : List Rcv} (h : Ext more l l') : dataOf l' = dataOf l ++ dataOf more := by
  have happ : ∀ a b : List Rcv, dataOf (a ++ b) = dataOf a ++ dataOf b := by
    intro a b
    induction a with
    | nil => rfl
    | cons r a ih => cases r <;> simp [dataOf, ih]
  rcases h with (rfl | ⟨rfl, rfl⟩) | ⟨rfl, rfl⟩
  · simp [happ, dataOf]
  · rfl
  · rfl

theorem ext_plain {more l l' : List Rcv} (h : Ext more l l') (hp : Plain l') : Plain l := by
  rcases h with (rfl | ⟨rfl, rfl⟩) | ⟨rfl, rfl⟩
  · exact fun r hr => hp r (by simp [hr])
  · exact fun r hr => by simp at hr
  · exact fun r hr => by simp at hr

/-- The handler is called when a part of the request has arrived (`rest` has not): it waits, having taken something, or the request is complete and answered. -/
theorem part_step (e : Env) (m : Msg) (hw : Within e m) (s : St) (k : Nat) (inq rest : List Rcv) (hi : Inv e m s k) (hp : Plain inq) (hpr : Plain rest)
    (hd : dataOf inq ++ dataOf rest = m.text.drop k) (hr : inq ≠ []) :
    (∃ s' l k', ReqEvent.handle e s inq = .wait s' l ∧ Inv e m s' k' ∧ Plain l ∧ dataOf l ++ dataOf rest = m.text.drop k' ∧ l.length < inq.length) ∨
    (ReqEvent.handle e s inq = .reply (replyTo e m) ∧ refusedLine s inq = false ∧ Plain (handleLeft e s inq) ∧ dataOf (handleLeft e s inq) = [] ∧ dataOf rest = []) := by
  obtain ⟨h1, h2, h3⟩ := handle_ext rest e s inq
  have hpl : Plain (inq ++ .block :: .block :: rest) := by
    intro r hr
    rcases List.mem_append.1 hr with h | h
    · exact hp r h
    · simp only [List.mem_cons] at h
      rcases h with rfl | rfl | h
      · exact .inl rfl
      · exact .inl rfl
      · exact hpr r h
  have hda : dataOf (inq ++ .block :: .block :: rest) = m.text.drop k := by
    rw [ext_data (.inl (.inl rfl)), hd]
  rcases ReqEvent.handle_step e m hw.good s k _ hi hpl hda (by simp) with ha | ⟨s', l', k', g1, g2, g3, g4, g5⟩
  · right
    rw [Keep.answer_within e m hw] at ha
    rcases h1 with ⟨_, _, _, _, e2, _⟩ | ⟨e1, _⟩
    · rw [ha] at e2; cases e2
    · rw [ha] at e1
      obtain ⟨d1, d2, _, d4⟩ := Keep.handle_end e m hw.whole s k _ hi hpl hda (by simp) (by intro s' l h; rw [ha] at h; cases h)
      rw [ext_data h2] at d1
      obtain ⟨d5, d6⟩ := List.append_eq_nil_iff.1 d1
      exact ⟨e1.symm, by rw [← h3]; exact d4, ext_plain h2 d2, d5, d6⟩
  · left
    rcases h1 with ⟨s2, l, l2, e1, e2, e3⟩ | ⟨e1, e2⟩
    · rw [g1] at e2
      injection e2 with e4 e5
      subst e4; subst e5
      refine ⟨s', l, k', e1, g2, ext_plain e3 g4, by rw [← ext_data e3, g3], ?_⟩
      rcases e3 with (h | ⟨h, _⟩) | ⟨h, _⟩
      · rw [h] at g5
        simp only [List.length_append, List.length_cons] at g5
        omega
      · rw [h]; exact List.length_pos_iff.2 hr
      · rw [h]; exact List.length_pos_iff.2 hr
    · exact absurd (e1 ▸ g1) (e2 _ _)

/-- With nothing but pauses the handler waits, the request being new. -/
theorem idle_step (e : Env) (inq : List Rcv) (hp : Plain inq) (hd : dataOf inq = []) (hr : inq ≠ []) :
    ∃ l, ReqEvent.handle e St.init inq = .wait St.init l ∧ Plain l ∧ dataOf l = [] ∧ l.length < inq.length := by
  cases inq with
  | nil => exact absurd rfl hr
  | cons r rs =>
    rcases hp r (by simp) with rfl | ⟨bs, hbs, rfl⟩
    · exact ⟨rs, rfl, fun x hx => hp x (by simp [hx]), by simpa [dataOf] using hd, by simp⟩
    · exfalso
      simp [dataOf] at hd
      exact hbs hd.1

theorem inv_init (e : Env) (m : Msg) : Inv e m St.init 0 := by
  have := Inv.line (e := e) (m := m) 0 (by simp [Msg.nL])
  simpa [St.init] using this

/-! ## What one request gives -/

/-- The bytes of the response to `m` made in state `s`. -/
def respOf {S : Type} (a : App S) (m : Msg) (s : S) : Bytes :=
  match (a.at s).bytes (replyTo a.base.env m) with
  | some buf => buf.bytes
  | none => []

theorem text_ne (m : Msg) : m.text ≠ [] := by
  intro h
  have := ReqEvent.text_length m
  rw [h] at this
  simp only [Msg.nH, Msg.nL, List.length_nil] at this
  omega

theorem at_eq {S : Type} (a : App S) (s : S) : a.at s = inState a s := rfl

theorem served_read {S : Type} (a : App S) (hr : ∀ x ∈ a.base.routes, Trip.WrittenPath x.1) {M : Nat} {m : Msg} (h : Served a M m) (s : S) :
    ∃ buf o, (a.at s).bytes (replyTo a.base.env m) = some buf ∧ Trip.Readable buf.bytes o ∧ Answer a m s o ∧ Keep.Kept a.base.env (a.at s).keeps m ∧ buf.bytes.length ≤ M := by
  obtain ⟨out, h1, h2⟩ := h.makes s
  rw [at_eq]
  have hp : Trip.Proper (inState a s) ⟨m, [.data m.text false], 0, M, out⟩ :=
    ⟨h.within, Keep.arrives_whole m (text_ne m), h.method, h1, fun r buf e1 e2 => h.size s r buf e1 e2⟩
  obtain ⟨buf, o, e1, e2, e3, e4, _⟩ := Trip.exchange_read (inState a s) hr _ hp
  exact ⟨buf, o, e1, e2, ⟨out, h1, e3⟩, e4 h2, h.size s _ buf (Keep.answer_within _ _ h.within) e1⟩

theorem returns_effect {S : Type} (a : App S) (hr : ∀ x ∈ a.base.routes, Trip.WrittenPath x.1) {m : Msg} (hg : m.Good) (s : S) {ret : PyBridge.Ret}
    (h : Trip.Returns (inState a s) m ret) : Effect a m s (a.next s (replyTo a.base.env m)) := by
  obtain ⟨i, hi⟩ := Trip.replyTo_returns (inState a s) hr m hg ret h
  have hi : replyTo a.base.env m = _ := hi
  obtain ⟨f, ps, hc, hk, e⟩ := h
  have hc : Trip.Chosen a.base m.line.uri m.line.method f ps := hc
  left
  refine ⟨f, ps, hc, ?_⟩
  obtain ⟨r, hfi, rfl, hv, ht, hfits⟩ := Trip.find_chosen a.base hr hc
  obtain ⟨qs, hb, hq, hps⟩ := Trip.bind_values a.base ht hv hfits
  rw [hi]
  unfold App.next call
  simp only [hfi]
  rw [if_neg]
  · rw [hb]
    simp only [hq]
    rw [Trip.request_seen m hg ps hps]
  · rcases hk with hk | hk
    · simp [hk]
    · have : Multipart.isMultipart m.header.items = some false := Trip.not_multipart m.fields hk
      rw [this]; simp

theorem served_effect {S : Type} (a : App S) (hr : ∀ x ∈ a.base.routes, Trip.WrittenPath x.1) {M : Nat} {m : Msg} (h : Served a M m) (s : S) :
    Effect a m s (a.next s (replyTo a.base.env m)) := by
  obtain ⟨out, h1, h2⟩ := h.makes s
  have hg := h.within.good
  cases out with
  | response => exact returns_effect a hr hg s h1.1
  | value => exact returns_effect a hr hg s h1.1
  | failed => exact returns_effect a hr hg s h1.1
  | tooLong => exact returns_effect a hr hg s h1.1
  | codedTooLong => exact returns_effect a hr hg s h1.1
  | notFound =>
    right
    refine ⟨h1.1, ?_⟩
    have hf := Trip.find_unserved a.base hr (h1.1 : Trip.Unserved a.base m.line.uri m.line.method)
    unfold App.next replyTo ReqEvent.select
    simp only [Trip.App.env, hf, Option.map_none]
    split
    · rename_i heq
      split at heq <;> repeat' (first | cases heq | split at heq)
    · rfl

/-! ## The log -/

theorem stepsOf_append {S : Type} (a : App S) (k : Nat) : ∀ (l : List (Nat × Reply)) (s : S) (l' : List (Nat × Reply)),
    stepsOf a k s (l ++ l') = stepsOf a k s l ++ stepsOf a k (stateAfter a s l) l'
  | [], _, _ => rfl
  | (j, r) :: l, s, l' => by
    have ih := stepsOf_append a k l (a.next s r) l'
    have e : stateAfter a s ((j, r) :: l) = stateAfter a (a.next s r) l := rfl
    simp only [List.cons_append, stepsOf, e]
    split <;> simp [ih]

theorem stateAfter_append {S : Type} (a : App S) (l l' : List (Nat × Reply)) (s : S) : stateAfter a s (l ++ l') = stateAfter a (stateAfter a s l) l' := by
  simp [stateAfter, List.foldl_append]

theorem ofConn_append (k : Nat) (l l' : List (Nat × Reply)) : ofConn k (l ++ l') = ofConn k l ++ ofConn k l' := by
  simp [ofConn]

theorem ofConn_other {j k : Nat} (h : j ≠ k) (r : Reply) : ofConn k [(j, r)] = [] := by
  simp [ofConn, h]

theorem ofConn_self (k : Nat) (r : Reply) : ofConn k [(k, r)] = [r] := by
  simp [ofConn]

theorem stepsOf_other {S : Type} (a : App S) {j k : Nat} (h : j ≠ k) (s : S) (r : Reply) : stepsOf a k s [(j, r)] = [] := by
  simp [stepsOf, h]

theorem stepsOf_self {S : Type} (a : App S) (k : Nat) (s : S) (r : Reply) : stepsOf a k s [(k, r)] = [(s, a.next s r)] := by
  simp [stepsOf]

/-! ## The invariant -/

/-- The bytes of the responses to the first requests. -/
def sent {S : Type} (a : App S) (ms : List Msg) (steps : List (S × S)) : Bytes := ((ms.zip steps).map fun x => respOf a x.1 x.2.1).flatten

theorem zip_snoc {α β : Type} : ∀ (l : List α) (l' : List β) (x : α) (y : β), l[l'.length]? = some x → l.zip (l' ++ [y]) = l.zip l' ++ [(x, y)]
  | [], _, _, _, h => by simp at h
  | z :: l, [], x, y, h => by simp at h; simp [h]
  | z :: l, w :: l', x, y, h => by
    simp only [List.length_cons, List.getElem?_cons_succ] at h
    simp [zip_snoc l l' x y h]

theorem take_snoc {α : Type} (l : List α) (n : Nat) (x : α) (h : l[n]? = some x) : l.take (n + 1) = l.take n ++ [x] := by
  rw [List.take_succ, h]; rfl

theorem sent_snoc {S : Type} (a : App S) (ms : List Msg) (steps : List (S × S)) (m : Msg) (p : S × S) (h : ms[steps.length]? = some m) :
    sent a ms (steps ++ [p]) = sent a ms steps ++ respOf a m p.1 := by
  simp [sent, zip_snoc _ _ _ _ h]

/-- Where a connection of a client with a list of requests can be. -/
inductive Stage {S : Type} (a : App S) (ms : List Msg) (steps : List (S × S)) (c : Conn) : Prop
  | idle : c.phase = .reading St.init → dataOf c.inq = [] → dataOf c.rest = [] → c.begun = steps.length → c.got = sent a ms steps → Stage a ms steps c
  | arriving (m : Msg) (s : St) (k : Nat) : ms[steps.length]? = some m → c.phase = .reading s → Inv a.base.env m s k →
      dataOf c.inq ++ dataOf c.rest = m.text.drop k → c.begun = steps.length + 1 → c.got = sent a ms steps → Stage a ms steps c
  | writing (m : Msg) (p : S × S) (before : List (S × S)) : steps = before ++ [p] → ms[before.length]? = some m →
      c.phase = .writing (respOf a m p.1) true → dataOf c.inq = [] → dataOf c.rest = [] → c.begun = steps.length → c.got = sent a ms before → Stage a ms steps c

structure ConnOk {S : Type} (a : App S) (ms : List (Msg × List Rcv)) (steps : List (S × S)) (c : Conn) : Prop where
  inq : Plain c.inq
  rest : Plain c.rest
  begun : c.begun ≤ ms.length
  todo : c.todo = ms.drop c.begun
  handled : Handled a ((ms.map (·.1)).take steps.length) steps
  stage : Stage a (ms.map (·.1)) steps c

theorem each_length {α β : Type} {R : α → β → Prop} {l : List α} {l' : List β} (h : Trip.Each R l l') : l.length = l'.length := by
  induction h with
  | nil => rfl
  | cons _ _ ih => simp [ih]

theorem each_map {α β γ : Type} {R : α → β → Prop} {Q : γ → β → Prop} {f : α → γ} (h : ∀ x y, R x y → Q (f x) y) {l : List α} {l' : List β} (hl : Trip.Each R l l') :
    Trip.Each Q (l.map f) l' := by
  induction hl with
  | nil => exact .nil
  | cons h1 _ ih => exact .cons (h _ _ h1) ih

/-- Each request that was handled in some state has its readable response. -/
theorem each_served {S : Type} (a : App S) (hr : ∀ x ∈ a.base.routes, Trip.WrittenPath x.1) {M : Nat} : ∀ (xs : List (Msg × (S × S))), (∀ x ∈ xs, Served a M x.1) →
    ∃ os, Trip.Each (fun (x : Msg × (S × S)) o => Trip.Readable (respOf a x.1 x.2.1) o ∧ Answer a x.1 x.2.1 o) xs os
  | [], _ => ⟨[], .nil⟩
  | x :: xs, h => by
    obtain ⟨os, ho⟩ := each_served a hr xs fun y hy => h y (by simp [hy])
    obtain ⟨buf, o, e1, e2, e3, _⟩ := served_read a hr (h x (by simp)) x.2.1
    refine ⟨o :: os, .cons ⟨?_, e3⟩ ho⟩
    unfold respOf
    rw [e1]
    exact e2

theorem client_sent {S : Type} (a : App S) (hr : ∀ x ∈ a.base.routes, Trip.WrittenPath x.1) {M : Nat} (ms : List Msg) (h : ∀ m ∈ ms, Served a M m) (steps : List (S × S)) :
    ∃ os, Trip.client (sent a ms steps) = some os ∧ Trip.Each (fun (x : Msg × (S × S)) o => Answer a x.1 x.2.1 o) (ms.zip steps) os := by
  obtain ⟨os, ho⟩ := each_served a hr (ms.zip steps) fun x hx => h x.1 (List.of_mem_zip hx).1
  have h1 : Trip.Each Trip.Readable ((ms.zip steps).map fun x => respOf a x.1 x.2.1) os := each_map (fun _ _ h => h.1) ho
  have h2 := each_map (f := id) (Q := fun (x : Msg × (S × S)) o => Answer a x.1 x.2.1 o) (fun _ _ h => h.2) ho
  rw [List.map_id] at h2
  exact ⟨os, Trip.client_all _ _ h1, h2⟩

theorem plain_append {l l' : List Rcv} (h : Plain l) (h' : Plain l') : Plain (l ++ l') := by
  intro r hr
  rcases List.mem_append.1 hr with h1 | h1
  · exact h r h1
  · exact h' r h1

theorem dataOf_append (l l' : List Rcv) : dataOf (l ++ l') = dataOf l ++ dataOf l' := by
  induction l with
  | nil => rfl
  | cons r a ih => cases r <;> simp [dataOf, ih]

/-- A client goes on. -/
theorem send_ok {S : Type} (a : App S) (hr : ∀ x ∈ a.base.routes, Trip.WrittenPath x.1) {M : Nat} {ms : List (Msg × List Rcv)}
    (hm : ∀ p ∈ ms, Served a M p.1 ∧ Keep.Arrives p.1 p.2) {steps : List (S × S)} {c : Conn} (h : ConnOk a ms steps c) : ConnOk a ms steps c.send := by
  obtain ⟨h1, h2, h3, h4, h5, h6⟩ := h
  have hms : ∀ m ∈ ms.map (·.1), Served a M m := by
    intro m hmm
    obtain ⟨p, hp, rfl⟩ := List.mem_map.1 hmm
    exact (hm p hp).1
  unfold Conn.send
  cases hrest : c.rest with
  | cons r rest =>
    have hd : dataOf (c.inq ++ [r]) ++ dataOf rest = dataOf c.inq ++ dataOf c.rest := by
      rw [hrest, dataOf_append, List.append_assoc]
      cases r <;> simp [dataOf]
    rw [hrest] at h2
    refine ⟨plain_append h1 fun x hx => h2 x (by simp at hx; simp [hx]), fun x hx => h2 x (by simp [hx]), h3, h4, h5, ?_⟩
    cases h6 with
    | idle g1 g2 g3 g4 g5 =>
      rw [g2, g3] at hd
      have := List.append_eq_nil_iff.1 hd
      exact .idle g1 this.1 this.2 g4 g5
    | arriving m s k g0 g1 g2 g3 g4 g5 => exact .arriving m s k g0 g1 g2 (hd.trans g3) g4 g5
    | writing m p before g0 g1 g2 g3 g4 g5 g6 =>
      rw [g3, g4] at hd
      have := List.append_eq_nil_iff.1 hd
      exact .writing m p before g0 g1 g2 this.1 this.2 g5 g6
  | nil =>
    simp only
    cases htodo : c.todo with
    | nil =>
      exact ⟨h1, h2, h3, h4, h5, h6⟩
    | cons x todo =>
      obtain ⟨m, ps⟩ := x
      simp only
      split
      · rename_i hcl
        have hsl : ∀ steps' : List (S × S), c.got = sent a (ms.map (·.1)) steps' → steps'.length ≤ ms.length → c.begun = steps'.length := by
          intro steps' hg hl
          obtain ⟨os, e1, e2⟩ := client_sent a hr _ hms steps'
          rw [hg, e1] at hcl
          have := each_length e2
          simp only [Option.map_some, Option.some.injEq] at hcl
          rw [← hcl, ← this, List.length_zip, List.length_map]
          omega
        rw [h4] at htodo
        have hget : ms[c.begun]? = some (m, ps) := by
          have := congrArg (fun l => l[0]?) htodo
          simpa using this
        have hlt : c.begun < ms.length := by
          rw [List.getElem?_eq_some_iff] at hget
          exact hget.1
        have hmem := List.mem_of_getElem? hget
        have hsteps : steps.length ≤ ms.length := by
          have := each_length h5
          simp only [List.length_take, List.length_map] at this
          omega
        cases h6 with
        | idle g1 g2 g3 g4 g5 =>
          refine ⟨h1, (hm _ hmem).2.1, hlt, ?_, h5, ?_⟩
          · show todo = ms.drop (c.begun + 1)
            rw [← List.drop_drop, htodo]; rfl
          · refine .arriving m St.init 0 ?_ g1 (inv_init _ _) ?_ (by show c.begun + 1 = _; rw [g4]) g5
            · rw [← g4, List.getElem?_map, hget]; rfl
            · show dataOf c.inq ++ dataOf ps = _
              rw [g2, List.drop_zero]; exact (hm _ hmem).2.2
        | arriving m' s k g0 g1 g2 g3 g4 g5 =>
          have := hsl steps g5 hsteps
          omega
        | writing m' p before g0 g1 g2 g3 g4 g5 g6 =>
          rw [g0] at hsteps g5
          simp only [List.length_append, List.length_singleton] at hsteps g5
          have := hsl before g6 (by omega)
          omega
      · exact ⟨h1, h2, h3, h4.trans (by rw [← h4, htodo]) , h5, h6⟩

end Fly.Serve
