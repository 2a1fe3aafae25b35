import Verif.Trip.Spec
import Verif.Keep.Props
import Verif.Route.Props
import Verif.PyReq.Props
import Verif.Send.Props

/-! # Lemmas for the whole way of a request -/

namespace Fly.Trip
open ReqEvent (Msg Rcv Env Reply St)
open Req (Method)
open Header (Pairs setFirst view HList Inv)
open PyReq (PyRequest)
open PyBridge (Field Reads statuses contentTypes missing Cfg build)
open Route (Plain Fits writePath NameOk)

/-! ## The client -/

theorem takeLine_append : ∀ (bs x l r : Bytes), Response.takeLine bs = some (l, r) → Response.takeLine (bs ++ x) = some (l, r ++ x) := by
  intro bs
  induction bs using Response.takeLine.induct with
  | case1 => intro x l r h; simp [Response.takeLine] at h
  | case2 rest =>
    intro x l r h
    simp only [Response.takeLine, Option.some.injEq, Prod.mk.injEq] at h
    obtain ⟨rfl, rfl⟩ := h
    simp [Response.takeLine]
  | case3 b rest hne ih =>
    intro x l r h
    rw [Response.takeLine] at h
    · cases hr : Response.takeLine rest with
      | none => rw [hr] at h; simp at h
      | some p =>
        rw [hr] at h
        simp only [Option.map_some, Option.some.injEq, Prod.mk.injEq] at h
        obtain ⟨rfl, rfl⟩ := h
        rw [List.cons_append, Response.takeLine]
        · rw [ih x p.1 p.2 hr]; rfl
        · intro r' hb hr'
          cases rest with
          | nil => simp [Response.takeLine] at hr
          | cons c rest =>
            simp only [List.cons_append, List.cons.injEq] at hr'
            exact hne rest hb (by rw [hr'.1])
    · exact hne

theorem takeLine_short : ∀ (bs l r : Bytes), Response.takeLine bs = some (l, r) → r.length + 2 ≤ bs.length := by
  intro bs
  induction bs using Response.takeLine.induct with
  | case1 => intro l r h; simp [Response.takeLine] at h
  | case2 rest =>
    intro l r h
    simp only [Response.takeLine, Option.some.injEq, Prod.mk.injEq] at h
    obtain ⟨rfl, rfl⟩ := h
    simp
  | case3 b rest hne ih =>
    intro l r h
    rw [Response.takeLine] at h
    · cases hr : Response.takeLine rest with
      | none => rw [hr] at h; simp at h
      | some p =>
        rw [hr] at h
        simp only [Option.map_some, Option.some.injEq, Prod.mk.injEq] at h
        obtain ⟨rfl, rfl⟩ := h
        have := ih p.1 p.2 hr
        simp; omega
    · exact hne

theorem readHeaders_append : ∀ (f : Nat) (bs x : Bytes) (ps : Pairs) (body : Bytes), Response.readHeaders f bs = some (ps, body) →
    ∀ g, f ≤ g → Response.readHeaders g (bs ++ x) = some (ps, body ++ x) := by
  intro f
  induction f with
  | zero => intro bs x ps body h; simp [Response.readHeaders] at h
  | succ f ih =>
    intro bs x ps body h g hg
    obtain ⟨g, rfl⟩ : ∃ k, g = k + 1 := ⟨g - 1, by omega⟩
    unfold Response.readHeaders at h ⊢
    cases ht : Response.takeLine bs with
    | none => rw [ht] at h; simp at h
    | some p =>
      obtain ⟨l, rest⟩ := p
      rw [takeLine_append bs x l rest ht]
      rw [ht] at h
      cases l with
      | nil =>
        simp only [Option.some.injEq, Prod.mk.injEq] at h ⊢
        exact ⟨h.1, by rw [h.2]⟩
      | cons c l =>
        simp only at h ⊢
        cases hs : Response.splitHeader (c :: l) with
        | none => rw [hs] at h; simp at h
        | some q =>
          cases hr : Response.readHeaders f rest with
          | none => rw [hs, hr] at h; simp at h
          | some t =>
            rw [hs, hr] at h
            simp only [Option.some.injEq, Prod.mk.injEq] at h
            rw [ih rest x t.1 t.2 hr g (by omega)]
            simp only [Option.some.injEq, Prod.mk.injEq]
            exact ⟨h.1, by rw [h.2]⟩

theorem readResponse_append (bs x line : Bytes) (fs : Pairs) (body : Bytes) (h : Response.readResponse bs = some (line, fs, body)) :
    Response.readResponse (bs ++ x) = some (line, fs, body ++ x) := by
  unfold Response.readResponse at h ⊢
  cases ht : Response.takeLine bs with
  | none => rw [ht] at h; simp at h
  | some p =>
    obtain ⟨l, rest⟩ := p
    rw [takeLine_append bs x l rest ht]
    rw [ht] at h
    simp only at h ⊢
    cases hr : Response.readHeaders (rest.length + 1) rest with
    | none => rw [hr] at h; simp at h
    | some t =>
      rw [hr] at h
      simp only [Option.map_some, Option.some.injEq, Prod.mk.injEq] at h
      rw [readHeaders_append _ _ x t.1 t.2 hr _ (by simp)]
      simp only [Option.map_some, Option.some.injEq, Prod.mk.injEq]
      exact ⟨h.1, h.2.1, by rw [h.2.2]⟩

/-- A response whose Content-Length is the length of its content is read from the front of any stream. -/
theorem readOne_append (bs x line : Bytes) (fs : Pairs) (body v : Bytes) (h : Response.readResponse bs = some (line, fs, body))
    (hf : fs.find? (fun p => p.1 == b!"Content-Length") = some (b!"Content-Length", v)) (hv : Reads v body.length) :
    readOne (bs ++ x) = some ((line, fs, body), x) := by
  have hn : number v = body.length := hv.2.2
  unfold readOne
  rw [readResponse_append bs x line fs body h]
  simp only [hf, hn]
  rw [if_neg (by simp)]
  simp

theorem readResponse_pos (bs : Bytes) (r : Seen) (h : Response.readResponse bs = some r) : 2 ≤ bs.length := by
  unfold Response.readResponse at h
  cases ht : Response.takeLine bs with
  | none => rw [ht] at h; simp at h
  | some p => have := takeLine_short bs p.1 p.2 ht; omega

/-- What is written for a response, as the client will take it. -/
def Readable (bs : Bytes) (o : Seen) : Prop := 2 ≤ bs.length ∧ ∀ x, readOne (bs ++ x) = some (o, x)

theorem readMany_all : ∀ (bss : List Bytes) (os : List Seen), Each Readable bss os → ∀ f, bss.flatten.length ≤ f → readMany f bss.flatten = some os := by
  intro bss os h
  induction h with
  | nil => intro f _; cases f <;> rfl
  | @cons b o l m hb _ ih =>
    intro f hf
    obtain ⟨h2, hr⟩ := hb
    rw [List.flatten_cons] at hf ⊢
    obtain ⟨c, t, rfl⟩ : ∃ c t, b = c :: t := by cases b with | nil => simp at h2 | cons c t => exact ⟨c, t, rfl⟩
    obtain ⟨f, rfl⟩ : ∃ k, f = k + 1 := ⟨f - 1, by simp at hf; omega⟩
    have hx := hr l.flatten
    rw [List.cons_append] at hx ⊢
    unfold readMany
    simp only [hx]
    rw [ih f (by rw [List.length_append, List.length_cons] at hf; omega)]
    rfl

theorem client_all (bss : List Bytes) (os : List Seen) (h : Each Readable bss os) : client bss.flatten = some os :=
  readMany_all bss os h _ (Nat.le_refl _)

theorem find_setFirst (n v : Bytes) : ∀ l : Pairs, (setFirst n v l).find? (fun p => p.1 == n) = some (n, v)
  | [] => by simp [setFirst]
  | (m, w) :: l => by
    unfold setFirst
    split
    · next e => subst e; simp
    · next e => rw [List.find?_cons_of_neg (by simpa using e)]; exact find_setFirst n v l

/-! ## Connections -/

theorem kept_round (e : Env) (app : Reply → Bool) (m : Msg) (rs : List Rcv) (hw : Keep.Within e m) (ha : Keep.Arrives m rs)
    (hk : Keep.Kept e app m) (later : List (List Rcv)) :
    Keep.session e app St.init (rs :: later) =
      (Keep.replyTo e m :: (Keep.session e app St.init later).1, (Keep.session e app St.init later).2) := by
  have hr := Keep.round_arrives e app m hw rs ha
  rw [Keep.next_within e app m hw hk] at hr
  rw [Keep.session, hr]
  rfl

theorem session_append (e : Env) (app : Reply → Bool) (ms : List (Msg × List Rcv))
    (h : ∀ p ∈ ms, Keep.Within e p.1 ∧ Keep.Kept e app p.1 ∧ Keep.Arrives p.1 p.2) (later : List (List Rcv)) :
    Keep.session e app St.init (ms.map (·.2) ++ later) =
      (ms.map (fun p => Keep.replyTo e p.1) ++ (Keep.session e app St.init later).1, (Keep.session e app St.init later).2) := by
  induction ms with
  | nil => rfl
  | cons p ms ih =>
    obtain ⟨h1, h2, h3⟩ := h p (by simp)
    rw [List.map_cons, List.cons_append, kept_round e app p.1 p.2 h1 h3 h2, ih (fun q hq => h q (by simp [hq]))]
    rfl

/-! ## Routes -/

theorem first_unique {P : Route.Route → Prop} : ∀ {rs : List Route.Route} {r r' : Route.Route}, Route.First P rs r → Route.First P rs r' → r = r' := by
  rintro rs r r' ⟨b, a, e, hr, hb⟩ ⟨b', a', e', hr', hb'⟩
  subst e
  induction b generalizing b' with
  | nil =>
    cases b' with
    | nil => simp at e'; exact e'.1
    | cons x b' =>
      simp only [List.nil_append, List.cons_append, List.cons.injEq] at e'
      exact absurd (e'.1 ▸ hr) (hb' x (by simp))
  | cons y b ih =>
    cases b' with
    | nil =>
      simp only [List.nil_append, List.cons_append, List.cons.injEq] at e'
      exact absurd (e'.1 ▸ hr') (hb y (by simp))
    | cons x b' =>
      simp only [List.cons_append, List.cons.injEq] at e'
      exact ih (fun z hz => hb z (by simp [hz])) b' (fun z hz => hb' z (by simp [hz])) e'.2

/-- A name as it stands in a path. -/
theorem name_clean {name : Bytes} (h : NameOk name) : (∀ c ∈ name, c < 128 ∧ c ≠ 47 ∧ c ≠ 123) ∧ name ≠ [] := by
  cases name with
  | nil => exact absurd h (by simp [NameOk])
  | cons c r =>
    refine ⟨?_, by simp⟩
    have key : ∀ x : Nat, Req.alpha x = true ∨ Req.numeral x = true ∨ x = 95 → x < 128 ∧ x ≠ 47 ∧ x ≠ 123 := by
      intro x hx
      rcases hx with hx | hx | hx
      · simp only [Req.alpha, Bool.or_eq_true, Bool.and_eq_true, decide_eq_true_eq] at hx; omega
      · simp only [Req.numeral, Bool.and_eq_true, decide_eq_true_eq] at hx; omega
      · omega
    intro x hx
    rcases List.mem_cons.1 hx with rfl | hx
    · rcases h.1 with h1 | h1
      · exact key _ (Or.inl h1)
      · exact key _ (Or.inr (Or.inr h1))
    · exact key x (h.2 x hx)

theorem written_shape (pre name : Bytes) (t : Option Route.PType) :
    writePath [⟨pre ++ b!"/", name, t⟩] [] = pre ++ 47 :: 123 :: (name ++ (match t with | none => [] | some t => 58 :: Route.typeName t)) ++ [125] := by
  cases t <;> simp [writePath]

theorem typeName_clean (t : Route.PType) : ∀ c ∈ Route.typeName t, c ≠ 47 ∧ c ≠ 123 := by
  cases t <;> decide

theorem written_last {pre name : Bytes} {t : Option Route.PType} (hp : Plain pre) (hn : NameOk name) :
    Route.LastOnly (writePath [⟨pre ++ b!"/", name, t⟩] []) := by
  refine ⟨pre, _, written_shape pre name t, hp, ?_, ?_⟩
  · intro hm
    rcases List.mem_append.1 hm with hm | hm
    · exact ((name_clean hn).1 47 hm).2.1 rfl
    · cases t with
      | none => simp at hm
      | some t => rcases List.mem_cons.1 hm with hm | hm
                  · omega
                  · exact (typeName_clean t 47 hm).1 rfl
  · intro hm
    rcases List.mem_append.1 hm with hm | hm
    · exact ((name_clean hn).1 123 hm).2.2 rfl
    · cases t with
      | none => simp at hm
      | some t => rcases List.mem_cons.1 hm with hm | hm
                  · omega
                  · exact (typeName_clean t 123 hm).2 rfl

theorem written_cases {p : Bytes} (h : WrittenPath p) :
    (Plain p ∨ Route.LastOnly p) ∧ ∃ ws tail, p = writePath ws tail ∧ Plain tail ∧ ∀ w ∈ ws, Plain w.before ∧ NameOk w.name := by
  rcases h with h | ⟨pre, name, t, rfl, h1, h2⟩
  · exact ⟨Or.inl h, [], p, rfl, h, by simp⟩
  · refine ⟨Or.inr (written_last h1 h2), _, _, rfl, by simp [Plain], ?_⟩
    intro w hw
    rcases List.mem_singleton.1 hw with rfl
    refine ⟨?_, h2⟩
    unfold Plain
    rw [List.mem_append]
    rintro (h | h)
    · exact h1 h
    · simp at h

theorem table_routes (a : App) (hr : ∀ x ∈ a.routes, WrittenPath x.1) : (a.table.map fun r => (r.uri, r.method, r.fn)) = a.routes :=
  (Route.C24_registration_order a.routes).2 fun x hx => (written_cases (hr x hx)).2

theorem looked_up (a : App) (hr : ∀ x ∈ a.routes, WrittenPath x.1) (u : Bytes) (m : Method) :
    Route.LooksUp (fun r => Serves r.uri r.method u m) a.table (Route.found u [] m a.table) :=
  Route.C24_first_match_partial a.routes (fun x hx => (written_cases (hr x hx)).1) u [] m

theorem find_chosen (a : App) (hr : ∀ x ∈ a.routes, WrittenPath x.1) {u : Bytes} {m : Method} {f : Nat} {ps : Pairs} (h : Chosen a u m f ps) :
    ∃ r, a.find u m = some r ∧ r.fn = f ∧ Values r.uri u ps ∧ r ∈ a.table ∧ Fits r.uri u := by
  obtain ⟨before, p, meth, later, e, hs, hb, hv⟩ := h
  have ht := table_routes a hr
  rw [e, List.map_eq_append_iff] at ht
  obtain ⟨b', l', e1, e2, e3⟩ := ht
  rw [List.map_eq_cons_iff] at e3
  obtain ⟨r, a', e3, e4, e5⟩ := e3
  simp only [Prod.mk.injEq] at e4
  obtain ⟨rfl, rfl, rfl⟩ := e4
  subst e3
  have hf : Route.First (fun r => Serves r.uri r.method u m) a.table r := by
    refine ⟨b', a', e1, hs, ?_⟩
    intro x hx
    have := hb (x.uri, x.method, x.fn) (by rw [← e2]; exact List.mem_map.2 ⟨x, hx, rfl⟩)
    exact this
  have hl := looked_up a hr u m
  refine ⟨r, ?_, rfl, hv, by rw [e1]; simp, hs.1⟩
  unfold App.find
  cases hfd : Route.found u [] m a.table with
  | none => rw [hfd] at hl; exact absurd hl (by simp [Route.LooksUp])
  | some o =>
    rw [hfd] at hl
    cases o with
    | none => exact absurd hs (hl r (by rw [e1]; simp))
    | some r' => exact congrArg some (first_unique (show Route.First (fun r => Serves r.uri r.method u m) a.table r' from hl) hf)

theorem find_unserved (a : App) (hr : ∀ x ∈ a.routes, WrittenPath x.1) {u : Bytes} {m : Method} (h : Unserved a u m) : a.find u m = none := by
  have hl := looked_up a hr u m
  have ht := table_routes a hr
  unfold App.find
  cases hfd : Route.found u [] m a.table with
  | none => rfl
  | some o =>
    rw [hfd] at hl
    cases o with
    | none => rfl
    | some r =>
      obtain ⟨b, c, e, hp, _⟩ := hl
      exact absurd hp (h (r.uri, r.method, r.fn) (by rw [← ht, e]; simp))

theorem bind_values (a : App) {u : Bytes} {ps : Pairs} {r : Route.Route} (hr : r ∈ a.table) (hv : Values r.uri u ps) (hf : Fits r.uri u) :
    ∃ qs, Route.bind u r = some qs ∧ qs.map (fun p => (p.var, p.value)) = ps ∧ ∀ p ∈ ps, (∀ c ∈ p.1, c < 128) ∧ ∀ c ∈ p.2, c ∈ u := by
  have hm : Route.Made r := Route.registerAll_made a.routes [] (by simp) r hr
  rcases hv with ⟨hp, rfl⟩ | ⟨pre, name, t, s, e, hp, hn, hu, rfl⟩
  · refine ⟨[], ?_, rfl, by simp⟩
    unfold Route.bind
    rw [if_pos ((Route.made_noparam r hm).2 hp)]
  · have hparse := Route.parse_written [] (by simp [Plain]) [⟨pre ++ b!"/", name, t⟩] (by
      intro w hw
      rcases List.mem_singleton.1 hw with rfl
      exact ⟨by simp [Plain] at hp ⊢; exact hp, hn⟩)
    unfold Route.Made at hm
    rw [e, hparse] at hm
    simp only [List.map_cons, List.map_nil, Except.ok.injEq] at hm
    have hmt : Route.matchParam u [] r.uri = .yes := by
      rw [e]; rw [e] at hf; exact (Route.fits_iff_match u [] _ (written_last hp hn)).2 hf
    have hshape : r.uri = (pre ++ b!"/") ++ 123 :: ((name ++ (match t with | none => [] | some t => 58 :: Route.typeName t)) ++ [125]) := by
      rw [e, written_shape]; simp
    have h47 : (47 : Nat) ∉ (name ++ (match t with | none => [] | some t => 58 :: Route.typeName t)) ++ [125] := by
      intro hx
      rcases List.mem_append.1 hx with hx | hx
      · rcases List.mem_append.1 hx with hx | hx
        · exact ((name_clean hn).1 47 hx).2.1 rfl
        · cases t with
          | none => simp at hx
          | some t => rcases List.mem_cons.1 hx with hx | hx
                      · omega
                      · exact (typeName_clean t 47 hx).1 rfl
      · simp at hx
    obtain ⟨s', h1, h2, h3, h4⟩ := Route.bind_last r (pre ++ b!"/") _ u [] _ _ hshape (by simp [Plain] at hp ⊢; exact hp) h47 hm.symm hmt
    refine ⟨_, h4, ?_, ?_⟩
    · have : s' = s := by
        rw [h1] at hu
        exact List.append_cancel_left hu
      simp [this]
    · intro p hp
      rcases List.mem_singleton.1 hp with rfl
      refine ⟨fun c hc => ((name_clean hn).1 c hc).1, ?_⟩
      intro c hc
      rw [hu]
      exact List.mem_append.2 (Or.inr hc)

/-! ## The request -/

theorem chars_ascii {ok : Nat → Prop} (h : ∀ c, ok c → c < 128) {s : Bytes} (hs : Req.Chars ok s) : ∀ c ∈ s, c < 128 := by
  induction hs with
  | nil => simp
  | byte c s hc _ ih =>
    intro x hx
    rcases List.mem_cons.1 hx with rfl | hx
    · exact h _ hc
    · exact ih x hx
  | pct h1 h2 s a b _ ih =>
    have hex : ∀ c, Req.RfcHex c → c < 128 := by intro c hc; unfold Req.RfcHex at hc; omega
    intro x hx
    rcases List.mem_cons.1 hx with rfl | hx
    · omega
    · rcases List.mem_cons.1 hx with rfl | hx
      · exact hex _ a
      · rcases List.mem_cons.1 hx with rfl | hx
        · exact hex _ b
        · exact ih x hx

theorem pchar_ascii (c : Nat) (h : Req.RfcPchar c) : c < 128 := by
  have h1 : ∀ c ∈ b!"-._~", c < 128 := by decide
  have h2 : ∀ c ∈ b!"!$&'()*+,;=", c < 128 := by decide
  have h3 : ∀ c ∈ b!":@", c < 128 := by decide
  rcases h with h | h | h
  · unfold Req.RfcUnreserved at h
    rcases h with h | h | h | h
    · omega
    · omega
    · omega
    · exact h1 c h
  · exact h2 c h
  · exact h3 c h

theorem path_ascii (c : Nat) (h : Req.PathByte c) : c < 128 := by
  rcases h with h | h
  · exact pchar_ascii c h
  · simp at h; omega

theorem query_ascii (c : Nat) (h : Req.QueryByte c) : c < 128 := by
  have h1 : ∀ c ∈ b!"/?", c < 128 := by decide
  rcases h with h | h
  · exact pchar_ascii c h
  · exact h1 c h

theorem line_ascii (m : Msg) (hg : m.Good) : (∀ c ∈ m.line.uri, c < 128) ∧ ∀ q, m.line.query = some q → ∀ c ∈ q, c < 128 := by
  obtain ⟨k, j, n, t, ht, _⟩ := hg.line
  generalize m.line.method = me at ht
  generalize m.line.uri = u at ht ⊢
  generalize m.line.query = q at ht ⊢
  cases ht with
  | origin _ _ qt _ hme hp hq =>
    refine ⟨chars_ascii path_ascii hp.1, ?_⟩
    intro q' e
    cases hq with
    | absent => simp at e
    | lone => simp at e
    | plain c q _ hc => injection e with e; subst e; exact chars_ascii query_ascii hc
    | cut h1 h2 q _ hh hc =>
      injection e with e
      subst e
      intro x hx
      rcases List.mem_cons.1 hx with rfl | hx
      · unfold Req.RfcHex at hh; omega
      · exact chars_ascii query_ascii hc x hx
  | authority => exact ⟨by simp, by simp⟩

theorem fields_ascii {xs : List Bytes} {fs : Pairs} (h : ReqHeader.Fields xs fs) : ∀ p ∈ fs, (∀ c ∈ p.1, c < 127) ∧ ∀ c ∈ p.2, c < 128 := by
  induction h with
  | nil => simp
  | field x n v xs fs hl _ ih =>
    intro p hp
    rcases List.mem_cons.1 hp with rfl | hp
    · obtain ⟨bl, cr, _, hn, _, _, hv, _⟩ := hl
      refine ⟨fun c hc => by have := hn c hc; unfold ReqHeader.NameByte at this; omega, ?_⟩
      intro c hc
      have := hv c hc
      unfold ReqHeader.ValueByte at this; omega
    · exact ih p hp
  | skip x xs fs _ _ ih => exact ih

theorem lower_ascii (n : Bytes) (h : ∀ c ∈ n, c < 127) : ∀ c ∈ lowerCase n, c < 128 := by
  intro c hc
  obtain ⟨x, hx, rfl⟩ := List.mem_map.1 hc
  have := h x hx
  show (if 65 ≤ x ∧ x ≤ 90 then x + 32 else x) < 128
  split <;> omega

/-- The body handed to the application. -/
theorem body_handed (m : Msg) (hg : m.Good) :
    (if Header.contentLength m.header = 0 then none else some m.body) = if m.body = [] then none else some m.body := by
  have := hg.body
  by_cases h : m.body = []
  · rw [if_pos h, if_pos (by rw [← this, h]; rfl)]
  · rw [if_neg h, if_neg]
    rw [← this]
    have := List.length_pos_iff.2 h
    omega

theorem request_seen (m : Msg) (hg : m.Good) (ps : Pairs) (hps : ∀ p ∈ ps, (∀ c ∈ p.1, c < 128) ∧ ∀ c ∈ p.2, c ∈ m.line.uri) :
    PyReq.pyRequest ⟨m.line.uri, m.line.query, ps, m.header.items, if m.body = [] then none else some m.body⟩ = .call (dictionary m ps) := by
  have hl := line_ascii m hg
  have hf := fields_ascii hg.fields
  have hfields : PyReq.fields m.header.items = m.fields.map fun p => (lowerCase p.1, p.2) := by
    unfold PyReq.fields Msg.header ReqHeader.cells
    simp only [List.map_map]
    rfl
  rw [PyReq.C97_ascii_request_seen]
  · congr 1
    unfold dictionary
    simp only
    rw [hfields]
    congr 1
    unfold PyReq.cookies
    rw [List.filter_map, List.map_map]
    rfl
  · exact hl.1
  · exact hl.2
  · exact fun p hp => ⟨(hps p hp).1, fun c hc => hl.1 c ((hps p hp).2 c hc)⟩
  · intro p hp
    have hp : p ∈ PyReq.fields m.header.items := hp
    rw [hfields] at hp
    obtain ⟨q, hq, rfl⟩ := List.mem_map.1 hp
    exact ⟨lower_ascii _ (hf q hq).1, (hf q hq).2⟩

theorem known_type (v t : Bytes) (ht : t ∈ contentTypes) (hne : t ≠ b!"multipart/form-data") (hp : t <+: v) :
    ∃ t', Multipart.mimeFromStrn v = some t' ∧ t' ≠ b!"multipart/form-data" := by
  have hb : ∀ x : Bytes, (x.length ≤ v.length && v.take x.length == x) = true ↔ x <+: v := by
    intro x
    rw [Bool.and_eq_true, decide_eq_true_eq, beq_iff_eq]
    constructor
    · rintro ⟨_, h⟩; rw [← h]; exact List.take_prefix _ _
    · intro h; exact ⟨h.length_le, (List.prefix_iff_eq_take.1 h).symm⟩
  unfold Multipart.mimeFromStrn
  cases hf : PyBridge.mimes.find? (fun m => m.length ≤ v.length && v.take m.length == m) with
  | none =>
    rw [List.find?_eq_none] at hf
    exact absurd ((hb t).2 hp) (hf t ht)
  | some t' =>
    refine ⟨t', rfl, ?_⟩
    rintro rfl
    have h1 : b!"multipart/form-data" <+: v := (hb _).1 (by have := List.find?_some hf; exact this)
    have hcomp : ∀ t ∈ contentTypes, t ≠ b!"multipart/form-data" → ¬ t <+: b!"multipart/form-data" ∧ ¬ b!"multipart/form-data" <+: t := by decide +kernel
    rcases Nat.le_total t.length (b!"multipart/form-data").length with h | h
    · exact (hcomp t ht hne).1 (List.prefix_of_prefix_length_le hp h1 h)
    · exact (hcomp t ht hne).2 (List.prefix_of_prefix_length_le h1 hp h)

theorem not_multipart : ∀ (fs : Pairs), (∀ p ∈ fs, lowerCase p.1 = b!"content-type" → ∃ t ∈ contentTypes, t ≠ b!"multipart/form-data" ∧ t <+: p.2) →
    Multipart.isMultipart (fs.map fun f => ⟨some (f.1.map Header.lower), some f.2⟩) = some false
  | [], _ => rfl
  | p :: fs, h => by
    have ih := not_multipart fs fun q hq => h q (by simp [hq])
    rw [List.map_cons, Multipart.isMultipart]
    split
    · next hc =>
      simp only [Multipart.isContentType, Option.isSome_some, Bool.and_true, Bool.or_eq_true, beq_iff_eq, Option.some.injEq] at hc
      have hl : lowerCase p.1 = b!"content-type" := by
        rcases hc with hc | hc
        · exfalso
          have h67 : 67 ∈ p.1.map Header.lower := by rw [hc]; simp
          obtain ⟨x, _, hx⟩ := List.mem_map.1 h67
          unfold Header.lower at hx
          split at hx <;> omega
        · exact hc
      obtain ⟨t, ht, hne, hp⟩ := h p (by simp) hl
      obtain ⟨t', e, hne'⟩ := known_type p.2 t ht hne hp
      simp only [Option.getD_some, e, if_neg hne', ih]
    · exact ih

/-- The function gets the request as it was sent. -/
theorem result_returns (a : App) (hr : ∀ x ∈ a.routes, WrittenPath x.1) (m : Msg) (hg : m.Good) (ret : PyBridge.Ret) (h : Returns a m ret) :
    a.result m.line m.header (if m.body = [] then none else some m.body) = some ret := by
  obtain ⟨f, ps, hc, hk, e⟩ := h
  obtain ⟨r, hfi, rfl, hv, ht, hfits⟩ := find_chosen a hr hc
  obtain ⟨qs, hb, hq, hps⟩ := bind_values a ht hv hfits
  unfold App.result
  rw [hfi]
  simp only
  rw [if_neg]
  · rw [hb]
    simp only [hq]
    rw [request_seen m hg ps hps]
    simp only [e]
  · rcases hk with hk | hk
    · simp [hk]
    · have : Multipart.isMultipart m.header.items = some false := not_multipart m.fields hk
      rw [this]; simp

theorem replyTo_returns (a : App) (hr : ∀ x ∈ a.routes, WrittenPath x.1) (m : Msg) (hg : m.Good) (ret : PyBridge.Ret) (h : Returns a m ret) :
    ∃ i, Keep.replyTo a.env m = .handler i m.line m.header (if m.body = [] then none else some m.body) := by
  obtain ⟨f, ps, hc, hk, e⟩ := h
  obtain ⟨r, hfi, rfl, hv, ht, hfits⟩ := find_chosen a hr hc
  refine ⟨r.fn, ?_⟩
  unfold Keep.replyTo ReqEvent.select
  rw [body_handed m hg]
  simp only [App.env, hfi, Option.map_some]

end Fly.Trip
