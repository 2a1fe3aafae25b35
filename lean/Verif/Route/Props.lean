import Verif.Route.Lemmas

/-! # C24 route lookup, C25 path parameters, C72 the Allow field -/

namespace Fly.Route
open Req (Method alpha numeral)

/-- **C24**: the routes are kept in the order of registration; none is invented, and every one whose path is well
formed (parameters written `{name}` or `{name:type}`) is kept. -/
theorem C24_registration_order (l : List (Bytes × Method × Nat)) :
    ((registerAll [] l).map fun r => (r.uri, r.method, r.fn)).Sublist l ∧
    ((∀ x ∈ l, ∃ ws tail, x.1 = writePath ws tail ∧ Plain tail ∧ ∀ w ∈ ws, Plain w.before ∧ NameOk w.name) →
      ((registerAll [] l).map fun r => (r.uri, r.method, r.fn)) = l) := by
  obtain ⟨l', h1, h2, h3⟩ := registerAll_order l []
  have e : ((registerAll [] l).map fun r => (r.uri, r.method, r.fn)) = l' := by simp at h1; exact h1
  rw [e]
  refine ⟨h2, fun h => h3 fun x hx => ?_⟩
  obtain ⟨ws, tail, e, ht, hw⟩ := h x hx
  exact ⟨_, by rw [e]; exact parse_written tail ht ws hw⟩

example : b!"/a/{x:int}/b" = writePath [⟨b!"/a/", b!"x", some .int⟩] b!"/b" := by decide +kernel

/-- **C24**, for routes without parameters: whatever was registered and requested, the handler is the first route
registered for exactly this path and method, or none if there is none. -/
theorem C24_plain_routes (l : List (Bytes × Method × Nat)) (hl : ∀ x ∈ l, Plain x.1) (u after : Bytes) (m : Method) :
    LooksUp (fun r => Fits r.uri u ∧ r.method = m) (registerAll [] l) (found u after m (registerAll [] l)) := by
  have hm := registerAll_made l [] (by simp)
  have hu := registerAll_uri Plain l [] (by simp) hl
  refine found_spec _ u after m _ fun r hr => ⟨fun _ => ?_, fun hp => ?_⟩
  · rw [fits_plain _ _ (hu r hr)]
  · exact absurd ((made_noparam r (hm r hr)).2 (hu r hr)) hp

/-- **C24**, with parameters in the last segment.  The claim wants `r.method = m` for every route; routes with a
parameter are found whatever the method. -/
theorem C24_first_match_partial (l : List (Bytes × Method × Nat)) (hl : ∀ x ∈ l, Plain x.1 ∨ LastOnly x.1)
    (u after : Bytes) (m : Method) :
    LooksUp (fun r => Fits r.uri u ∧ (Plain r.uri → r.method = m)) (registerAll [] l)
      (found u after m (registerAll [] l)) := by
  have hm := registerAll_made l [] (by simp)
  have hu := registerAll_uri (fun p => Plain p ∨ LastOnly p) l [] (by simp) hl
  refine found_spec _ u after m _ fun r hr => ⟨fun hp => ?_, fun hp => ?_⟩
  · have h := (made_noparam r (hm r hr)).1 hp
    rw [fits_plain _ _ h]
    exact ⟨fun x => ⟨x.1, x.2 h⟩, fun x => ⟨x.1, fun _ => x.2⟩⟩
  · have hn : ¬ Plain r.uri := fun h => hp ((made_noparam r (hm r hr)).2 h)
    have hL : LastOnly r.uri := (hu r hr).resolve_left hn
    have hi := fits_iff_match u after r.uri hL
    obtain ⟨pre, x, e, h1, h2⟩ := lastOnly_split _ hL
    have ht := match_last u after _ _ h1 h2
    rw [← e] at ht
    rcases ht with ht | ht
    · exact Or.inr ⟨ht, fun hP => by rw [hi.2 hP.1] at ht; simp at ht⟩
    · exact Or.inl ⟨ht, hi.1 ht, fun h => absurd h hn⟩

/-- Three routes: a parameter, a literal path behind it, and another method for it. -/
example : found b!"/user/7" b!" HTTP/1.1\r\n" .get
      (registerAll [] [(b!"/user/me", .get, 1), (b!"/user/{id:int}", .get, 2), (b!"/user/7", .get, 3)])
    = some (some ⟨b!"/user/{id:int}", .get, [⟨b!"id", .int, []⟩], 2⟩) := by decide +kernel
example : LastOnly b!"/user/{id:int}" := ⟨b!"/user", b!"id:int", by decide, by decide, by decide, by decide⟩

/-- **C24 refuted**: a route with a parameter is found for every method, not only the one it was registered for. -/
theorem C24_method_ignored_refuted (p u after : Bytes) (m m' : Method) (fn : Nat) (ps : List Param)
    (hreg : register [] p m fn = .ok [⟨p, m, ps, fn⟩]) (hp : LastOnly p) (hu : Fits p u) :
    found u after m' [⟨p, m, ps, fn⟩] = some (some ⟨p, m, ps, fn⟩) := by
  have hmade : parseParams p = .ok ps := by
    unfold register at hreg
    cases h : parseParams p with
    | error e => rw [h] at hreg; simp at hreg
    | ok ps' => rw [h] at hreg; simp at hreg; rw [hreg]
  have hn : ps ≠ [] := by
    intro e
    have h := parse_nil p (by rw [hmade, e])
    obtain ⟨pre, x, rfl, _⟩ := hp
    exact h (by simp)
  rw [found, if_neg hn, (fits_iff_match u after p hp).2 hu]

example : found b!"/user/7" [] .delete (registerAll [] [(b!"/user/{id}", .get, 1)])
    = some (some ⟨b!"/user/{id}", .get, [⟨b!"id", .str, []⟩], 1⟩) := by decide +kernel

/-- **C24 refuted**: a route with a parameter before its last segment is never found, unless the request contains
a closing brace. -/
theorem C24_inner_parameter_never_found_refuted (rs : List Route) (hm : ∀ r ∈ rs, Made r) (u after : Bytes) (m : Method)
    (hb : (125 : Nat) ∉ u ++ after) (r : Route) (hr : ParamBeforeLast r.uri) :
    found u after m rs ≠ some (some r) := by
  induction rs with
  | nil => simp [found]
  | cons x rs ih =>
    have ih := ih fun y hy => hm y (by simp [hy])
    rw [found]
    by_cases hp : x.params = []
    · rw [if_pos hp]
      split
      · intro e
        simp at e
        subst e
        obtain ⟨pre, rest, e, _, _⟩ := hr
        exact (made_noparam x (hm x (by simp))).1 hp (by rw [e]; simp)
      · exact ih
    · rw [if_neg hp]
      cases hmt : matchParam u after x.uri with
      | outside => simp
      | no => exact ih
      | yes =>
        intro e
        simp at e
        subst e
        exact match_before u after _ hr hb hmt

/-- The usual request for such a route. -/
example : Fits b!"/user/{id}/posts" b!"/user/7/posts" ∧
    found b!"/user/7/posts" b!" HTTP/1.1\r\n" .get (registerAll [] [(b!"/user/{id}/posts", .get, 1)]) = some none :=
  ⟨⟨Or.inr ⟨by rintro ⟨x, h⟩; simp at h, rfl⟩, Or.inr ⟨by rintro ⟨x, h⟩; simp at h, rfl⟩,
    Or.inl ⟨⟨b!"id", by decide⟩, by decide⟩, Or.inr ⟨by rintro ⟨x, h⟩; simp at h, rfl⟩, trivial⟩, by decide +kernel⟩
example : ParamBeforeLast b!"/user/{id}/posts" := ⟨b!"/user/", b!"id}/posts", by decide, by decide, by decide⟩

/-- **C24 refuted**: whether a route is found can depend on bytes behind the request path. -/
theorem C24_bytes_behind_path_refuted : ∃ (rs : List Route) (u after after' : Bytes) (m : Method),
    (∀ r ∈ rs, Made r) ∧ found u after m rs = some none ∧ (found u after' m rs).isSome ∧ found u after' m rs ≠ some none :=
  ⟨registerAll [] [(b!"/aaaaaaaaaaaaaaaaaa/{x:int/}", .get, 1)], b!"/aaaaaaaaaaaaaaaaaa/b/", b!" HTTP/1.1\r\nHost: aaa",
    b!" HTTP/1.1\r\nHost: aa}", .get,
    registerAll_made _ [] (by simp), by decide +kernel, by decide +kernel, by decide +kernel⟩

/-! ## C25 -/

/-- A route that matches and whose parameters are all in the last segment. -/
theorem bind_last (r : Route) (pre rest u after : Bytes) (p : Param) (ps : List Param) (e : r.uri = pre ++ 123 :: rest)
    (hp : (123 : Nat) ∉ pre) (hr : (47 : Nat) ∉ rest) (hps : r.params = p :: ps) (h : matchParam u after r.uri = .yes) :
    ∃ s, u = pre ++ s ∧ s ≠ [] ∧ (47 : Nat) ∉ s ∧ bind u r = some [{ p with value := s }] := by
  rw [e] at h
  obtain ⟨s, rfl, h2, h3⟩ := (match_last_iff u after pre rest hp hr).1 h
  refine ⟨s, rfl, h2, h3, ?_⟩
  unfold bind
  rw [if_neg (by rw [hps]; simp), e, bind_prefix pre rest s r.params hp h2 h3 pre.length _ 0 (by omega) (by omega)
    (by simp; omega), hps]
  rfl

/-- **C25**, for a route whose only parameter `{name:type}` is its last segment: the request that reaches it gives the
handler this one parameter, with the name and type written in the route and with the last segment of the request path
as its value.  Missing: parameters before the last segment (never found) and the type `bool`. -/
theorem C25_last_parameter_partial (pre name u after : Bytes) (t : Option PType) (m m' : Method) (fn : Nat)
    (hpre : Plain pre) (hn : NameOk name) (ht : t ≠ some .bool) (rs : List Route)
    (hreg : register [] (writePath [⟨pre ++ [47], name, t⟩] []) m fn = .ok rs) (r : Route)
    (hf : found u after m' rs = some (some r)) :
    ∃ s, u = pre ++ 47 :: s ∧ s ≠ [] ∧ (47 : Nat) ∉ s ∧ bind u r = some [⟨name, t.getD .str, s⟩] := by
  have hparse := parse_written [] (by simp [Plain]) [⟨pre ++ [47], name, t⟩] (by
    intro w hw
    simp at hw
    subst hw
    exact ⟨by simp [Plain] at hpre ⊢; exact hpre, hn⟩)
  unfold register at hreg
  rw [hparse] at hreg
  simp at hreg
  subst hreg
  have hty : regType t = t.getD .str := by
    rcases t with _ | _ | _ | _ | _ <;> simp [regType] at ht ⊢
  obtain ⟨rest, e, h47⟩ : ∃ rest, writePath [⟨pre ++ [47], name, t⟩] [] = (pre ++ [47]) ++ 123 :: rest ∧ (47 : Nat) ∉ rest := by
    refine ⟨name ++ ((match t with | none => [] | some t => 58 :: typeName t) ++ [125]), ?_, ?_⟩
    · cases t <;> simp [writePath]
    · have h1 : (47 : Nat) ∉ name := fun hx => (var_ne _ (name_var _ hn _ hx)).2.2.2 rfl
      have h2 : (47 : Nat) ∉ (match t with | none => [] | some t => 58 :: typeName t) := by
        cases t with
        | none => simp
        | some t => cases t <;> decide
      simp only [List.mem_append, not_or]
      exact ⟨h1, h2, by decide⟩
  rw [found, if_neg (by simp)] at hf
  cases hmt : matchParam u after (writePath [⟨pre ++ [47], name, t⟩] []) with
  | outside => simp only [hmt] at hf; simp at hf
  | no => simp only [hmt] at hf; simp [found] at hf
  | yes =>
    simp only [hmt] at hf
    simp at hf
    subst hf
    obtain ⟨s, h1, h2, h3, h4⟩ := bind_last ⟨writePath [⟨pre ++ [47], name, t⟩] [], m, [⟨name, regType t, []⟩], fn⟩
      (pre ++ [47]) rest u after _ _ e (by simp [Plain] at hpre ⊢; exact hpre) h47 rfl hmt
    exact ⟨s, by simpa using h1, h2, h3, by rw [h4, hty]⟩

example : (found b!"/user/7" [] .get (registerAll [] [(b!"/user/{id:int}", .get, 1)])).map (·.map (bind b!"/user/7"))
    = some (some (some [⟨b!"id", .int, b!"7"⟩])) := by decide +kernel
example : writePath [⟨b!"/user/", b!"id", some .int⟩] [] = b!"/user/{id:int}" := by decide +kernel

/-- **C25**: registering a path whose parameters are written `{name}` or `{name:type}`, with any literal text between
them, registers exactly these names in this order, with type `str` for the first form.  Missing: the type `bool`. -/
theorem C25_names_and_types_partial (ws : List Written) (tail : Bytes) (m : Method) (fn : Nat) (rs : List Route)
    (ht : Plain tail) (h : ∀ w ∈ ws, Plain w.before ∧ NameOk w.name ∧ w.type ≠ some .bool) :
    register rs (writePath ws tail) m fn =
      .ok (rs ++ [⟨writePath ws tail, m, ws.map fun w => ⟨w.name, w.type.getD .str, []⟩, fn⟩]) := by
  unfold register
  rw [parse_written tail ht ws fun w hw => ⟨(h w hw).1, (h w hw).2.1⟩]
  simp only
  congr 4
  refine List.map_congr_left fun w hw => ?_
  have := (h w hw).2.2
  rcases w with ⟨b, n, _ | _ | _ | _ | _⟩ <;> simp [regType] at this ⊢

example : NameOk b!"user_id2" := ⟨by decide, by decide⟩

theorem parseOne_blanks (t : Bytes) (ht : t ≠ []) : ∀ (b : Bytes), Blanks b →
    parseOne .start (b ++ t) = (if b = [] then parseOne .start t else parseOne .space t) ∧ parseOne .space (b ++ t) = parseOne .space t ∧
    (∀ acc, parseOne (.varSpace acc) (b ++ t) = parseOne (.varSpace acc) t) ∧
    (∀ acc, parseOne (.var acc) (b ++ t) = if b = [] then parseOne (.var acc) t else parseOne (.varSpace acc) t) ∧
    ∀ acc, parseOne (.colon acc) (b ++ t) = parseOne (.colon acc) t
  | [], _ => by simp
  | c :: b, h => by
    obtain ⟨_, ih2, ih3, _, ih5⟩ := parseOne_blanks t ht b fun x hx => h x (by simp [hx])
    have hb : blank c = true := by rcases h c (by simp) with rfl | rfl <;> decide
    have hv : varChar c = false := by rcases h c (by simp) with rfl | rfl <;> decide
    have hne : b ++ t ≠ [] := by simp [ht]
    refine ⟨?_, ?_, fun acc => ?_, fun acc => ?_, fun acc => ?_⟩
    · rw [List.cons_append, parseOne, if_pos hb, if_neg hne, ih2]; simp
    · rw [List.cons_append, parseOne, if_pos hb, if_neg hne, ih2]
    · rw [List.cons_append, parseOne, if_pos hb, if_neg hne, ih3]
    · rw [List.cons_append, parseOne, if_neg (by simp [hv]), if_pos hb, if_neg hne, ih3]; simp
    · rw [List.cons_append, parseOne, if_pos hb, if_neg hne, ih5]

/-- **C25** (blanks): spaces and tabs before the name, behind it and behind the colon change nothing: the parameter is registered with its name and type.
Missing: the type `bool`. -/
theorem C25_blanks_partial (before b1 name b2 b3 tail : Bytes) (t : Option PType) (m : Method) (fn : Nat) (rs : List Route) (hb : Plain before) (ht : Plain tail)
    (hn : NameOk name) (h1 : Blanks b1) (h2 : Blanks b2) (h3 : Blanks b3) (hbool : t ≠ some .bool) (path : Bytes)
    (hpath : path = before ++ 123 :: (b1 ++ name ++ b2 ++ typeText b3 t ++ 125 :: tail)) :
    register rs path m fn = .ok (rs ++ [⟨path, m, [⟨name, t.getD .str, []⟩], fn⟩]) := by
  have hstart : ∀ x : Bytes, x ≠ [] → parseOne .start (b1 ++ (name ++ x)) = parseOne (.var name) x := by
    intro x hx
    rw [(parseOne_blanks _ (by simp [hx]) b1 h1).1]
    split
    · exact parseOne_start name x hn hx
    · rw [← parseOne_start name x hn hx]
      cases name with
      | nil => exact absurd hn (by simp [NameOk])
      | cons c r => rw [List.cons_append, parseOne, parseOne]
  have hone : parseOne .start (b1 ++ (name ++ (b2 ++ (typeText b3 t ++ 125 :: tail)))) = some (name, t.getD .str) := by
    rw [hstart _ (by simp), (parseOne_blanks _ (by simp) b2 h2).2.2.2.1]
    cases t with
    | none => split <;> simp [typeText, parseOne, show varChar 125 = false by decide, show blank 125 = false by decide]
    | some t =>
      have hcolon : parseOne (.colon name) (b3 ++ (typeName t ++ 125 :: tail)) = some (name, t) := by
        rw [(parseOne_blanks _ (by simp) b3 h3).2.2.2.2]
        cases t <;>
        simp [parseOne, typeName, show blank 105 = false by decide, show alpha 105 = true by decide,
          show blank 102 = false by decide, show alpha 102 = true by decide,
          show blank 115 = false by decide, show alpha 115 = true by decide, getType, List.isPrefixOf] at hbool ⊢
      simp only [typeText, List.cons_append, List.append_assoc, Option.getD_some]
      split
      · rw [parseOne, if_neg (by decide), if_neg (by decide), if_pos (by decide), if_neg (by simp), hcolon]
      · rw [parseOne, if_neg (by decide), if_pos (by decide), if_neg (by simp), hcolon]
  have hno : (123 : Nat) ∉ b1 ++ (name ++ (b2 ++ (typeText b3 t ++ 125 :: tail))) := by
    have hbl : ∀ b, Blanks b → (123 : Nat) ∉ b := fun b hb hx => by rcases hb 123 hx with h | h <;> omega
    simp only [List.mem_append, List.mem_cons, not_or]
    refine ⟨hbl b1 h1, fun hx => (var_ne 123 (name_var _ hn 123 hx)).1 rfl, hbl b2 h2, ?_, by decide, ht⟩
    cases t with
    | none => simp [typeText]
    | some t =>
      simp only [typeText, List.mem_cons, List.mem_append, not_or]
      exact ⟨by decide, hbl b3 h3, by cases t <;> decide⟩
  have e : path = before ++ 123 :: (b1 ++ (name ++ (b2 ++ (typeText b3 t ++ 125 :: tail)))) := by
    rw [hpath]; simp
  have hp : parseParams path = .ok [⟨name, t.getD .str, []⟩] := by
    rw [e, parse_skip _ _ hb, parseParams, if_pos (by rfl), if_neg (by simp), hone, parse_plain _ hno]
  unfold register
  rw [hp]

example : registerAll [] [(b!"/f/{ on : int }", .get, 1), (b!"/g/{	x }", .get, 2)] =
    [⟨b!"/f/{ on : int }", .get, [⟨b!"on", .int, []⟩], 1⟩, ⟨b!"/g/{	x }", .get, [⟨b!"x", .str, []⟩], 2⟩] := by decide +kernel

theorem bindFrom_text (pu pr : Bytes) (ps : List Param) (k : Nat) (acc : List Param) (U R : Bytes) : ∀ (s : Bytes) (f : Nat), (123 : Nat) ∉ s →
    ∀ a, bindFrom (pu ++ a ++ s ++ U) (pr ++ a ++ s ++ R) ps (f + s.length) (pu.length + a.length) (pr.length + a.length) k acc =
      bindFrom (pu ++ a ++ s ++ U) (pr ++ a ++ s ++ R) ps f (pu.length + (a ++ s).length) (pr.length + (a ++ s).length) k acc
  | [], f, _, a => by simp
  | c :: s, f, h, a => by
    have ih := bindFrom_text pu pr ps k acc U R s f (fun hx => h (by simp [hx])) (a ++ [c])
    have e1 : ∀ x y : Bytes, x ++ (a ++ [c]) ++ s ++ y = x ++ a ++ c :: s ++ y := by intro x y; simp
    rw [e1, e1] at ih
    have e2 : a ++ [c] ++ s = a ++ c :: s := by simp
    rw [e2] at ih
    rw [← ih, List.length_cons, show f + (s.length + 1) = (f + s.length) + 1 from by omega, bindFrom, if_pos (by simp)]
    have hc : (pr ++ a ++ c :: s ++ R ++ [0])[pr.length + a.length]? = some c := by
      rw [show pr ++ a ++ c :: s ++ R ++ [0] = (pr ++ a) ++ c :: (s ++ R ++ [0]) from by simp, List.getElem?_append_right (by simp)]
      simp
    rw [hc]
    simp only
    rw [if_neg (by simp only [beq_iff_eq]; rintro rfl; exact h (by simp)), List.length_append, List.length_singleton]
    rfl

theorem bindFrom_segs : ∀ (l : List (Seg × Bytes)) (x : Seg × Bytes), (∀ y ∈ x :: l, SegOk y) →
    ∀ (pu pr : Bytes) (done ps acc : List Param) (f : Nat), ps.length = (paramValues (x :: l)).length → (x.2 ++ joined (l.map fun x => x.2)).length < f →
      bindFrom (pu ++ x.2 ++ joined (l.map fun x => x.2)) (pr ++ x.1.written ++ joined (l.map fun x => x.1.written)) (done ++ ps) f pu.length pr.length done.length acc =
        some (acc ++ List.zipWith (fun p v => { p with value := v }) ps (paramValues (x :: l))) := by
  intro l
  induction l with
  | nil =>
    rintro ⟨sg, v⟩ h pu pr done ps acc f hp hf
    obtain ⟨h1, h2, h3⟩ := h (sg, v) (by simp)
    cases sg with
    | text s =>
      simp only [SegRight] at h3
      obtain ⟨rfl, h4⟩ := h3
      have hps : ps = [] := by simpa [paramValues] using hp
      subst hps
      simp only [joined, List.map_nil, List.flatMap_nil, List.append_nil, Seg.written, paramValues, List.zipWith_nil_left] at hf ⊢
      obtain ⟨g, rfl⟩ : ∃ g, f = g + 1 + v.length := ⟨f - v.length - 1, by omega⟩
      have ht := bindFrom_text pu pr done done.length acc [] [] v (g + 1) h4 []
      simp only [List.append_nil, List.length_nil, Nat.add_zero, List.nil_append] at ht
      rw [ht, bindFrom, if_neg (by simp)]
    | param x =>
      simp only [SegRight] at h3
      obtain ⟨p, ps', rfl⟩ : ∃ p ps', ps = p :: ps' := by
        cases ps with
        | nil => simp [paramValues] at hp
        | cons p ps' => exact ⟨p, ps', rfl⟩
      obtain ⟨g, rfl⟩ : ∃ g, f = g + 1 := ⟨f - 1, by omega⟩
      have hps : ps' = [] := by simpa [paramValues] using hp
      subst hps
      have hl := List.length_pos_iff.2 h3
      simp only [joined, List.map_nil, List.flatMap_nil, List.append_nil, Seg.written, paramValues]
      rw [bindFrom, if_pos (by simp; omega)]
      simp [pos_none 47 v |>.2 h2]
  | cons y l ih =>
    rintro ⟨sg, v⟩ h pu pr done ps acc f hp hf
    obtain ⟨h1, h2, h3⟩ := h (sg, v) (by simp)
    have hj : ∀ g : Seg × Bytes → Bytes, joined ((y :: l).map g) = 47 :: (g y ++ joined (l.map g)) := by intro g; simp [joined]
    rw [hj] at hf ⊢
    rw [hj]
    cases sg with
    | text s =>
      simp only [SegRight] at h3
      obtain ⟨rfl, h4⟩ := h3
      simp only [List.length_append, List.length_cons] at hf
      obtain ⟨g, rfl⟩ : ∃ g, f = g + (v ++ [47]).length := ⟨f - v.length - 1, by simp; omega⟩
      have ht := bindFrom_text pu pr (done ++ ps) done.length acc (y.2 ++ joined (l.map fun x => x.2)) (y.1.written ++ joined (l.map fun x => x.1.written)) (v ++ [47]) g
        (by simp [h4]) []
      have := ih y (fun z hz => h z (by simp only [List.mem_cons] at hz ⊢; exact Or.inr hz)) (pu ++ v ++ [47]) (pr ++ v ++ [47]) done ps acc g (by simpa [paramValues] using hp)
        (by simp at hf ⊢; omega)
      simp only [List.append_nil, List.length_nil, Nat.add_zero, List.nil_append, List.length_append, List.length_singleton, List.append_assoc, List.cons_append, paramValues,
        Seg.written, Nat.add_assoc] at ht this ⊢
      rw [ht, this]
    | param x =>
      simp only [SegRight] at h3
      obtain ⟨p, ps', rfl⟩ : ∃ p ps', ps = p :: ps' := by
        cases ps with
        | nil => simp [paramValues] at hp
        | cons p ps' => exact ⟨p, ps', rfl⟩
      obtain ⟨g, rfl⟩ : ∃ g, f = g + 1 := ⟨f - 1, by omega⟩
      have hl := List.length_pos_iff.2 h3
      have := ih y (fun z hz => h z (by simp only [List.mem_cons] at hz ⊢; exact Or.inr hz)) (pu ++ v ++ [47]) (pr ++ (Seg.param x).written ++ [47]) (done ++ [p]) ps'
        (acc ++ [{ p with value := v }]) g (by simpa [paramValues] using hp) (by simp at hf ⊢; omega)
      rw [bindFrom, if_pos (by simp; omega)]
      have hc : (pr ++ (Seg.param x).written ++ 47 :: (y.1.written ++ joined (l.map fun x => x.1.written)) ++ [0])[pr.length]? = some 123 := by
        simp [Seg.written]
      have hk : (done ++ p :: ps')[done.length]? = some p := by simp
      have hdu : (pu ++ v ++ 47 :: (y.2 ++ joined (l.map fun x => x.2))).drop pu.length = v ++ 47 :: (y.2 ++ joined (l.map fun x => x.2)) := by simp
      have hdr : (pr ++ (Seg.param x).written ++ 47 :: (y.1.written ++ joined (l.map fun x => x.1.written))).drop pr.length =
        (Seg.param x).written ++ 47 :: (y.1.written ++ joined (l.map fun x => x.1.written)) := by simp
      rw [hc]
      simp only [hk, hdu, hdr, pos_append 47 _ _ h1, pos_append 47 _ _ h2, beq_self_eq_true, if_true, List.take_left']
      simp only [List.length_append, List.length_singleton, List.append_assoc, List.cons_append, List.nil_append, paramValues, Nat.add_assoc, List.zipWith_cons_cons] at this ⊢
      exact this

/-- **C25** (values): for a route with any number of parameters, each a whole segment, and a path whose segments are any non-empty texts at their places: the function gets every
parameter, in order, with exactly the text at its place.  (That such routes are found is another matter, `C24_inner_parameter_never_found_refuted`.) -/
theorem C25_values (l : List (Seg × Bytes)) (h : ∀ x ∈ l, SegOk x)
    (r : Route) (hu : r.uri = joined (l.map fun x => x.1.written)) (hp : r.params.length = (paramValues l).length) :
    bind (joined (l.map fun x => x.2)) r = some (List.zipWith (fun p v => { p with value := v }) r.params (paramValues l)) := by
  unfold bind
  split
  · next e => rw [e]; rfl
  · next hne =>
    cases l with
    | nil => exact absurd (by simpa [paramValues] using hp) hne
    | cons x l =>
      have hj : ∀ g : Seg × Bytes → Bytes, joined ((x :: l).map g) = [47] ++ g x ++ joined (l.map g) := by intro g; simp [joined]
      rw [hu, hj, hj]
      have ht := bindFrom_text [] [] r.params 0 [] (x.2 ++ joined (l.map fun x => x.2)) (x.1.written ++ joined (l.map fun x => x.1.written)) [47]
        ([47] ++ x.2 ++ joined (l.map fun x : Seg × Bytes => x.2)).length (by simp) []
      have := bindFrom_segs l x h [47] [47] [] r.params [] ([47] ++ x.2 ++ joined (l.map fun x : Seg × Bytes => x.2)).length hp (by simp)
      simp only [List.append_nil, List.length_nil, Nat.add_zero, List.nil_append, List.length_append, List.length_singleton, List.append_assoc, List.cons_append] at ht this ⊢
      rw [ht, this]

/-- Two parameters and a text between them. -/
example : let l := [(Seg.text b!"user", b!"user"), (.param b!"id:int", b!"7"), (.text b!"x", b!"x"), (.param b!"n", b!"bob")]
    (∀ x ∈ l, SegOk x) ∧ joined (l.map fun x => x.1.written) = b!"/user/{id:int}/x/{n}" ∧
    (registerAll [] [(b!"/user/{id:int}/x/{n}", .get, 1)]).map (bind b!"/user/7/x/bob") = [some [⟨b!"id", .int, b!"7"⟩, ⟨b!"n", .str, b!"bob"⟩]] := by
  refine ⟨?_, by decide +kernel, by decide +kernel⟩
  intro x hx
  simp only [List.mem_cons, List.not_mem_nil, or_false] at hx
  rcases hx with rfl | rfl | rfl | rfl <;> simp [SegOk, SegRight, Seg.written]

/-- **C25 refuted**: a parameter of type `bool` is registered as a `float`. -/
theorem C25_bool_is_float_refuted (before name tail : Bytes) (m : Method) (fn : Nat) (hb : Plain before) (ht : Plain tail)
    (hn : NameOk name) : register [] (writePath [⟨before, name, some .bool⟩] tail) m fn
      = .ok [⟨writePath [⟨before, name, some .bool⟩] tail, m, [⟨name, .float, []⟩], fn⟩] := by
  unfold register
  rw [parse_written tail ht _ (by intro w hw; simp at hw; subst hw; exact ⟨hb, hn⟩)]
  rfl

example : registerAll [] [(b!"/f/{on:bool}", .get, 1)] = [⟨b!"/f/{on:bool}", .get, [⟨b!"on", .float, []⟩], 1⟩] := by decide +kernel

/-- **C25 refuted**: of several parameters in the last segment only the first gets a value, and the text of the route
behind it is not compared. -/
theorem C25_only_first_parameter_refuted (r : Route) (hm : Made r) (pre rest u after : Bytes) (e : r.uri = pre ++ 123 :: rest)
    (hp : (123 : Nat) ∉ pre) (hr : (47 : Nat) ∉ rest) (s : Bytes) (hs : s ≠ []) (h47 : (47 : Nat) ∉ s) (m : Method)
    (hu : u = pre ++ s) : found u after m [r] = some (some r) ∧ ∃ p, bind u r = some [p] ∧ p.value = s := by
  have hmt : matchParam u after r.uri = .yes := by
    rw [e]; exact (match_last_iff u after pre rest hp hr).2 ⟨s, hu, hs, h47⟩
  have hne : r.params ≠ [] := fun h => (made_noparam r hm).1 h (by rw [e]; simp)
  obtain ⟨p, ps, hps⟩ := List.exists_cons_of_ne_nil hne
  obtain ⟨s', h1, h2, h3, h4⟩ := bind_last r pre rest u after p ps e hp hr hps hmt
  refine ⟨by rw [found, if_neg hne, hmt], _, h4, ?_⟩
  rw [hu] at h1
  exact (List.append_cancel_left h1).symm

example : (found b!"/photo/cat" [] .get (registerAll [] [(b!"/photo/{name}.png", .get, 1)])).map (·.map (·.fn))
    = some (some 1) := by decide +kernel
example : (found b!"/map/3,4" [] .get (registerAll [] [(b!"/map/{x:int},{y:int}", .get, 1)])).map (·.map (bind b!"/map/3,4"))
    = some (some (some [⟨b!"x", .int, b!"3,4"⟩])) := by decide +kernel

/-- What a written parameter may be followed by inside its braces: anything behind the name of its type. -/
theorem C25_type_suffix_accepted_refuted (pre name junk tail : Bytes) (m : Method) (fn : Nat) (hb : Plain pre)
    (hn : NameOk name) (hj : (123 : Nat) ∉ junk) (ht : Plain tail) :
    register [] (pre ++ 123 :: name ++ b!":int" ++ junk ++ 125 :: tail) m fn
      = .ok [⟨pre ++ 123 :: name ++ b!":int" ++ junk ++ 125 :: tail, m, [⟨name, .int, []⟩], fn⟩] := by
  unfold register
  have e : pre ++ 123 :: name ++ b!":int" ++ junk ++ 125 :: tail
      = pre ++ 123 :: (name ++ (b!":int" ++ (junk ++ 125 :: tail))) := by simp
  rw [e, parse_skip _ _ hb, parseParams, if_pos (by rfl), if_neg (by simp), parseOne_start _ _ hn (by simp)]
  have h1 : parseOne (.var name) (b!":int" ++ (junk ++ 125 :: tail)) = some (name, .int) := by
    simp [parseOne, show varChar 58 = false by decide, show blank 58 = false by decide,
      show blank 105 = false by decide, show alpha 105 = true by decide, getType, List.isPrefixOf,
      show 0 < junk.length + (tail.length + 1) by omega]
  rw [h1]
  simp only
  rw [parse_skip _ _ (fun hx => (var_ne _ (name_var _ hn _ hx)).1 rfl), parse_skip _ _ (by decide), parse_skip _ _ hj,
    parse_plain (125 :: tail) (by simp [Plain] at ht ⊢; exact ht)]
  rfl

example : registerAll [] [(b!"/a/{n:integer}", .get, 1)] = [⟨b!"/a/{n:integer}", .get, [⟨b!"n", .int, []⟩], 1⟩] := by
  decide +kernel

/-! ## C72 -/

/-- **C72**: the value of the Allow field is the comma separated list of the names of the valid methods. -/
theorem C72_allow_text (rs : List Route) (line : Bytes) : ListText (validMethods rs line) (allowValue rs line) := by
  have hname : ∀ m : Method, ((Req.methods.find? fun x => x.2 == m).map (·.1)).getD [] = methodName m := by
    intro m; cases m <;> decide
  have aux : ∀ (l : List Method), l ≠ [] →
      ListText l ((l.map fun m => ((Req.methods.find? fun x => x.2 == m).map (·.1)).getD []) |> List.intersperse b!", " |> List.flatten) := by
    intro l
    induction l with
    | nil => intro h; exact absurd rfl h
    | cons m l ih =>
      intro _
      cases l with
      | nil =>
        have := ListText.one m
        simp only [List.map_cons, List.map_nil, hname, List.intersperse, List.flatten_cons, List.flatten_nil, List.append_nil]
        exact this
      | cons m2 l =>
        have := ListText.cons m (m2 :: l) _ (ih (by simp))
        simp only [List.map_cons, hname, List.intersperse_cons₂, List.flatten_cons, List.append_assoc] at this ⊢
        exact this
  exact aux _ (by simp [validMethods])

/-- **C72**: every method registered for exactly the requested path is listed. -/
theorem C72_allow_complete (rs : List Route) (u after : Bytes) (r : Route) (hr : r ∈ rs) (hu : r.uri = u) :
    r.method ∈ validMethods rs (u ++ after) := by
  unfold validMethods
  by_cases h : r.method = .get
  · rw [h]; simp
  · refine List.mem_cons_of_mem _ (List.mem_map.2 ⟨r, List.mem_filter.2 ⟨hr, ?_⟩, rfl⟩)
    simp [hu, h]

/-- **C72**, the other direction: a listed method is GET or registered for a prefix of the request line from its path
on.  The claim wants the path itself. -/
theorem C72_allow_sound_partial (rs : List Route) (line : Bytes) (m : Method) (h : m ∈ validMethods rs line) :
    m = .get ∨ ∃ r ∈ rs, r.method = m ∧ r.uri <+: line := by
  rcases List.mem_cons.1 h with rfl | h
  · exact Or.inl rfl
  · obtain ⟨r, hr, rfl⟩ := List.mem_map.1 h
    obtain ⟨h1, h2⟩ := List.mem_filter.1 hr
    simp at h2
    exact Or.inr ⟨r, h1, rfl, h2.1⟩

/-- **C72 refuted**: methods of a route for a shorter path are listed as well. -/
theorem C72_allow_prefix_refuted (u more after : Bytes) (m : Method) (ps : List Param) (fn : Nat) :
    m ∈ validMethods [⟨u, m, ps, fn⟩] (u ++ more ++ after) := by
  unfold validMethods
  by_cases h : m = .get
  · simp [h]
  · simp [h]

/-- **C72 refuted**: GET is listed whether or not it is registered, and the method of a route with a parameter is not
listed for the paths that route serves (paths without braces). -/
theorem C72_allow_get_and_parameters_refuted (u after : Bytes) (p : Bytes) (m : Method) (ps : List Param) (fn : Nat)
    (hp : ¬ Plain p) (hu : (123 : Nat) ∉ u ++ after) : validMethods [⟨p, m, ps, fn⟩] (u ++ after) = [.get] := by
  unfold validMethods
  rw [List.filter_eq_nil_iff.2]
  · rfl
  · intro r hr
    simp at hr
    subst hr
    simp only [Bool.and_eq_true, not_and, List.isPrefixOf_iff_prefix]
    rintro ⟨t, e⟩
    exact absurd (fun hx => hu (by rw [← e]; simp [hx])) hp

example : allowValue (registerAll [] [(b!"/", .post, 1), (b!"/item", .put, 2), (b!"/item/{id}", .delete, 3)])
    b!"/items/7 HTTP/1.1\r\n" = b!"GET, POST, PUT" := by decide +kernel

end Fly.Route
