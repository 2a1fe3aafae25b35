import Verif.PyArgs.Lemmas

/-!
# Cookies, query strings, forms and handler arguments

C46 (Set-Cookie value), C47 (argument binding), C48 (query strings), C89 (request cookies),
C90 (form bodies), C91 (typed path parameters).
-/

namespace Fly.PyArgs
open Spec

/-! ## C46 -/

/-- The parts of the cookie a caller asks for. -/
def Cookie.parts (c : Cookie) : List (List Nat) :=
  cookieParts c.name c.value (c.maxAge.map dec) c.secure c.httpOnly c.domain c.path
    (c.sameSite.map (fun s => sameSiteText (match s with | .strict => 0 | .lax => 1 | .none_ => 2)))

theorem intercalate_head (sep a : Str) (l : List Str) :
    sep.intercalate (a :: l) = a ++ (l.flatMap (sep ++ ·)) := by
  induction l generalizing a with
  | nil => rw [intercalate_one]; simp
  | cons b l ih => rw [intercalate_cons2, ih]; simp [List.append_assoc]

/-- **C46_partial.**  For every name, value and combination of attributes (a lifetime other than 0, a
domain and a path that are not empty) the header value is exactly `name=value` and the requested
attributes, separated by `"; "`.  Missing: `C46_expire_refuted`, `C46_injection_refuted`. -/
theorem C46_partial (c : Cookie) (h1 : c.maxAge ≠ some 0) (h2 : c.domain ≠ some [])
    (h3 : c.path ≠ some []) : cookieValue c = b!"; ".intercalate c.parts := by
  obtain ⟨name, value, maxAge, secure, httpOnly, domain, path, sameSite⟩ := c
  simp only at h1 h2 h3
  simp only [cookieValue, Cookie.parts, cookieParts, List.append_assoc, List.singleton_append,
    List.cons_append, List.nil_append, intercalate_head, List.flatMap_append]
  rcases maxAge with _ | age <;> rcases domain with _ | dom <;> rcases path with _ | pth <;>
    rcases sameSite with _ | _ | _ | _ <;> cases secure <;> cases httpOnly <;> simp_all [sameSiteText, SameSite.text]

/-- What a receiver that splits at semicolons finds, when no part contains one: the parts, each but
the first after a space. -/
theorem C46_receiver (c : Cookie) (h1 : c.maxAge ≠ some 0) (h2 : c.domain ≠ some [])
    (h3 : c.path ≠ some []) (hs : ∀ p ∈ c.parts, 59 ∉ p) :
    ∃ rest, c.parts = (c.name ++ 61 :: c.value) :: rest ∧
      Pieces 59 (cookieValue c) ((c.name ++ 61 :: c.value) :: rest.map (32 :: ·)) := by
  rw [C46_partial c h1 h2 h3]
  obtain ⟨rest, hr⟩ : ∃ rest, c.parts = (c.name ++ 61 :: c.value) :: rest := by
    simp only [Cookie.parts, cookieParts, List.append_assoc, List.singleton_append]
    exact ⟨_, rfl⟩
  refine ⟨rest, hr, ?_⟩
  rw [hr] at hs ⊢
  have key : ∀ (l : List Str) (a : Str), 59 ∉ a → (∀ p ∈ l, 59 ∉ p) →
      Pieces 59 (b!"; ".intercalate (a :: l)) (a :: l.map (32 :: ·)) := by
    intro l
    induction l with
    | nil => intro a ha _; rw [intercalate_one]; exact .last ha
    | cons b l ih =>
      intro a ha hl
      rw [intercalate_cons2]
      have hb : 59 ∉ b := hl b (by simp)
      have := ih (32 :: b) (by simpa using hb) (fun p hp => hl p (by simp [hp]))
      rw [intercalate_head] at this
      rw [intercalate_head]
      exact .more ha (by simpa using this)
  exact key rest _ (hs _ (by simp)) (fun p hp => hs p (by simp [hp]))

/-- **C46_expire_refuted.**  A lifetime of 0, which tells the browser to forget the cookie, is never
written: for every cookie the header is the same as without a lifetime, a cookie kept until the
browser ends.  Empty domains and paths are dropped too. -/
theorem C46_expire_refuted (c : Cookie) :
    cookieValue { c with maxAge := some 0 } = cookieValue { c with maxAge := none } ∧
    cookieValue { c with path := some [] } = cookieValue { c with path := none } ∧
    cookieValue { c with domain := some [] } = cookieValue { c with domain := none } :=
  ⟨rfl, rfl, rfl⟩

/-- **C46_injection_refuted.**  Nothing is escaped: for every cookie, a value that ends in
`"; HttpOnly"` is the same header as the attribute, and a value that ends in `"; Domain=d"` sets the
domain. -/
theorem C46_injection_refuted (name value d : Str) (hd : d ≠ []) :
    cookieValue { name := name, value := value ++ b!"; HttpOnly" } =
      cookieValue { name := name, value := value, httpOnly := true } ∧
    cookieValue { name := name, value := value ++ b!"; Domain=" ++ d } =
      cookieValue { name := name, value := value, domain := some d } := by
  constructor
  · simp [cookieValue]
  · simp [cookieValue, hd]

def demoCookie : Cookie :=
  { name := b!"id", value := b!"42", maxAge := some 3600, secure := true, httpOnly := true,
    domain := some b!"example.org", path := some b!"/", sameSite := some .lax }

example : cookieValue demoCookie =
    b!"id=42; Max-Age=3600; Secure; HttpOnly; Domain=example.org; Path=/; SameSite=Lax" := by
  decide +kernel

example : demoCookie.maxAge ≠ some 0 ∧ demoCookie.domain ≠ some [] ∧ demoCookie.path ≠ some [] ∧
    ∀ p ∈ demoCookie.parts, 59 ∉ p := by decide +kernel

/-! ## C48 -/

theorem queryLit_ok (b : Nat) (h : QueryLit b) : b < 128 ∧ b ≠ 37 := ⟨h.1, h.2.1⟩

theorem pct_no {bs t : List Nat} (h : Pct QueryLit false bs t) : 38 ∉ t ∧ 61 ∉ t := by
  have := Pct_chars (P := fun c => c ≠ 38 ∧ c ≠ 61) (fun b hb => ⟨hb.2.2.1, hb.2.2.2⟩) (by decide)
    (fun x c hc => ⟨(hexOf_ascii hc).2.2.1, (hexOf_ascii hc).2.2.2.1⟩) (fun hp => by decide) h
  exact ⟨fun e => (this 38 e).1 rfl, fun e => (this 61 e).2 rfl⟩

/-- **C48_partial.**  For every non-empty list of names and values (any Unicode text) and every
percent-encoding of them in which `&`, `=` and `%` of names and values are encoded, the query string
is read back as exactly those pairs, in order.  Missing: an `=` that is not encoded
(`C48_equals_refuted`) and `+` for a space (`C48_plus_refuted`). -/
theorem C48_partial (fs : List Field) (hne : fs ≠ []) (h : ∀ f ∈ fs, f.Ok QueryLit false) :
    parseQuery (Field.join fs) = fs.map (fun f => (f.name, some f.value)) := by
  have hs : splitOn 38 (Field.join fs) = fs.map (fun f => f.tname ++ 61 :: f.tvalue) := by
    apply splitOn_intercalate
    · simpa using hne
    · intro l hl
      obtain ⟨f, hf, rfl⟩ := List.mem_map.1 hl
      obtain ⟨-, -, h3, h4⟩ := h f hf
      simp only [List.mem_append, List.mem_cons, not_or]
      exact ⟨(pct_no h3).1, by decide, (pct_no h4).1⟩
  rw [parseQuery, hs, List.map_map]
  apply List.map_congr_left
  intro f hf
  obtain ⟨h1, h2, h3, h4⟩ := h f hf
  simp only [Function.comp]
  rw [nameValue_eq _ _ (pct_no h3).2 (pct_no h4).2]
  simp only [Option.map_some]
  rw [unquote_Pct queryLit_ok h1 h3, unquote_Pct queryLit_ok h2 h4]

/-- **C48_equals_refuted.**  A value that contains an equals sign as itself, which is allowed in a
query, is cut there: for every name, beginning and rest of the value. -/
theorem C48_equals_refuted (n a b : Str) (hn : 38 ∉ n ∧ 61 ∉ n ∧ 37 ∉ n) (ha : 38 ∉ a ∧ 61 ∉ a ∧ 37 ∉ a)
    (hb : 38 ∉ b) : parseQuery (n ++ 61 :: (a ++ 61 :: b)) = [(n, some a)] := by
  have : 38 ∉ n ++ 61 :: (a ++ 61 :: b) := by
    simp only [List.mem_append, List.mem_cons, not_or]
    exact ⟨hn.1, by decide, ha.1, by decide, hb⟩
  rw [parseQuery, splitOn_none 38 _ this]
  simp only [List.map_cons, List.map_nil]
  rw [nameValue_more n a b hn.2.1 ha.2.1]
  simp only [Option.map_some, unquote_no_percent n hn.2.2, unquote_no_percent a ha.2.2]

/-- **C48_plus_refuted.**  The space a browser's form writes as `+` stays a plus sign: every text
without percent signs is handed on unchanged. -/
theorem C48_plus_refuted (n a b : Str) (hn : 38 ∉ n ∧ 61 ∉ n ∧ 37 ∉ n) (ha : 38 ∉ a ∧ 61 ∉ a ∧ 37 ∉ a)
    (hb : 38 ∉ b ∧ 61 ∉ b ∧ 37 ∉ b) :
    parseQuery (n ++ 61 :: (a ++ 43 :: b)) = [(n, some (a ++ 43 :: b))] := by
  have : 38 ∉ n ++ 61 :: (a ++ 43 :: b) := by
    simp only [List.mem_append, List.mem_cons, not_or]
    exact ⟨hn.1, by decide, ha.1, by decide, hb.1⟩
  rw [parseQuery, splitOn_none 38 _ this]
  simp only [List.map_cons, List.map_nil]
  rw [nameValue_eq n _ hn.2.1 (by
    simp only [List.mem_append, List.mem_cons, not_or]
    exact ⟨ha.2.1, by decide, hb.2.1⟩)]
  have h37 : 37 ∉ a ++ 43 :: b := by
    simp only [List.mem_append, List.mem_cons, not_or]
    exact ⟨ha.2.2, by decide, hb.2.2⟩
  simp only [Option.map_some, unquote_no_percent n hn.2.2, unquote_no_percent _ h37]

/-- Non-vacuity: `name=J%c3%b6rg&x=a%26b` (`ö` is U+00F6). -/
def demoFields : List Field :=
  [⟨b!"name", [74, 0xF6, 114, 103], b!"name", b!"J%c3%b6rg"⟩, ⟨b!"x", b!"a&b", b!"x", b!"a%26b"⟩]

example : ∀ f ∈ demoFields, f.Ok QueryLit false := by
  intro f hf
  simp only [demoFields, List.mem_cons, List.not_mem_nil, or_false] at hf
  have q : ∀ b, b < 128 ∧ b ≠ 37 ∧ b ≠ 38 ∧ b ≠ 61 → QueryLit b := fun b h => h
  rcases hf with rfl | rfl
  · refine ⟨by simp [Scalar], by simp [Scalar], ?_, ?_⟩
    · exact .lit (q _ (by decide)) (.lit (q _ (by decide)) (.lit (q _ (by decide))
        (.lit (q _ (by decide)) .nil)))
    · have e : utf8 [74, 0xF6, 114, 103] = [74, 16 * 12 + 3, 16 * 11 + 6, 114, 103] := by decide
      simp only [e]
      exact .lit (q _ (by decide)) (.pct (by unfold HexOf; omega) (by unfold HexOf; omega)
        (.pct (by unfold HexOf; omega) (by unfold HexOf; omega)
          (.lit (q _ (by decide)) (.lit (q _ (by decide)) .nil))))
  · refine ⟨by simp [Scalar], by simp [Scalar], ?_, ?_⟩
    · exact .lit (q _ (by decide)) .nil
    · have e : utf8 b!"a&b" = [97, 16 * 2 + 6, 98] := by decide
      simp only [e]
      exact .lit (q _ (by decide)) (.pct (by unfold HexOf; omega) (by unfold HexOf; omega)
        (.lit (q _ (by decide)) .nil))

example : parseQuery (Field.join demoFields) =
    [(b!"name", some [74, 0xF6, 114, 103]), (b!"x", some b!"a&b")] := by decide +kernel

/-! ## C47 -/

/-- How a parameter is bound, in the order path, query, cookie, header.  `pathOf` lists type and text
of the path parameters; the other lists are those of the request. -/
inductive Binds (fl : Str → Bool) (path : List PathParam) (query cookies : List (Str × Option Str))
    (header : List (Str × Str)) (p : Str) : Bound → Prop
  | pathInt {s : Str} {n : Int} :
      First (path.map (fun q => (q.param, q.type, q.value))) p (.int, s) → pyInt s = some n →
      Binds fl path query cookies header p (.val (.int n))
  | pathNoInt {s : Str} :
      First (path.map (fun q => (q.param, q.type, q.value))) p (.int, s) → pyInt s = none →
      Binds fl path query cookies header p .notFound
  | pathFloat {s : Str} :
      First (path.map (fun q => (q.param, q.type, q.value))) p (.float, s) → fl s = true →
      Binds fl path query cookies header p (.val (.float s))
  | pathNoFloat {s : Str} :
      First (path.map (fun q => (q.param, q.type, q.value))) p (.float, s) → fl s = false →
      Binds fl path query cookies header p .notFound
  | pathBool {s : Str} :
      First (path.map (fun q => (q.param, q.type, q.value))) p (.bool, s) →
      Binds fl path query cookies header p (.val (.bool (s ≠ [])))
  | pathStr {s : Str} :
      First (path.map (fun q => (q.param, q.type, q.value))) p (.str, s) →
      Binds fl path query cookies header p (.val (.str s))
  | query {s : Str} :
      Absent (path.map (fun q => (q.param, q.type, q.value))) p → First query p (some s) →
      Binds fl path query cookies header p (.val (.str s))
  | cookie {s : Str} :
      Absent (path.map (fun q => (q.param, q.type, q.value))) p →
      (Absent query p ∨ First query p none) → First cookies p (some s) →
      Binds fl path query cookies header p (.val (.str s))
  | header {s : Str} :
      Absent (path.map (fun q => (q.param, q.type, q.value))) p →
      (Absent query p ∨ First query p none) → (Absent cookies p ∨ First cookies p none) →
      First header p s →
      Binds fl path query cookies header p (.val (.str s))
  | nowhere :
      Absent (path.map (fun q => (q.param, q.type, q.value))) p →
      (Absent query p ∨ First query p none) → (Absent cookies p ∨ First cookies p none) →
      Absent header p → Binds fl path query cookies header p .keyError

theorem getPath_none {fl : Str → Bool} {p : Str} {l : List PathParam} (h : getPath fl p l = none) :
    Absent (l.map (fun q => (q.param, q.type, q.value))) p := by
  induction l with
  | nil => simp [Absent]
  | cons a l ih =>
    rw [getPath] at h
    split at h
    · rename_i hn
      intro x hx
      rw [List.map_cons, List.mem_cons] at hx
      rcases hx with rfl | hx
      · exact fun hm => hn ((norm_iff _ _).2 hm).symm
      · exact ih h x hx
    · cases h

theorem getPath_some {fl : Str → Bool} {p : Str} {l : List PathParam} {o : Option Val}
    (h : getPath fl p l = some o) : ∃ t s,
      First (l.map (fun q => (q.param, q.type, q.value))) p (t, s) ∧
      o = (match t with
        | .int => (pyInt s).map .int
        | .float => if fl s then some (.float s) else none
        | .bool => some (.bool (!s.isEmpty))
        | .str => some (.str s)) := by
  induction l with
  | nil => simp [getPath] at h
  | cons a l ih =>
    rw [getPath] at h
    split at h
    · rename_i hn
      obtain ⟨t, s, ⟨x, m, y, h1, h2, h3⟩, he⟩ := ih h
      refine ⟨t, s, ⟨(a.param, a.type, a.value) :: x, m, y, ?_, h2, ?_⟩, he⟩
      · rw [List.map_cons, h1]; rfl
      · intro z hz
        rcases List.mem_cons.1 hz with rfl | hz
        · exact fun hm => hn ((norm_iff _ _).2 hm).symm
        · exact h3 z hz
    · rename_i hn
      have hn' : p = norm a.param := Decidable.of_not_not hn
      simp only [Option.some.injEq] at h
      exact ⟨a.type, a.value, ⟨[], a.param, _, by rw [List.map_cons]; rfl,
        (norm_iff _ _).1 hn'.symm, by simp⟩, h.symm⟩

theorem bindOne_binds (fl : Str → Bool) (r : Req) (keys : List Str) (p : Str) (hk : p ∉ keys)
    (hr : p ≠ b!"request") :
    Binds fl r.path ((r.query.map parseQuery).getD []) (parseCookie r.cookies) r.header p
      (bindOne fl r keys p) := by
  unfold bindOne
  rw [if_pos ⟨hk, hr⟩]
  cases hp : getPath fl p r.path with
  | some o =>
    obtain ⟨t, s, hf, he⟩ := getPath_some hp
    subst he
    cases t with
    | int =>
      cases hi : pyInt s with
      | none => exact .pathNoInt hf hi
      | some n => exact .pathInt hf hi
    | float =>
      cases hi : fl s with
      | true => exact .pathFloat hf hi
      | false => exact .pathNoFloat hf hi
    | bool =>
      have e : (!s.isEmpty) = decide (s ≠ []) := by cases s <;> rfl
      simp only [e]
      exact .pathBool hf
    | str => exact .pathStr hf
  | none =>
    have h1 := getPath_none hp
    simp only
    have hq : r.query.bind (fun q => getNamed p (parseQuery q)) =
        getNamed p ((r.query.map parseQuery).getD []) := by
      cases r.query <;> rfl
    rw [hq]
    cases h2 : getNamed p ((r.query.map parseQuery).getD []) with
    | some v => exact .query h1 (getNamed_some h2)
    | none =>
      have h2' := getNamed_none h2
      simp only
      cases h3 : getNamed p (parseCookie r.cookies) with
      | some v => exact .cookie h1 h2' (getNamed_some h3)
      | none =>
        have h3' := getNamed_none h3
        simp only
        cases h4 : getNamed p (r.header.map (fun h => (h.1, some h.2))) with
        | some v =>
          refine .header h1 h2' h3' ?_
          obtain ⟨a, n, b, e, hm, hn⟩ := getNamed_some h4
          obtain ⟨a', b', e1, e2, e3⟩ := List.map_eq_append_iff.1 e
          cases b' with
          | nil => simp at e3
          | cons x b' =>
            obtain ⟨x1, x2⟩ := x
            simp only [List.map_cons, List.cons.injEq, Prod.mk.injEq, Option.some.injEq] at e3
            obtain ⟨⟨rfl, rfl⟩, -⟩ := e3
            refine ⟨a', x1, b', e1, hm, ?_⟩
            intro y hy
            have := hn (y.1, some y.2) (by rw [← e2]; exact List.mem_map_of_mem (f := fun h => (h.1, some h.2)) hy)
            exact this
        | none =>
          refine .nowhere h1 h2' h3' ?_
          rcases getNamed_none h4 with h | ⟨a, n, b, e, -⟩
          · intro x hx
            exact h (x.1, some x.2) (List.mem_map_of_mem (f := fun h => (h.1, some h.2)) hx)
          · exfalso
            have : (n, none) ∈ r.header.map (fun h => (h.1, some h.2)) := by rw [e]; simp
            obtain ⟨y, -, hy⟩ := List.mem_map.1 this
            simp at hy

/-- **C47_partial.**  For every request and every list of parameters that are not names of the
request's own entries: either every parameter gets its value in the order path, query, cookie,
header (the first entry of that name counts), or the first parameter that has none fails the call.
Missing: names with capitals, names of request entries, entries without a value and functions with
`**kwargs`, see the refutations. -/
theorem C47_partial (fl : Str → Bool) (r : Req) (ps : List Str)
    (hk : ∀ p ∈ ps, p ∉ r.keys ∧ p ≠ b!"cookie" ∧ p ≠ b!"request") :
    (∃ vs, parseArgs fl r ps false = .inl vs ∧ vs.length = ps.length ∧
      ∀ (i : Nat) (p : Str) (v : Val), ps[i]? = some p → vs[i]? = some v →
        Binds fl r.path ((r.query.map parseQuery).getD []) (parseCookie r.cookies) r.header p (.val v)) ∨
    (∃ a p b e, ps = a ++ p :: b ∧ parseArgs fl r ps false = .inr e ∧ (∀ v, e ≠ .val v) ∧
      Binds fl r.path ((r.query.map parseQuery).getD []) (parseCookie r.cookies) r.header p e ∧
      ∀ q ∈ a, ∃ v,
        Binds fl r.path ((r.query.map parseQuery).getD []) (parseCookie r.cookies) r.header q (.val v)) := by
  have key : ∀ (ps : List Str) (keys : List Str), (∀ p ∈ ps, p ∉ keys ∧ p ≠ b!"request") →
      (∃ vs, bindAll fl r keys ps = .inl vs ∧ vs.length = ps.length ∧
        ∀ (i : Nat) (p : Str) (v : Val), ps[i]? = some p → vs[i]? = some v →
        Binds fl r.path ((r.query.map parseQuery).getD []) (parseCookie r.cookies) r.header p (.val v)) ∨
      (∃ a p b e, ps = a ++ p :: b ∧ bindAll fl r keys ps = .inr e ∧ (∀ v, e ≠ .val v) ∧
        Binds fl r.path ((r.query.map parseQuery).getD []) (parseCookie r.cookies) r.header p e ∧
        ∀ q ∈ a, ∃ v,
          Binds fl r.path ((r.query.map parseQuery).getD []) (parseCookie r.cookies) r.header q (.val v)) := by
    intro ps
    induction ps with
    | nil => intro keys _; exact Or.inl ⟨[], rfl, rfl, by simp⟩
    | cons p ps ih =>
      intro keys h
      have hp := h p (by simp)
      have hb := bindOne_binds fl r keys p hp.1 hp.2
      have herase : keys.erase p = keys := List.erase_of_not_mem hp.1
      cases he : bindOne fl r keys p with
      | val v =>
        rw [he] at hb
        rw [bindAll, he]
        simp only [if_neg hp.2, herase]
        rcases ih keys (fun q hq => h q (by simp [hq])) with ⟨vs, e, hl, hv⟩ | ⟨a, q, b, e, h1, h2, h3, h4, h5⟩
        · left
          refine ⟨v :: vs, by rw [e], by simp [hl], ?_⟩
          intro i q w hq hw
          cases i with
          | zero =>
            simp only [List.getElem?_cons_zero, Option.some.injEq] at hq hw
            subst hq; subst hw; exact hb
          | succ i => exact hv i q w (by simpa using hq) (by simpa using hw)
        · right
          refine ⟨p :: a, q, b, e, by rw [h1]; rfl, by rw [h2], h3, h4, ?_⟩
          intro x hx
          rcases List.mem_cons.1 hx with rfl | hx
          · exact ⟨v, hb⟩
          · exact h5 x hx
      | notFound =>
        rw [he] at hb
        right
        exact ⟨[], p, ps, .notFound, rfl, by rw [bindAll, he], by simp, hb, by simp⟩
      | keyError =>
        rw [he] at hb
        right
        exact ⟨[], p, ps, .keyError, rfl, by rw [bindAll, he], by simp, hb, by simp⟩
      | attributeError =>
        rw [he] at hb
        cases hb
  have hk' : ∀ p ∈ ps, p ∉ r.keys.erase b!"cookie" ++ [b!"cookie"] ∧ p ≠ b!"request" := by
    intro p hp
    have := hk p hp
    refine ⟨?_, this.2.2⟩
    simp only [List.mem_append, List.mem_singleton, not_or]
    exact ⟨fun e => this.1 (List.mem_of_mem_erase e), this.2.1⟩
  rcases key ps _ hk' with ⟨vs, e, hl, hv⟩ | ⟨a, q, b, e, h1, h2, h3⟩
  · exact Or.inl ⟨vs, by simp [parseArgs, e], hl, hv⟩
  · exact Or.inr ⟨a, q, b, e, h1, by simp [parseArgs, h2], h3⟩

theorem nameChar_not_upper (c : Nat) : ¬ (65 ≤ nameChar c ∧ nameChar c ≤ 90) := by
  unfold nameChar
  split
  · omega
  · split <;> omega

/-- A parameter called `request` gets the whole request, for every request. -/
theorem C47_request (fl : Str → Bool) (r : Req) :
    parseArgs fl r [b!"request"] false = .inl [.request] := by
  have : bindOne fl r (r.keys.erase b!"cookie" ++ [b!"cookie"]) b!"request" = .val .request := by
    unfold bindOne
    rw [if_neg (fun h => h.2 rfl), if_pos rfl]
  simp only [parseArgs, bindAll, this, if_true, Bool.false_eq_true, if_false]

/-- **C47_capital_refuted.**  A parameter whose name contains a capital letter is never bound: for
every request, whatever path, query, cookies and headers it has, the call fails. -/
theorem C47_capital_refuted (fl : Str → Bool) (r : Req) (p : Str) (hk : p ∉ r.keys)
    (hu : ∃ c ∈ p, 65 ≤ c ∧ c ≤ 90) : parseArgs fl r [p] false = .inr .keyError := by
  have hno : ∀ n, ¬ Matches n p := by
    intro n hm
    obtain ⟨c, hc, h1, h2⟩ := hu
    rw [← hm] at hc
    obtain ⟨x, -, rfl⟩ := List.mem_map.1 hc
    exact nameChar_not_upper x ⟨h1, h2⟩
  have hcr : p ≠ b!"cookie" ∧ p ≠ b!"request" := by
    obtain ⟨c, hc, h1, h2⟩ := hu
    constructor
    · rintro rfl
      simp only [List.mem_cons, List.not_mem_nil, or_false] at hc
      omega
    · rintro rfl
      simp only [List.mem_cons, List.not_mem_nil, or_false] at hc
      omega
  have hfirst : ∀ {α : Type} (l : List (Str × α)) (v : α), ¬ First l p v := by
    rintro α l v ⟨a, n, b, -, hm, -⟩
    exact hno n hm
  rcases C47_partial fl r [p] (by simpa using ⟨hk, hcr.1, hcr.2⟩) with
    ⟨vs, -, hl, hv⟩ | ⟨a, q, b, e, h1, h2, h3, h4, -⟩
  · exfalso
    match vs, hl with
    | [v], _ =>
      have := hv 0 p v rfl rfl
      cases this with
      | pathInt h _ => exact hfirst _ _ h
      | pathFloat h _ => exact hfirst _ _ h
      | pathBool h => exact hfirst _ _ h
      | pathStr h => exact hfirst _ _ h
      | query _ h => exact hfirst _ _ h
      | cookie _ _ h => exact hfirst _ _ h
      | header _ _ _ h => exact hfirst _ _ h
  · have hq : q = p := by
      cases a with
      | nil => simp at h1; exact h1.1.symm
      | cons x a => simp at h1
    subst hq
    rw [h2]
    cases h4 with
    | pathInt _ _ => exact absurd rfl (h3 _)
    | pathFloat _ _ => exact absurd rfl (h3 _)
    | pathBool _ => exact absurd rfl (h3 _)
    | pathStr _ => exact absurd rfl (h3 _)
    | query _ _ => exact absurd rfl (h3 _)
    | cookie _ _ _ => exact absurd rfl (h3 _)
    | header _ _ _ _ => exact absurd rfl (h3 _)
    | pathNoInt h _ => exact absurd h (hfirst _ _)
    | pathNoFloat h _ => exact absurd h (hfirst _ _)
    | nowhere _ _ _ _ => rfl

/-- **C47_shadow_refuted.**  A parameter named like an entry of the request (`uri`, `host`, `port`,
`query`, `body`, …) gets that entry even when the path has a parameter of that name. -/
theorem C47_shadow_refuted (fl : Str → Bool) (r : Req) (p : Str) (hk : p ∈ r.keys)
    (hr : p ≠ b!"request") : parseArgs fl r [p] false = .inl [.field p] := by
  have hm : p ∈ r.keys.erase b!"cookie" ++ [b!"cookie"] := by
    by_cases hc : p = b!"cookie"
    · subst hc; simp
    · exact List.mem_append_left _ ((List.mem_erase_of_ne hc).2 hk)
  have : bindOne fl r (r.keys.erase b!"cookie" ++ [b!"cookie"]) p = .val (.field p) := by
    unfold bindOne
    rw [if_neg (fun h => h.1 hm), if_neg hr]
  simp [parseArgs, bindAll, this]

/-- **C47_valueless_refuted.**  An entry without a value hides the ones behind it: for every
parameter and value, the query `p&p=value` of a request without other parts does not bind `p`. -/
theorem C47_valueless_refuted (fl : Str → Bool) (keys : List Str) (p v : Str) (hm : Matches p p)
    (hp : 38 ∉ p ∧ 61 ∉ p ∧ 37 ∉ p) (hk : p ∉ keys) (hc : p ≠ b!"cookie") (hr : p ≠ b!"request") :
    parseArgs fl ⟨keys, [], some (p ++ 38 :: (p ++ 61 :: v)), [], []⟩ [p] false = .inr .keyError := by
  have hk' : p ∉ keys.erase b!"cookie" ++ [b!"cookie"] := by
    simp only [List.mem_append, List.mem_singleton, not_or]
    exact ⟨fun e => hk (List.mem_of_mem_erase e), hc⟩
  have hq : getNamed p (parseQuery (p ++ 38 :: (p ++ 61 :: v))) = none := by
    rw [parseQuery, splitOn_append 38 p _ hp.1, List.map_cons, nameValue_none p hp.2.1,
      unquote_no_percent p hp.2.2]
    rw [getNamed, if_pos ((norm_iff _ _).2 hm)]
    rfl
  have : bindOne fl ⟨keys, [], some (p ++ 38 :: (p ++ 61 :: v)), [], []⟩
      (keys.erase b!"cookie" ++ [b!"cookie"]) p = .keyError := by
    unfold bindOne
    rw [if_pos ⟨hk', hr⟩]
    simp only [getPath, Option.bind_some, hq, parseCookie, List.flatMap_nil, List.map_nil, getNamed]
  simp [parseArgs, bindAll, this]

/-- **C47_kwargs_refuted.**  A function with `**kwargs` can never be called, for any request and any
parameters. -/
theorem C47_kwargs_refuted (fl : Str → Bool) (r : Req) (ps : List Str) (vs : List Val) :
    parseArgs fl r ps true ≠ .inl vs := by
  unfold parseArgs
  split <;> simp

/-- Non-vacuity: one parameter from each source. -/
def demoReq : Req :=
  { keys := [b!"uri", b!"host", b!"header", b!"query"],
    path := [⟨b!"user-id", .int, b!"42"⟩], query := some b!"page=3&user_id=7",
    cookies := [b!"Session=abc; page=9"], header := [(b!"User-Agent", b!"curl"), (b!"Page", b!"1")] }

example : parseArgs (fun _ => true) demoReq
      [b!"user_id", b!"page", b!"session", b!"user_agent", b!"host", b!"request"] false =
    .inl [.int 42, .str b!"3", .str b!"abc", .str b!"curl", .field b!"host", .request] := by
  decide +kernel

example : parseArgs (fun _ => true) demoReq [b!"userId"] false = .inr .keyError := by decide +kernel

/-! ## C89 -/

/-- A name and a value of a cookie that are read back unchanged. -/
def PlainCookie (c : Str × Str) : Prop :=
  59 ∉ c.1 ∧ 61 ∉ c.1 ∧ Trimmed c.1 ∧ 59 ∉ c.2 ∧ 61 ∉ c.2 ∧ Trimmed c.2

/-- **C89_partial.**  For every non-empty list of cookies whose names and values contain no `;` and no
`=` and do not begin or end with white space, a `Cookie` header in the form browsers send it
(`name=value; name=value`) is read back as exactly those cookies.  Missing: values with an equals
sign, `C89_equals_refuted`. -/
theorem C89_partial (cs : List (Str × Str)) (hne : cs ≠ []) (h : ∀ c ∈ cs, PlainCookie c) :
    parseCookie [b!"; ".intercalate (cs.map (fun c => c.1 ++ 61 :: c.2))] =
      cs.map (fun c => (c.1, some c.2)) := by
  have key : ∀ (l : List (Str × Str)) (pre : Str) (c : Str × Str), (∀ c ∈ l, PlainCookie c) →
      PlainCookie c → (pre = [] ∨ pre = [32]) →
      (splitOn 59 (pre ++ b!"; ".intercalate ((c :: l).map (fun c => c.1 ++ 61 :: c.2)))).map
        (fun item => (strip (nameValue item).1, (nameValue item).2.map strip)) =
      (c :: l).map (fun c => (c.1, some c.2)) := by
    have hone : ∀ (pre : Str) (c : Str × Str), PlainCookie c → (pre = [] ∨ pre = [32]) →
        (strip (nameValue (pre ++ (c.1 ++ 61 :: c.2))).1,
          (nameValue (pre ++ (c.1 ++ 61 :: c.2))).2.map strip) = (c.1, some c.2) ∧
        59 ∉ pre ++ (c.1 ++ 61 :: c.2) := by
      intro pre c hc hpre
      obtain ⟨h1, h2, h3, h4, h5, h6⟩ := hc
      have hp61 : 61 ∉ pre ++ c.1 := by
        rcases hpre with rfl | rfl <;> simp [h2]
      rw [← List.append_assoc, nameValue_eq _ _ hp61 h5]
      refine ⟨?_, ?_⟩
      · simp only [Option.map_some, strip_trimmed c.2 h6]
        rcases hpre with rfl | rfl
        · rw [List.nil_append, strip_trimmed c.1 h3]
        · have : strip ([32] ++ c.1) = strip c.1 := by
            unfold strip
            have e : ([32] ++ c.1).dropWhile isSpace = c.1.dropWhile isSpace := by
              rw [List.singleton_append, List.dropWhile]
              rfl
            rw [e]
          rw [this, strip_trimmed c.1 h3]
      · simp only [List.mem_append, List.mem_cons, not_or]
        rcases hpre with rfl | rfl <;> simp [h1, h4]
    intro l
    induction l with
    | nil =>
      intro pre c _ hc hpre
      have := hone pre c hc hpre
      simp only [List.map_cons, List.map_nil]
      rw [intercalate_one, splitOn_none 59 _ this.2]
      simp only [List.map_cons, List.map_nil, this.1]
    | cons d l ih =>
      intro pre c hl hc hpre
      have h0 := hone pre c hc hpre
      have hd := ih [32] d (fun x hx => hl x (by simp [hx])) (hl d (by simp)) (Or.inr rfl)
      simp only [List.map_cons] at hd ⊢
      rw [intercalate_cons2, ← List.append_assoc]
      have e : pre ++ (c.1 ++ 61 :: c.2) ++ (b!"; " ++
          b!"; ".intercalate ((d.1 ++ 61 :: d.2) :: l.map (fun c => c.1 ++ 61 :: c.2))) =
          (pre ++ (c.1 ++ 61 :: c.2)) ++ 59 :: ([32] ++
          b!"; ".intercalate ((d.1 ++ 61 :: d.2) :: l.map (fun c => c.1 ++ 61 :: c.2))) := rfl
      rw [e, splitOn_append 59 _ _ h0.2, List.map_cons, hd, h0.1]
  cases cs with
  | nil => exact absurd rfl hne
  | cons c l =>
    have := key l [] c (fun x hx => h x (by simp [hx])) (h c (by simp)) (Or.inl rfl)
    simp only [parseCookie, List.flatMap_cons, List.flatMap_nil, List.append_nil]
    exact this

/-- **C89_equals_refuted.**  No cookie value the application ever sees contains an equals sign,
whatever the headers: values with padding (`YWJj==`) or with inner `name=value` texts are cut. -/
theorem C89_equals_refuted :
    (∀ (lines : List Str) (n v : Str), (n, some v) ∈ parseCookie lines → 61 ∉ v) ∧
    (∀ n a b : Str, 59 ∉ n ∧ 61 ∉ n ∧ Trimmed n → 59 ∉ a ∧ 61 ∉ a ∧ Trimmed a → 59 ∉ b →
      parseCookie [n ++ 61 :: (a ++ 61 :: b)] = [(n, some a)]) := by
  constructor
  · intro lines n v h
    simp only [parseCookie, List.mem_flatMap, List.mem_map, Prod.mk.injEq] at h
    obtain ⟨l, -, item, -, -, h⟩ := h
    cases hv : (nameValue item).2 with
    | none => rw [hv] at h; simp at h
    | some w =>
      rw [hv] at h
      simp only [Option.map_some, Option.some.injEq] at h
      subst h
      exact fun e => ((nameValue_mem item).2 w hv).1 (strip_mem e)
  · intro n a b hn ha hb
    have : 59 ∉ n ++ 61 :: (a ++ 61 :: b) := by
      simp only [List.mem_append, List.mem_cons, not_or]
      exact ⟨hn.1, by decide, ha.1, by decide, hb⟩
    simp only [parseCookie, List.flatMap_cons, List.flatMap_nil, List.append_nil,
      splitOn_none 59 _ this, List.map_cons, List.map_nil, nameValue_more n a b hn.2.1 ha.2.1,
      Option.map_some, strip_trimmed n hn.2.2, strip_trimmed a ha.2.2]

example : ∀ c ∈ [(b!"id", b!"42"), (b!"theme", b!"dark blue")], PlainCookie c := by
  intro c hc
  simp only [List.mem_cons, List.not_mem_nil, or_false] at hc
  rcases hc with rfl | rfl <;> simp [PlainCookie, Trimmed]

example : parseCookie [b!"id=42; theme=dark blue; token=YWJj=="] =
    [(b!"id", some b!"42"), (b!"theme", some b!"dark blue"), (b!"token", some b!"YWJj")] := by
  decide +kernel

/-! ## C90 -/

theorem setKey_new (d : List (Str × Option Str)) (n : Str) (v : Option Str)
    (h : ∀ x ∈ d, x.1 ≠ n) : setKey d n v = d ++ [(n, v)] := by
  induction d with
  | nil => rfl
  | cons x d ih =>
    obtain ⟨m, w⟩ := x
    rw [setKey, if_neg (h (m, w) (by simp)), ih (fun y hy => h y (by simp [hy]))]
    rfl

theorem foldl_setKey (l : List (Str × Option Str)) : ∀ d : List (Str × Option Str),
    ((d ++ l).map (·.1)).Nodup → l.foldl (fun d x => setKey d x.1 x.2) d = d ++ l := by
  induction l with
  | nil => intro d _; simp
  | cons x l ih =>
    intro d h
    rw [List.foldl_cons, setKey_new d x.1 x.2 ?_, ih]
    · simp
    · simpa using h
    · intro y hy e
      rw [List.map_append, List.nodup_append] at h
      exact h.2.2 y.1 (List.mem_map_of_mem hy) x.1 (by simp) e

theorem setKey_mem {d : List (Str × Option Str)} {n m : Str} {v w : Option Str}
    (h : (m, w) ∈ setKey d n v) : (m, w) ∈ d ∨ w = v := by
  induction d with
  | nil => simp [setKey] at h; exact Or.inr h.2
  | cons x d ih =>
    obtain ⟨k, u⟩ := x
    rw [setKey] at h
    split at h
    · rcases List.mem_cons.1 h with h | h
      · simp only [Prod.mk.injEq] at h; exact Or.inr h.2
      · exact Or.inl (by simp [h])
    · rcases List.mem_cons.1 h with h | h
      · exact Or.inl (by simp [h])
      · rcases ih h with h | h
        · exact Or.inl (by simp [h])
        · exact Or.inr h

/-- **C90_partial.**  For every non-empty form whose names are different and whose names and values
contain no `&` and no `=` and do not begin or end with white space, every way a browser may encode
it is read back as exactly those fields.  Missing: all other values, `C90_special_refuted`, and the
content type, `C90_type_refuted`. -/
theorem C90_partial (fs : List Field) (hne : fs ≠ []) (h : ∀ f ∈ fs, f.Ok FormLit true)
    (hp : ∀ f ∈ fs, 38 ∉ f.name ∧ 61 ∉ f.name ∧ Trimmed f.name ∧ 38 ∉ f.value ∧ 61 ∉ f.value ∧
      Trimmed f.value)
    (hd : (fs.map (·.name)).Nodup) :
    parseForm (Field.join fs) = some (fs.map (fun f => (f.name, some f.value))) := by
  -- the body is ASCII
  have hasc : ∀ c ∈ Field.join fs, c < 128 := by
    have hpc : ∀ {bs t : List Nat}, Pct FormLit true bs t → ∀ c ∈ t, c < 128 := fun h =>
      Pct_chars (P := fun c => c < 128) (fun b hb => hb.1) (by decide)
        (fun x c hc => (hexOf_ascii hc).1) (fun _ => by decide) h
    have : ∀ l : List Field, (∀ f ∈ l, f.Ok FormLit true) → ∀ c ∈ Field.join l, c < 128 := by
      intro l
      induction l with
      | nil => intro _ c hc; simp [Field.join, List.intercalate] at hc
      | cons f l ih =>
        intro hl c hc
        have hf := hl f (by simp)
        have h1 : ∀ c ∈ f.tname ++ 61 :: f.tvalue, c < 128 := by
          intro c hc
          simp only [List.mem_append, List.mem_cons] at hc
          rcases hc with hc | rfl | hc
          · exact hpc hf.2.2.1 c hc
          · decide
          · exact hpc hf.2.2.2 c hc
        cases l with
        | nil =>
          simp only [Field.join, List.map_cons, List.map_nil, intercalate_one] at hc
          exact h1 c hc
        | cons g l =>
          simp only [Field.join, List.map_cons, intercalate_cons2, List.singleton_append] at hc
          rcases List.mem_append.1 hc with hc | hc
          · exact h1 c hc
          · rcases List.mem_cons.1 hc with rfl | hc
            · decide
            · exact ih (fun x hx => hl x (by simp [hx])) c hc
    exact this fs h
  have hdec : decodeStrict (Field.join fs) = some (Field.join fs) := by
    have := decodeStrict_utf8 (Field.join fs) (fun c hc => scalar_ascii (hasc c hc))
    rwa [utf8_ascii _ hasc] at this
  -- decoding gives the joined names and values
  have hunq : unquotePlus (Field.join fs) =
      [38].intercalate (fs.map (fun f => f.name ++ 61 :: f.value)) := by
    have hmap : ∀ l : List Field, (∀ f ∈ l, f.Ok FormLit true) →
        unpercent ((Field.join l).map (fun c => if c = 43 then 32 else c)) =
        utf8 ([38].intercalate (l.map (fun f => f.name ++ 61 :: f.value))) := by
      intro l
      induction l with
      | nil => intro _; rfl
      | cons f l ih =>
        intro hl
        obtain ⟨-, -, h3, h4⟩ := hl f (by simp)
        have e43 : (if (61 : Nat) = 43 then 32 else 61) = 61 := by decide
        have e38 : (if (38 : Nat) = 43 then 32 else 38) = 38 := by decide
        have step : ∀ rest, unpercent ((f.tname ++ 61 :: f.tvalue).map
            (fun c => if c = 43 then 32 else c) ++ rest) =
            utf8 (f.name ++ 61 :: f.value) ++ unpercent rest := by
          intro rest
          rw [List.map_append, List.map_cons, e43, List.append_assoc,
            unpercent_Pct (fun b hb => hb.2.1) (Pct_plus h3), List.cons_append,
            unpercent_lit 61 _ (by decide), unpercent_Pct (fun b hb => hb.2.1) (Pct_plus h4),
            utf8_append, utf8_cons]
          simp [enc]
        cases l with
        | nil =>
          simp only [Field.join, List.map_cons, List.map_nil, intercalate_one]
          have := step []
          simpa [unpercent] using this
        | cons g l =>
          have ih' := ih (fun x hx => hl x (by simp [hx]))
          simp only [Field.join, List.map_cons] at ih' ⊢
          rw [intercalate_cons2, intercalate_cons2, List.map_append, step, List.singleton_append,
            List.map_cons, e38, unpercent_lit 38 _ (by decide), ih', List.singleton_append,
            utf8_append (f.name ++ 61 :: f.value), utf8_cons 38]
          simp [enc]
    have hasc2 : ∀ c ∈ (Field.join fs).map (fun c => if c = 43 then 32 else c), c < 128 := by
      intro c hc
      obtain ⟨x, hx, rfl⟩ := List.mem_map.1 hc
      split
      · decide
      · exact hasc x hx
    have hsc : ∀ l : List Field, (∀ f ∈ l, f.Ok FormLit true) →
        ∀ c ∈ [38].intercalate (l.map (fun f => f.name ++ 61 :: f.value)), Scalar c := by
      intro l
      induction l with
      | nil => intro _ c hc; simp [List.intercalate] at hc
      | cons f l ih =>
        intro hl c hc
        obtain ⟨h1, h2, -⟩ := hl f (by simp)
        have h0 : ∀ c ∈ f.name ++ 61 :: f.value, Scalar c := by
          intro c hc
          simp only [List.mem_append, List.mem_cons] at hc
          rcases hc with hc | rfl | hc
          · exact h1 c hc
          · exact scalar_ascii (by decide)
          · exact h2 c hc
        cases l with
        | nil => rw [List.map_cons, List.map_nil, intercalate_one] at hc; exact h0 c hc
        | cons g l =>
          simp only [List.map_cons, intercalate_cons2, List.singleton_append] at hc
          rcases List.mem_append.1 hc with hc | hc
          · exact h0 c hc
          · rcases List.mem_cons.1 hc with rfl | hc
            · exact scalar_ascii (by decide)
            · exact ih (fun x hx => hl x (by simp [hx])) c (by simpa using hc)
    rw [unquotePlus, unquote_ascii _ hasc2, hmap fs h, decodeReplace_utf8 _ (hsc fs h)]
  have hspl : splitOn 38 ([38].intercalate (fs.map (fun f => f.name ++ 61 :: f.value))) =
      fs.map (fun f => f.name ++ 61 :: f.value) := by
    apply splitOn_intercalate
    · simpa using hne
    · intro l hl
      obtain ⟨f, hf, rfl⟩ := List.mem_map.1 hl
      have := hp f hf
      simp only [List.mem_append, List.mem_cons, not_or]
      exact ⟨this.1, by decide, this.2.2.2.1⟩
  rw [parseForm, hdec, Option.map_some, hunq, hspl, List.foldl_map]
  have hitem : ∀ f ∈ fs, ∀ d : List (Str × Option Str),
      setKey d (strip (nameValue (f.name ++ 61 :: f.value)).1)
        ((nameValue (f.name ++ 61 :: f.value)).2.map strip) = setKey d f.name (some f.value) := by
    intro f hf d
    have := hp f hf
    rw [nameValue_eq _ _ this.2.1 this.2.2.2.2.1]
    simp only [Option.map_some, strip_trimmed _ this.2.2.1, strip_trimmed _ this.2.2.2.2.2]
  have hfold : ∀ (l : List Field) (d : List (Str × Option Str)), (∀ f ∈ l, f ∈ fs) →
      l.foldl (fun d f => setKey d (strip (nameValue (f.name ++ 61 :: f.value)).1)
        ((nameValue (f.name ++ 61 :: f.value)).2.map strip)) d =
      (l.map (fun f => (f.name, some f.value))).foldl (fun d x => setKey d x.1 x.2) d := by
    intro l
    induction l with
    | nil => intro d _; rfl
    | cons f l ih =>
      intro d hl
      rw [List.foldl_cons, List.map_cons, List.foldl_cons, hitem f (hl f (by simp)), ih]
      intro x hx; exact hl x (by simp [hx])
  rw [hfold fs [] (fun f hf => hf), foldl_setKey _ [] (by simpa [List.map_map, Function.comp_def] using hd)]
  simp

/-- **C90_special_refuted.**  Because the whole body is decoded before it is taken apart, no form can
deliver a value containing `&` or `=`, however it is encoded: for every body, no value the
application sees has one. -/
theorem C90_special_refuted (body : List Nat) (d : List (Str × Option Str))
    (h : parseForm body = some d) (n v : Str) (hm : (n, some v) ∈ d) : 38 ∉ v ∧ 61 ∉ v := by
  unfold parseForm at h
  cases hs : decodeStrict body with
  | none => rw [hs] at h; simp at h
  | some s =>
    rw [hs] at h
    simp only [Option.map_some, Option.some.injEq] at h
    subst h
    have hpieces := splitOn_mem 38 (unquotePlus s)
    have key : ∀ (l : List Str) (d : List (Str × Option Str)), (∀ p ∈ l, 38 ∉ p) →
        (∀ n v, (n, some v) ∈ d → 38 ∉ v ∧ 61 ∉ v) →
        ∀ n v, (n, some v) ∈ l.foldl (fun d item =>
          setKey d (strip (nameValue item).1) ((nameValue item).2.map strip)) d → 38 ∉ v ∧ 61 ∉ v := by
      intro l
      induction l with
      | nil => intro d _ hd; exact hd
      | cons p l ih =>
        intro d hl hd
        apply ih _ (fun q hq => hl q (by simp [hq]))
        intro n v hm
        rcases setKey_mem hm with hm | hm
        · exact hd n v hm
        · cases hv : (nameValue p).2 with
          | none => rw [hv] at hm; simp at hm
          | some w =>
            rw [hv] at hm
            simp only [Option.map_some, Option.some.injEq] at hm
            subst hm
            have := (nameValue_mem p).2 w hv
            exact ⟨fun e => hl p (by simp) (this.2 38 (strip_mem e)), fun e => this.1 (strip_mem e)⟩
    exact key _ [] (fun p hp => (hpieces p hp).1) (by simp) n v hm

/-- **C90_type_refuted.**  Content types are compared letter by letter: every content type that begins
with a capital (`Application/json`) or has a space before its parameters is refused as unsupported. -/
theorem C90_type_refuted (ct : Str) :
    (∀ c, 65 ≤ c → c ≤ 90 → formKind (c :: ct) = none) ∧
    formKind (b!"application/json ;" ++ ct) = none ∧
    formKind (b!"application/x-www-form-urlencoded ;" ++ ct) = none := by
  refine ⟨?_, ?_, ?_⟩
  · intro c h1 h2
    have h59 : ¬ c = 59 := by omega
    have hh : ∃ t, (splitOn 59 (c :: ct)).headD [] = c :: t := by
      rw [splitOn]
      cases hs : splitOn 59 ct with
      | nil => exact absurd hs (splitOn_ne 59 ct)
      | cons p ps => simp [h59]
    obtain ⟨t, ht⟩ := hh
    simp only [formKind, ht]
    rw [if_neg, if_neg, if_neg]
    all_goals
      intro e
      simp only [List.cons.injEq] at e
      omega
  · have e : splitOn 59 (b!"application/json ;" ++ ct) = b!"application/json " :: splitOn 59 ct :=
      splitOn_append 59 b!"application/json " ct (by decide)
    simp only [formKind, e, List.headD_cons]
    decide
  · have e : splitOn 59 (b!"application/x-www-form-urlencoded ;" ++ ct) =
        b!"application/x-www-form-urlencoded " :: splitOn 59 ct :=
      splitOn_append 59 b!"application/x-www-form-urlencoded " ct (by decide)
    simp only [formKind, e, List.headD_cons]
    decide

/-- Non-vacuity: two fields, one with a space and an umlaut. -/
def demoForm : List Field :=
  [⟨b!"a", b!"x y", b!"a", b!"x+y"⟩, ⟨b!"b", [0xFC], b!"b", b!"%C3%BC"⟩]

example : ∀ f ∈ demoForm, f.Ok FormLit true := by
  intro f hf
  simp only [demoForm, List.mem_cons, List.not_mem_nil, or_false] at hf
  have q : ∀ b, b < 128 ∧ b ≠ 37 ∧ b ≠ 38 ∧ b ≠ 61 ∧ b ≠ 43 → FormLit b := fun b h => h
  rcases hf with rfl | rfl
  · refine ⟨by simp [Scalar], by simp [Scalar], .lit (q _ (by decide)) .nil, ?_⟩
    exact .lit (q _ (by decide)) (.plus rfl (.lit (q _ (by decide)) .nil))
  · refine ⟨by simp [Scalar], by simp [Scalar], .lit (q _ (by decide)) .nil, ?_⟩
    have e : utf8 [0xFC] = [16 * 12 + 3, 16 * 11 + 12] := by decide
    simp only [e]
    exact .pct (by unfold HexOf; omega) (by unfold HexOf; omega)
      (.pct (by unfold HexOf; omega) (by unfold HexOf; omega) .nil)

example : parseForm (Field.join demoForm) = some [(b!"a", some b!"x y"), (b!"b", some [0xFC])] := by
  decide +kernel

example : parseForm b!"a=1%262&b=x%3Dy" =
    some [(b!"a", some b!"1"), (b!"2", none), (b!"b", some b!"x")] := by decide +kernel

/-! ## C91 -/

theorem digits_complete {s : Str} {n : Nat} (h : Digits s n) : ∀ t,
    digitsF false 0 (s ++ t) = digitsF true n t := by
  induction h with
  | one hd =>
    rename_i d
    intro t
    rw [List.singleton_append, digitsF, if_pos (by omega)]
    have : 10 * 0 + (48 + d - 48) = d := by omega
    rw [this]
  | more _ hd ih =>
    rename_i s n d _
    intro t
    rw [List.append_assoc, ih, List.singleton_append, digitsF, if_pos (by omega)]
    have : 10 * n + (48 + d - 48) = 10 * n + d := by omega
    rw [this]
  | under _ hd ih =>
    rename_i s n d _
    intro t
    have e : [95, 48 + d] ++ t = 95 :: (48 + d) :: t := rfl
    rw [List.append_assoc, ih, e, digitsF, if_neg (by omega), if_pos ⟨rfl, rfl⟩, digitsF,
      if_pos (by omega)]
    have : 10 * n + (48 + d - 48) = 10 * n + d := by omega
    rw [this]

theorem digits_sound (t : Str) : ∀ (pre : Str) (last : Bool) (acc n : Nat),
    (if last then Digits pre acc
      else (pre = [] ∧ acc = 0) ∨ ∃ q, pre = q ++ [95] ∧ Digits q acc) →
    digitsF last acc t = some n → Digits (pre ++ t) n := by
  induction t with
  | nil =>
    intro pre last acc n h e
    rw [digitsF] at e
    cases last with
    | true => simp at e h; subst e; simpa using h
    | false => simp at e
  | cons c t ih =>
    intro pre last acc n h e
    rw [digitsF] at e
    split at e
    · rename_i hc
      have hcd : c = 48 + (c - 48) := by omega
      have : Digits (pre ++ [c]) (10 * acc + (c - 48)) := by
        rw [hcd]
        have e2 : 48 + (c - 48) - 48 = c - 48 := by omega
        rw [e2]
        cases last with
        | true => exact .more (by simpa using h) (by omega)
        | false =>
          simp only [Bool.false_eq_true, if_false] at h
          rcases h with ⟨rfl, rfl⟩ | ⟨q, rfl, hq⟩
          · have := Digits.one (d := c - 48) (by omega)
            simpa using this
          · have := Digits.under hq (d := c - 48) (by omega)
            simpa using this
      have := ih (pre ++ [c]) true _ n (by simpa using this) e
      simpa using this
    · split at e
      · rename_i hc
        obtain ⟨rfl, rfl⟩ := hc
        have := ih (pre ++ [95]) false acc n
          (by simp only [Bool.false_eq_true, if_false]; exact Or.inr ⟨pre, rfl, by simpa using h⟩) e
        simpa using this
      · cases e

theorem digits_iff (s : Str) (n : Nat) : digitsF false 0 s = some n ↔ Digits s n := by
  constructor
  · intro h
    simpa using digits_sound s [] false 0 n (by simp) h
  · intro h
    have := digits_complete h []
    rwa [List.append_nil, digitsF, if_pos rfl] at this

theorem digits_head {s : Str} {n : Nat} (h : Digits s n) :
    ∃ c t, s = c :: t ∧ 48 ≤ c ∧ c ≤ 57 := by
  induction h with
  | one hd => exact ⟨_, [], rfl, by omega, by omega⟩
  | more _ _ ih => obtain ⟨c, t, rfl, h⟩ := ih; exact ⟨c, _, rfl, h⟩
  | under _ _ ih => obtain ⟨c, t, rfl, h⟩ := ih; exact ⟨c, _, rfl, h⟩

theorem pyInt_iff (s : Str) (ht : Trimmed s) (n : Int) : pyInt s = some n ↔ IntText s n := by
  unfold pyInt
  rw [strip_trimmed _ ht]
  constructor
  · intro h
    split at h
    · simp only [Option.map_eq_some_iff] at h
      obtain ⟨m, hm, rfl⟩ := h
      exact .plus ((digits_iff _ _).1 hm)
    · simp only [Option.map_eq_some_iff] at h
      obtain ⟨m, hm, rfl⟩ := h
      exact .minus ((digits_iff _ _).1 hm)
    · simp only [Option.map_eq_some_iff] at h
      obtain ⟨m, hm, rfl⟩ := h
      exact .plain ((digits_iff _ _).1 hm)
  · intro h
    cases h with
    | plain h =>
      obtain ⟨c, t, e, h1, h2⟩ := digits_head h
      split
      · simp only [List.cons.injEq] at e; omega
      · simp only [List.cons.injEq] at e; omega
      · rw [(digits_iff _ _).2 h]; rfl
    | plus h => simp only [(digits_iff _ _).2 h]; rfl
    | minus h => simp only [(digits_iff _ _).2 h]; rfl

/-- **C91_partial** (`int` parameters).  For every path segment without white space at its ends: if
the text denotes an integer the parameter is bound to exactly that number, of any size, and if it
denotes none the request is answered with 404.  Missing: `bool` (`C91_bool_refuted`) and which texts
`float` accepts. -/
theorem C91_partial (fl : Str → Bool) (r : Req) (p : Str)
    (hk : p ∉ r.keys ∧ p ≠ b!"cookie" ∧ p ≠ b!"request") (hm : Matches p p) (rest : List PathParam)
    (s : Str) (ht : Trimmed s) :
    (∀ n : Int, IntText s n →
      parseArgs fl { r with path := ⟨p, .int, s⟩ :: rest } [p] false = .inl [.int n]) ∧
    ((¬ ∃ n, IntText s n) →
      parseArgs fl { r with path := ⟨p, .int, s⟩ :: rest } [p] false = .inr .notFound) := by
  have hk' : p ∉ r.keys.erase b!"cookie" ++ [b!"cookie"] := by
    simp only [List.mem_append, List.mem_singleton, not_or]
    exact ⟨fun e => hk.1 (List.mem_of_mem_erase e), hk.2.1⟩
  have hnorm : ¬ (p ≠ norm p) := fun h => h ((norm_iff p p).2 hm).symm
  have hbind : bindOne fl { r with path := ⟨p, .int, s⟩ :: rest }
      (r.keys.erase b!"cookie" ++ [b!"cookie"]) p =
      (match pyInt s with | some n => .val (.int n) | none => .notFound) := by
    unfold bindOne
    rw [if_pos ⟨hk', hk.2.2⟩]
    simp only [getPath, if_neg hnorm]
    cases pyInt s <;> rfl
  constructor
  · intro n hn
    rw [(pyInt_iff s ht n).2 hn] at hbind
    simp [parseArgs, bindAll, hbind]
  · intro hno
    have e : pyInt s = none := by
      cases h : pyInt s with
      | none => rfl
      | some n => exact absurd ⟨n, (pyInt_iff s ht n).1 h⟩ hno
    rw [e] at hbind
    simp [parseArgs, bindAll, hbind]

example : IntText b!"-1_000" (-1000) := by
  have h1 : Digits b!"1" 1 := .one (d := 1) (by decide)
  have h2 : Digits b!"1_0" 10 := .under h1 (d := 0) (by decide)
  have h3 : Digits b!"1_00" 100 := .more h2 (d := 0) (by decide)
  have h4 : Digits b!"1_000" 1000 := .more h3 (d := 0) (by decide)
  exact .minus h4

example : ¬ ∃ n, IntText b!"12a" n := by
  rintro ⟨n, h⟩
  have := (pyInt_iff b!"12a" (by simp [Trimmed]) n).2 h
  revert this
  have e : pyInt b!"12a" = none := by decide +kernel
  rw [e]
  simp

/-- **C91_bool_refuted.**  A `bool` parameter is true whatever the path says: for every request,
parameter and non-empty segment (`false`, `0`, `no`) the handler gets `True`. -/
theorem C91_bool_refuted (fl : Str → Bool) (r : Req) (p : Str)
    (hk : p ∉ r.keys ∧ p ≠ b!"cookie" ∧ p ≠ b!"request") (hm : Matches p p) (rest : List PathParam)
    (s : Str) (hs : s ≠ []) :
    parseArgs fl { r with path := ⟨p, .bool, s⟩ :: rest } [p] false = .inl [.bool true] := by
  have hk' : p ∉ r.keys.erase b!"cookie" ++ [b!"cookie"] := by
    simp only [List.mem_append, List.mem_singleton, not_or]
    exact ⟨fun e => hk.1 (List.mem_of_mem_erase e), hk.2.1⟩
  have hnorm : ¬ (p ≠ norm p) := fun h => h ((norm_iff p p).2 hm).symm
  have hb : bindOne fl { r with path := ⟨p, .bool, s⟩ :: rest }
      (r.keys.erase b!"cookie" ++ [b!"cookie"]) p = .val (.bool true) := by
    unfold bindOne
    rw [if_pos ⟨hk', hk.2.2⟩]
    simp only [getPath, if_neg hnorm]
    cases s with
    | nil => exact absurd rfl hs
    | cons => rfl
  simp [parseArgs, bindAll, hb]

example : Matches b!"user_id" b!"user_id" ∧ b!"user_id" ∉ demoReq.keys := by
  constructor
  · unfold Matches; decide
  · decide

example : parseArgs (fun _ => true) { demoReq with path := [⟨b!"flag", .bool, b!"false"⟩,
      ⟨b!"n", .int, b!"-007"⟩] } [b!"flag", b!"n"] false = .inl [.bool true, .int (-7)] := by
  decide +kernel

end Fly.PyArgs
