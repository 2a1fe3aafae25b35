import Verif.PyForm.Lemmas

/-! # C117–C119: annotated parameters and forms -/

namespace Fly.PyForm

open Fly.PyArgs Fly.PyArgs.Spec
open Fly.PyForm.Spec

/-! ## C117: annotated parameters -/

theorem textOf_getNamed (l : List (Str × Option Str)) (p : Str) : TextOf l p (orNone (getNamed p l)) := by
  cases h : getNamed p l with
  | none => exact Or.inr ⟨getNamed_none h, rfl⟩
  | some s => exact Or.inl ⟨s, getNamed_some h, rfl⟩

theorem path_gets {fl : Str → Bool} {p : Str} {l : List PathParam} :
    match getPath fl p l with
    | none => Absent (l.map (fun q => (q.param, q.type, q.value))) p
    | some o => ∃ t s, First (l.map (fun q => (q.param, q.type, q.value))) p (t, s) ∧
        (match t with
        | .int => ∀ v, o = some v → ∃ n, pyInt s = some n ∧ v = .int n
        | .float => ∀ v, o = some v → fl s = true ∧ v = .float s
        | .bool => o = some (.bool (s ≠ []))
        | .str => o = some (.str s)) := by
  induction l with
  | nil => simp [getPath, Absent]
  | cons q l ih =>
    rw [getPath]
    by_cases h : p ≠ norm q.param
    · rw [if_pos h]
      have hn : ¬ Matches q.param p := fun hm => h ((norm_iff _ _).2 hm).symm
      revert ih
      cases getPath fl p l with
      | none =>
        intro ih x hx
        rcases List.mem_cons.1 hx with rfl | hx
        · exact hn
        · exact ih x hx
      | some o =>
        rintro ⟨t, s, ⟨a, n, b, e, h2, h3⟩, ht⟩
        refine ⟨t, s, ⟨(q.param, q.type, q.value) :: a, n, b, by rw [List.map_cons, e]; rfl, h2, ?_⟩, ht⟩
        intro x hx
        rcases List.mem_cons.1 hx with rfl | hx
        · exact hn
        · exact h3 x hx
    · rw [if_neg h]
      have hm : Matches q.param p := (norm_iff _ _).1 (by simpa using (Classical.not_not.1 h).symm)
      refine ⟨q.type, q.value, ⟨[], q.param, _, rfl, hm, by simp⟩, ?_⟩
      cases q.type with
      | int =>
        simp only
        intro v hv
        cases hp : pyInt q.value with
        | none => rw [hp] at hv; simp at hv
        | some n => rw [hp] at hv; simp at hv; exact ⟨n, rfl, hv.symm⟩
      | float =>
        simp only
        intro v hv
        split at hv
        · rename_i hf; exact ⟨hf, (Option.some.inj hv).symm⟩
        · simp at hv
      | bool =>
        simp only
        cases q.value <;> rfl
      | str => rfl

theorem left_mem {keys : List Str} {a : Option Ann} {p k : Str} (h : k ∈ keys) (hp : a.isNone → p ≠ k) : k ∈ left keys p a := by
  unfold left
  split
  · rename_i hc
    exact (List.mem_erase_of_ne (fun e => hp hc.1 e.symm)).2 h
  · exact h

theorem bindArgs_cons {fl : Str → Bool} {json : List Nat → Json} {r : Req} {keys : List Str} {p : Str} {a : Option Ann}
    {ps : List (Str × Option Ann)} {vs : List Arg} (h : bindArgs fl json r keys ((p, a) :: ps) = .ok vs) :
    ∃ v ws, vs = v :: ws ∧ bindParam fl json r keys p a = .ok v ∧
      bindArgs fl json r (left keys p a) ps = .ok ws := by
  rw [bindArgs] at h
  split at h
  · cases h
  · cases h
  · rename_i v hv
    split at h
    · rename_i ws hws
      cases h
      exact ⟨v, ws, rfl, hv, hws⟩
    · cases h
    · cases h

theorem checkAnn_gets {fl : Str → Bool} {json : List Nat → Json} {r : Req} {keys : List Str} {p : Str} {a : Ann} {v : Arg}
    (hk : ∀ k, entry a = some k → k ∈ keys ∨ (k = b!"path_params" ∧ r.path = []) ∨ (k = b!"body" ∧ r.body = none))
    (h : checkAnn fl json r keys p a = .ok v) : Gets fl r p a v := by
  cases a with
  | request => trivial
  | form c => trivial
  | other => trivial
  | header =>
    have hm := (hk _ rfl).resolve_right (by rintro (⟨h, -⟩ | ⟨h, -⟩) <;> exact absurd h (by decide))
    rw [checkAnn, if_pos hm] at h
    cases h
    exact textOf_getNamed _ _
  | cookie =>
    have hm := (hk _ rfl).resolve_right (by rintro (⟨h, -⟩ | ⟨h, -⟩) <;> exact absurd h (by decide))
    rw [checkAnn, if_pos hm] at h
    cases h
    exact textOf_getNamed _ _
  | query =>
    have hm := (hk _ rfl).resolve_right (by rintro (⟨h, -⟩ | ⟨h, -⟩) <;> exact absurd h (by decide))
    rw [checkAnn, if_pos hm] at h
    cases h
    have e : r.query.bind (fun q => getNamed p (parseQuery q)) = getNamed p ((r.query.map parseQuery).getD []) := by
      cases r.query <;> rfl
    rw [e]
    exact textOf_getNamed _ _
  | body =>
    rw [checkAnn] at h
    split at h
    · cases hb : r.body with
      | none => rw [hb] at h; cases h; exact Or.inr ⟨hb, rfl⟩
      | some b => rw [hb] at h; cases h; exact Or.inl ⟨b, hb, rfl⟩
    · rename_i hn
      cases h
      rcases hk _ rfl with h | ⟨h, -⟩ | ⟨-, h⟩
      · exact absurd h hn
      · exact absurd h (by decide)
      · exact Or.inr ⟨h, rfl⟩
  | path =>
    rw [checkAnn] at h
    split at h
    · have hp := path_gets (fl := fl) (p := p) (l := r.path)
      split at h
      · rename_i e; rw [e] at hp; cases h; exact Or.inl ⟨hp, rfl⟩
      · cases h
      · rename_i w e
        rw [e] at hp
        cases h
        obtain ⟨t, s, hf, ht⟩ := hp
        refine Or.inr ⟨t, s, hf, ?_⟩
        cases t with
        | int => obtain ⟨n, h1, h2⟩ := ht w rfl; exact ⟨n, h1, by rw [h2]⟩
        | float => obtain ⟨h1, h2⟩ := ht w rfl; exact ⟨h1, by rw [h2]⟩
        | bool => simp only at ht ⊢; rw [Option.some.inj ht]
        | str => simp only at ht ⊢; rw [Option.some.inj ht]
    · rename_i hn
      cases h
      rcases hk _ rfl with h | ⟨-, h⟩ | ⟨h, -⟩
      · exact absurd h hn
      · left; rw [h]; exact ⟨by simp [Absent], rfl⟩
      · exact absurd h (by decide)

theorem bindArgs_gets {fl : Str → Bool} {json : List Nat → Json} {r : Req} {a : Ann} :
    ∀ (ps : List (Str × Option Ann)) (keys : List Str) (vs : List Arg) (i : Nat) (p : Str) (v : Arg),
      bindArgs fl json r keys ps = .ok vs → ps[i]? = some (p, some a) → vs[i]? = some v →
      (∀ k, entry a = some k → k ∈ keys ∨ (k = b!"path_params" ∧ r.path = []) ∨ (k = b!"body" ∧ r.body = none)) →
      (∀ k j q, entry a = some k → j < i → ps[j]? = some (q, none) → q ≠ k) → Gets fl r p a v
  | [], _, _, i, p, v, _, hi, _, _, _ => by simp at hi
  | (q, b) :: ps, keys, vs, i, p, v, h, hi, hv, hk, hb => by
    obtain ⟨w, ws, rfl, hw, hws⟩ := bindArgs_cons h
    cases i with
    | zero =>
      simp at hi hv
      obtain ⟨rfl, rfl⟩ := hi
      subst hv
      exact checkAnn_gets hk hw
    | succ i =>
      simp only [List.getElem?_cons_succ] at hi hv
      refine bindArgs_gets ps (left keys q b) ws i p v hws hi hv ?_ ?_
      · intro k hek
        rcases hk k hek with h | h
        · refine Or.inl (left_mem h ?_)
          intro hn
          cases b with
          | none => exact hb k 0 q hek (by omega) rfl
          | some _ => simp at hn
        · exact Or.inr h
      · intro k j c hek hj hc
        exact hb k (j + 1) c hek (by omega) (by simpa using hc)

/-- **C117 (partial).** For every request, every handler and every parameter annotated as a header, cookie, query
parameter, path parameter or body: when the handler is called, this parameter is the first header (cookie, …) of that
name, converted as the route says, or `None` if the request has none – whatever the other parameters are, as long as no
parameter without annotation that has the name of the request's own entry stands before it. -/
theorem C117_annotated_partial {fl : Str → Bool} {json : List Nat → Json} {r : Req} (hr : Whole r)
    {ps : List (Str × Option Ann)} {vs : List Arg} (h : call fl json r ps = .called vs)
    {i : Nat} {p : Str} {a : Ann} {v : Arg} (hi : ps[i]? = some (p, some a)) (hv : vs[i]? = some v)
    (hb : ∀ k j q, entry a = some k → j < i → ps[j]? = some (q, none) → q ≠ k) : Gets fl r p a v := by
  unfold call at h
  split at h
  · rename_i ws hws
    cases h
    refine bindArgs_gets ps _ vs i p v hws hi hv ?_ hb
    have hck : ∀ k, k ∈ r.keys → k ∈ r.keys.erase b!"cookie" ++ [b!"cookie"] := by
      intro k hk
      by_cases e : k = b!"cookie"
      · subst e; simp
      · exact List.mem_append_left _ ((List.mem_erase_of_ne e).2 hk)
    obtain ⟨h1, h2, h3, h4⟩ := hr
    intro k hk
    cases a with
    | request => cases hk
    | form c => cases hk
    | other => cases hk
    | header => cases hk; exact Or.inl (hck _ h1)
    | query => cases hk; exact Or.inl (hck _ h2)
    | cookie => cases hk; exact Or.inl (by simp)
    | path =>
      cases hk
      by_cases e : r.path = []
      · exact Or.inr (Or.inl ⟨rfl, e⟩)
      · exact Or.inl (hck _ (h3 e))
    | body =>
      cases hk
      by_cases e : r.body = none
      · exact Or.inr (Or.inr ⟨rfl, e⟩)
      · exact Or.inl (hck _ (h4 e))
  · cases h
  · cases h

/-- **C117: called.** A handler whose parameters all carry one of these annotations, with every path parameter readable
as the route says, is always called – with one argument for each parameter. -/
theorem C117_called {fl : Str → Bool} {json : List Nat → Json} {r : Req} {ps : List (Str × Option Ann)}
    (ha : ∀ x ∈ ps, x.2 ∈ [some .request, some .header, some .body, some .cookie, some .query] ∨
      (x.2 = some .path ∧ ∀ q ∈ r.path, q.type = .str)) :
    ∃ vs, call fl json r ps = .called vs ∧ vs.length = ps.length := by
  have main : ∀ (ps : List (Str × Option Ann)) (keys : List Str),
      (∀ x ∈ ps, x.2 ∈ [some .request, some .header, some .body, some .cookie, some .query] ∨
        (x.2 = some .path ∧ ∀ q ∈ r.path, q.type = .str)) →
      ∃ vs, bindArgs fl json r keys ps = .ok vs ∧ vs.length = ps.length := by
    intro ps
    induction ps with
    | nil => intro keys _; exact ⟨[], rfl, rfl⟩
    | cons x ps ih =>
      intro keys ha
      obtain ⟨p, a⟩ := x
      have hx := ha (p, a) (by simp)
      have hone : ∃ b v, a = some b ∧ checkAnn fl json r keys p b = .ok v := by
        rcases hx with hx | ⟨rfl, hs⟩
        · simp only [List.mem_cons, List.not_mem_nil, or_false] at hx
          rcases hx with rfl | rfl | rfl | rfl | rfl
          · by_cases h1 : p = b!"request"
            · exact ⟨_, _, rfl, by rw [checkAnn, if_pos h1]⟩
            · by_cases h2 : p ∈ keys
              · exact ⟨_, _, rfl, by rw [checkAnn, if_neg h1, if_pos h2]⟩
              · exact ⟨_, _, rfl, by rw [checkAnn, if_neg h1, if_neg h2]⟩
          · by_cases h1 : b!"header" ∈ keys
            · exact ⟨_, _, rfl, by rw [checkAnn, if_pos h1]⟩
            · exact ⟨_, _, rfl, by rw [checkAnn, if_neg h1]⟩
          · by_cases h1 : b!"body" ∈ keys
            · exact ⟨_, _, rfl, by rw [checkAnn, if_pos h1]⟩
            · exact ⟨_, _, rfl, by rw [checkAnn, if_neg h1]⟩
          · by_cases h1 : b!"cookie" ∈ keys
            · exact ⟨_, _, rfl, by rw [checkAnn, if_pos h1]⟩
            · exact ⟨_, _, rfl, by rw [checkAnn, if_neg h1]⟩
          · by_cases h1 : b!"query" ∈ keys
            · exact ⟨_, _, rfl, by rw [checkAnn, if_pos h1]⟩
            · exact ⟨_, _, rfl, by rw [checkAnn, if_neg h1]⟩
        · by_cases h1 : b!"path_params" ∈ keys
          · have hg : getPath fl p r.path ≠ some none := by
              clear ih ha
              revert hs
              generalize r.path = l
              induction l with
              | nil => intro _; simp [getPath]
              | cons q l ih =>
                intro hs
                rw [getPath]
                split
                · exact ih (fun q hq => hs q (by simp [hq]))
                · rw [hs q (by simp)]; simp
            cases hgp : getPath fl p r.path with
            | none => exact ⟨_, _, rfl, by rw [checkAnn, if_pos h1, hgp]⟩
            | some o =>
              cases o with
              | none => exact absurd hgp hg
              | some v => exact ⟨_, _, rfl, by rw [checkAnn, if_pos h1, hgp]⟩
          · exact ⟨_, _, rfl, by rw [checkAnn, if_neg h1]⟩
      obtain ⟨b, v, rfl, hv⟩ := hone
      obtain ⟨vs, hvs, hl⟩ := ih keys (fun x hx => ha x (by simp [hx]))
      refine ⟨v :: vs, ?_, by simp [hl]⟩
      have hl' : left keys p (some b) = keys := by simp [left]
      rw [bindArgs, hl', hvs]
      simp only [bindParam, hv]
  obtain ⟨vs, h1, h2⟩ := main ps _ ha
  exact ⟨vs, by unfold call; rw [h1], h2⟩

/-- **C117 refuted (order).** A parameter without annotation called `header` takes the headers away: every header
parameter after it is `None`, whatever headers the client sent.  The same holds for `cookie`, `query` and `body`. -/
theorem C117_taken_refuted {fl : Str → Bool} {json : List Nat → Json} {r : Req} (hr : r.keys.Nodup) {a : Ann} {k : Str}
    (ha : (a = .header ∧ k = b!"header") ∨ (a = .query ∧ k = b!"query") ∨ (a = .cookie ∧ k = b!"cookie") ∨ (a = .body ∧ k = b!"body"))
    {ps : List (Str × Option Ann)} {vs : List Arg} (h : call fl json r ps = .called vs)
    {i j : Nat} {p : Str} {v : Arg} (hj : ps[j]? = some (k, none)) (hlt : j < i)
    (hi : ps[i]? = some (p, some a)) (hv : vs[i]? = some v) : v = .none := by
  have hkr : k ≠ b!"request" := by
    rcases ha with ⟨-, rfl⟩ | ⟨-, rfl⟩ | ⟨-, rfl⟩ | ⟨-, rfl⟩ <;> decide
  have hnone : ∀ keys v, k ∉ keys → checkAnn fl json r keys p a = .ok v → v = .none := by
    intro keys v hk hc
    rcases ha with ⟨rfl, rfl⟩ | ⟨rfl, rfl⟩ | ⟨rfl, rfl⟩ | ⟨rfl, rfl⟩ <;>
    · rw [checkAnn, if_neg hk] at hc
      cases hc; rfl
  have gone : ∀ (ps : List (Str × Option Ann)) (keys : List Str) (vs : List Arg) (i : Nat) (v : Arg), k ∉ keys →
      bindArgs fl json r keys ps = .ok vs → ps[i]? = some (p, some a) → vs[i]? = some v → v = .none := by
    intro ps
    induction ps with
    | nil => intro keys vs i v _ _ hi _; simp at hi
    | cons x ps ih =>
      intro keys vs i v hk hb hi hv
      obtain ⟨q, b⟩ := x
      obtain ⟨w, ws, rfl, hw, hws⟩ := bindArgs_cons hb
      cases i with
      | zero =>
        simp at hi hv
        obtain ⟨rfl, rfl⟩ := hi
        subst hv
        exact hnone keys w hk hw
      | succ i =>
        simp only [List.getElem?_cons_succ] at hi hv
        refine ih (left keys q b) ws i v ?_ hws hi hv
        unfold left
        split
        · exact fun hm => hk (List.mem_of_mem_erase hm)
        · exact hk
  have main : ∀ (ps : List (Str × Option Ann)) (keys : List Str) (vs : List Arg) (i j : Nat) (v : Arg), keys.Nodup →
      bindArgs fl json r keys ps = .ok vs → ps[j]? = some (k, none) → j < i → ps[i]? = some (p, some a) → vs[i]? = some v → v = .none := by
    intro ps
    induction ps with
    | nil => intro keys vs i j v _ _ _ _ hi _; simp at hi
    | cons x ps ih =>
      intro keys vs i j v hnd hb hj hlt hi hv
      obtain ⟨q, b⟩ := x
      obtain ⟨w, ws, rfl, hw, hws⟩ := bindArgs_cons hb
      cases i with
      | zero => omega
      | succ i =>
        simp only [List.getElem?_cons_succ] at hi hv
        cases j with
        | zero =>
          simp at hj
          obtain ⟨rfl, rfl⟩ := hj
          refine gone ps _ ws i v ?_ hws hi hv
          unfold left
          rw [if_pos ⟨rfl, hkr⟩]
          exact fun hm => (List.Nodup.mem_erase_iff hnd).1 hm |>.1 rfl
        | succ j =>
          refine ih (left keys q b) ws i j v ?_ hws (by simpa using hj) (by omega) hi hv
          unfold left
          split
          · exact hnd.erase _
          · exact hnd
  unfold call at h
  split at h
  · rename_i ws hws
    cases h
    refine main ps _ vs i j v ?_ hws hj hlt hi hv
    rw [List.nodup_append]
    refine ⟨hr.erase _, by simp, ?_⟩
    intro x hx y hy e
    simp at hy; subst hy; subst e
    exact (List.Nodup.mem_erase_iff hr).1 hx |>.1 rfl
  · cases h
  · cases h

/-- **C117 refuted (capitals).** A header parameter whose name has a capital letter (`userId: Header`) is `None` in
every call, whatever the client sends; so is a query parameter and a cookie. -/
theorem C117_capital_refuted {fl : Str → Bool} {json : List Nat → Json} {r : Req} {ps : List (Str × Option Ann)} {vs : List Arg}
    (h : call fl json r ps = .called vs) {i : Nat} {p : Str} {a : Ann} {v : Arg} (hi : ps[i]? = some (p, some a)) (hv : vs[i]? = some v)
    (ha : a = .header ∨ a = .query ∨ a = .cookie) (hp : ∃ c ∈ p, 65 ≤ c ∧ c ≤ 90) : v = .none := by
  have hno : ∀ l : List (Str × Option Str), getNamed p l = none := by
    intro l
    apply getNamed_absent
    intro x _ hm
    obtain ⟨c, hc, h1, h2⟩ := hp
    rw [← hm] at hc
    obtain ⟨d, -, rfl⟩ := List.mem_map.1 hc
    exact nameChar_not_upper d ⟨h1, h2⟩
  have main : ∀ (ps : List (Str × Option Ann)) (keys : List Str) (vs : List Arg) (i : Nat) (v : Arg),
      bindArgs fl json r keys ps = .ok vs → ps[i]? = some (p, some a) → vs[i]? = some v → v = .none := by
    intro ps
    induction ps with
    | nil => intro keys vs i v _ hi _; simp at hi
    | cons x ps ih =>
      intro keys vs i v hb hi hv
      obtain ⟨q, b⟩ := x
      obtain ⟨w, ws, rfl, hw, hws⟩ := bindArgs_cons hb
      cases i with
      | zero =>
        simp at hi hv
        obtain ⟨rfl, rfl⟩ := hi
        subst hv
        simp only [bindParam] at hw
        rcases ha with rfl | rfl | rfl
        · rw [show checkAnn fl json r keys q .header = .ok .none by
            rw [checkAnn, hno]; simp [orNone]] at hw
          cases hw; rfl
        · rw [show checkAnn fl json r keys q .query = .ok .none by
            rw [checkAnn]
            have : r.query.bind (fun s => getNamed q (parseQuery s)) = none := by
              cases r.query with
              | none => rfl
              | some s => exact hno _
            rw [this]; simp [orNone]] at hw
          cases hw; rfl
        · rw [show checkAnn fl json r keys q .cookie = .ok .none by
            rw [checkAnn, hno]; simp [orNone]] at hw
          cases hw; rfl
      | succ i =>
        simp only [List.getElem?_cons_succ] at hi hv
        exact ih _ ws i v hws hi hv
  unfold call at h
  split at h
  · rename_i ws hws
    cases h
    exact main ps _ vs i v hws hi hv
  · cases h
  · cases h

/-- A request with a header, a query and a path parameter. -/
def demo : Req :=
  { keys := [b!"uri", b!"query", b!"path_params", b!"header", b!"cookie", b!"body"]
    path := [⟨b!"user_id", .int, b!"10"⟩], query := some b!"q=a%20b", cookies := [b!"id=7"]
    header := [(b!"User-Agent", b!"t"), (b!"Content-Type", b!"application/json; charset=utf-8")], body := some (.bytes b!"{}") }

example : Whole demo ∧ demo.keys.Nodup ∧ call (fun _ => true) (fun _ => .object []) demo
      [(b!"user_agent", some .header), (b!"user_id", some .path), (b!"q", some .query), (b!"id", some .cookie), (b!"x", some .header), (b!"body", some .body)] =
    .called [.val (.str b!"t"), .val (.int 10), .val (.str b!"a b"), .val (.str b!"7"), .none, .body (.bytes b!"{}")] := by
  decide +kernel

example : call (fun _ => true) (fun _ => .object []) demo [(b!"header", none), (b!"user_agent", some .header)] =
    .called [.val (.field b!"header"), .none] := by decide +kernel

example : call (fun _ => true) (fun _ => .object []) demo [(b!"User_Agent", some .header)] = .called [.none] := by decide +kernel

/-! ## C118: multipart forms -/

theorem formKind_multipart (w : Str) : formKind (b!"multipart/form-data;" ++ w) = some .multipart := by
  have e : splitOn 59 (b!"multipart/form-data;" ++ w) = b!"multipart/form-data" :: splitOn 59 w :=
    splitOn_append 59 b!"multipart/form-data" w (by decide)
  unfold formKind
  simp only [e, List.headD_cons]
  decide

/-- **C118 (partial).** From the bytes of the request to the fields of the form: for every boundary, every non-empty
list of fields with different names without quotes (text fields, files, any content in which the delimiter does not
occur and that does not begin with NUL), every preamble and epilogue – the form's class receives exactly these names
with exactly these contents, in order. -/
theorem C118_form_received_partial {h : List Header.HField} {bd : Bytes} (hbd : Multipart.Spec.GoodBoundary bd)
    (hh : Multipart.HasType h (b!"multipart/form-data; boundary=" ++ bd)) (pre : Option Bytes) (hpre : ∀ t, pre = some t → Multipart.Spec.Free bd t) (ep : Bytes)
    (fs : List FormField) (hne : fs ≠ []) (hfs : ∀ f ∈ fs, PlainField f ∧ Multipart.Spec.Free bd f.content ∧ f.content.head? ≠ some 0)
    (hd : (fs.map (·.name)).Nodup) (json : List Nat → Json) (ct : Str) :
    ∃ raw ps, Multipart.bodySeen h (Multipart.Spec.encode bd pre ep (fs.map wire)) = .parts raw ∧ decodeParts raw = some ps ∧
      dataForm json (some (.parts ps)) (b!"multipart/form-data;" ++ ct) = .ok (.dict (fs.map (fun f => (f.name, .content f.content)))) := by
  refine ⟨fs.map wire, fs.map seen, ?_, decodeParts_wire fs (fun f hf => (hfs f hf).1), ?_⟩
  · apply Multipart.C98_parts_received_partial hbd hh pre hpre ep
    · simpa using hne
    · intro p hp
      obtain ⟨f, hf, rfl⟩ := List.mem_map.1 hp
      exact ⟨wire_good (hfs f hf).1, (hfs f hf).2.1⟩
    · intro p hp
      obtain ⟨f, hf, rfl⟩ := List.mem_map.1 hp
      exact (hfs f hf).2.2
  · unfold dataForm
    rw [formKind_multipart]
    simp only
    rw [multipartForm_seen fs (fun f hf => (hfs f hf).1), foldl_put fs [] (by simpa using hd)]
    rfl

/-- **C118 refuted (repeated names).** Several fields of one name (a list of check boxes, several files): only the last
one reaches the handler, however many there are; the contents of the others are nowhere in the form. -/
theorem C118_repeated_refuted (json : List Nat → Json) (ct : Str) (as bs : List FormField) (f : FormField) (hs : ∀ g ∈ as ++ f :: bs, PlainField g)
    (hlast : ∀ g ∈ bs, g.name ≠ f.name) :
    ∃ d, dataForm json (some (.parts ((as ++ f :: bs).map seen))) (b!"multipart/form-data;" ++ ct) = .ok (.dict d) ∧
      (d.map (·.1)).Nodup ∧ ∀ v, (f.name, v) ∈ d ↔ v = .content f.content := by
  refine ⟨(as ++ f :: bs).foldl (fun d f => put d f.name (.content f.content)) [], ?_, (foldl_put_mem _ _ (by simp)).1, ?_⟩
  · unfold dataForm
    rw [formKind_multipart]
    simp only
    rw [multipartForm_seen _ hs]
  · intro v
    rw [List.foldl_append, List.foldl_cons]
    have hnd := (foldl_put_mem as [] (by simp)).1
    rw [(foldl_put_mem bs _ (put_nodup hnd)).2 f.name v hlast, put_mem hnd]
    constructor
    · rintro (h | h)
      · exact h.2
      · exact absurd rfl h.1
    · intro h; exact Or.inl ⟨rfl, h⟩

/-- A form with a part whose disposition cannot be read is refused, whatever the other parts are. -/
theorem multipartForm_bad (as bs : List Part) (p : Part) (v : Str) (hp : ∃ l m, p.header = l ++ (b!"Content-Disposition", v) :: m)
    (hv : contentName v = none) : ∀ d, multipartForm (as ++ p :: bs) d = none := by
  have hh : ∀ c d, partHeaders c p.header d = none := by
    obtain ⟨l, m, e⟩ := hp
    rw [e]
    clear e
    intro c
    induction l with
    | nil => intro d; rw [List.nil_append, partHeaders, if_pos (by decide), hv]
    | cons x l ih =>
      intro d
      obtain ⟨n, w⟩ := x
      rw [List.cons_append, partHeaders]
      split
      · cases contentName w with
        | none => rfl
        | some name => exact ih _
      · exact ih _
  induction as with
  | nil => intro d; rw [List.nil_append, multipartForm, hh]
  | cons a as ih =>
    intro d
    rw [List.cons_append, multipartForm]
    cases partHeaders a.content a.header d with
    | none => rfl
    | some d => exact ih d

/-- **C118 refuted (other parameters).** A disposition whose last parameter is not quoted – a name written as a token
(`name=a`), the extended file name of RFC 6266 (`filename*=UTF-8''x`), a size – makes the whole form a 400. -/
theorem C118_unquoted_refuted (json : List Nat → Json) (ct : Str) (as bs : List Part) (p : Part) (v : Str) (c : Nat)
    (hc : isSpace c = false ∧ c ≠ 34 ∧ c ≠ 39 ∧ c ≠ 59)
    (hp : ∃ l m, p.header = l ++ (b!"Content-Disposition", v ++ [c]) :: m) :
    dataForm json (some (.parts (as ++ p :: bs))) (b!"multipart/form-data;" ++ ct) = .http 400 := by
  have hn : contentName (v ++ [c]) = none := by
    cases e : contentName (v ++ [c]) with
    | none => rfl
    | some n =>
      rcases contentName_ends e c (by simp) with h | h | h
      · rw [hc.1] at h; cases h
      · simp [isQuote] at h; omega
      · exact absurd h hc.2.2.2
  unfold dataForm
  rw [formKind_multipart]
  simp only
  rw [multipartForm_bad as bs p _ hp hn]

/-- **C118 refuted (writing).** A disposition is also refused when `form-data` is not written in small letters or is
followed by a space, or when another parameter comes before the name. -/
theorem C118_writing_refuted (v : Str) (hv : ¬ (b!"form-data;" <+: v)) (hs : ∀ c, v.head? = some c → isSpace c = false) :
    contentName v = none := by
  unfold contentName
  have e : skip v = v := by
    cases v with
    | nil => rfl
    | cons c v => exact skip_self (hs c rfl)
  rw [e]
  cases h : lit b!"form-data;" v with
  | none => rfl
  | some t => exact absurd ⟨t, (lit_eq h).symm⟩ hv

theorem C118_order_refuted (v : Str) (hv : ¬ (b!"name" <+: v)) (hs : ∀ c, v.head? = some c → isSpace c = false) :
    contentName (b!"form-data; " ++ v) = none := by
  unfold contentName
  have e : skip v = v := by
    cases v with
    | nil => rfl
    | cons c v => exact skip_self (hs c rfl)
  have e1 : skip (b!"form-data; " ++ v) = b!"form-data;" ++ (32 :: v) := rfl
  have e2 : skip (32 :: v) = skip v := rfl
  rw [e1, lit_append]
  simp only [e2, e]
  cases h : lit b!"name" v with
  | none => rfl
  | some t => exact absurd ⟨t, (lit_eq h).symm⟩ hv

/-- A text field and a file. -/
def demoFields : List FormField :=
  [⟨b!"title", none, none, b!"x"⟩, ⟨b!"up", some b!"a b.png", some b!"image/png", [137, 80, 0, 13, 10]⟩]

example : (∀ f ∈ demoFields, PlainField f) ∧ (demoFields.map (·.name)).Nodup := by
  refine ⟨?_, by decide⟩
  intro f hf
  simp only [demoFields, List.mem_cons, List.not_mem_nil, or_false] at hf
  have sc : ∀ l : Str, (∀ x ∈ l, x < 128) → ∀ c ∈ l, Scalar c := fun l hl c hm => scalar_ascii (hl c hm)
  rcases hf with rfl | rfl
  · exact ⟨⟨by decide, by decide, by decide, by decide, sc _ (by decide)⟩, by simp, by simp⟩
  · refine ⟨⟨by decide, by decide, by decide, by decide, sc _ (by decide)⟩, ?_, ?_⟩
    · intro n hn; cases hn; exact ⟨by decide, by decide, sc _ (by decide)⟩
    · intro t ht; cases ht; decide

example : dataForm (fun _ => .bad) (some (.parts (demoFields.map seen))) b!"multipart/form-data; boundary=X" =
    .ok (.dict [(b!"title", .content b!"x"), (b!"up", .content [137, 80, 0, 13, 10])]) := by decide +kernel
example : contentName b!"form-data; name=\"it's\"; filename=\"a\"" = some b!"it's" := by decide +kernel
example : contentName b!"form-data; name=a" = none ∧
    contentName b!"form-data; filename=\"f\"; name=\"a\"" = none ∧
    contentName b!"form-data; name=\"a\"; filename=\"f\"; filename*=UTF-8''f" = none ∧
    contentName b!"Form-Data; name=\"a\"" = none := by decide +kernel

/-! ## C119: what happens to forms that cannot be read -/

theorem lower_same {n m : Str} (hm : ∀ c ∈ m, ¬ (65 ≤ c ∧ c ≤ 90)) : lower n = m ↔ SameName n m := by
  unfold lower SameName
  induction n generalizing m with
  | nil => cases m <;> simp
  | cons a n ih =>
    cases m with
    | nil => simp
    | cons b m =>
      have hb := hm b (by simp)
      have ih := ih (m := m) (fun c hc => hm c (by simp [hc]))
      rw [List.map_cons, List.cons.injEq, ih]
      constructor
      · rintro ⟨h1, h2, h3⟩
        refine ⟨by simp [h2], ?_⟩
        intro i x y hx hy
        cases i with
        | zero =>
          simp at hx hy
          subst hx hy
          split at h1 <;> omega
        | succ i => exact h3 i x y (by simpa using hx) (by simpa using hy)
      · rintro ⟨h2, h3⟩
        refine ⟨?_, by simpa using h2, fun i x y hx hy => h3 (i + 1) x y (by simpa using hx) (by simpa using hy)⟩
        have := h3 0 a b rfl rfl
        split <;> omega

/-- **C119: the content type.** The type of a form is the value of the first header called `Content-Type` in any case of
letters. -/
theorem C119_content_type (h : List (Str × Str)) (v : Str) :
    contentType h = some v ↔ ∃ a n b, h = a ++ (n, v) :: b ∧ SameName n b!"content-type" ∧ ∀ x ∈ a, ¬ SameName x.1 b!"content-type" := by
  have hl : ∀ n, lower n = b!"content-type" ↔ SameName n b!"content-type" := fun n => lower_same (by decide)
  induction h with
  | nil => simp [contentType]
  | cons x h ih =>
    obtain ⟨m, w⟩ := x
    rw [contentType]
    by_cases hm : lower m = b!"content-type"
    · rw [if_pos hm]
      constructor
      · intro e
        cases e
        exact ⟨[], m, h, rfl, (hl m).1 hm, by simp⟩
      · rintro ⟨a, n, b, e, h1, h2⟩
        cases a with
        | nil => simp at e; rw [e.1.2]
        | cons y a =>
          simp at e
          exact absurd ((hl m).1 hm) (by rw [show m = y.1 by rw [← e.1]]; exact h2 y (by simp))
    · rw [if_neg hm]
      refine Iff.trans ih ?_
      constructor
      · rintro ⟨a, n, b, rfl, h1, h2⟩
        refine ⟨(m, w) :: a, n, b, rfl, h1, ?_⟩
        intro y hy
        rcases List.mem_cons.1 hy with rfl | hy
        · exact fun hs => hm ((hl m).2 hs)
        · exact h2 y hy
      · rintro ⟨a, n, b, e, h1, h2⟩
        cases a with
        | nil => simp at e; exact absurd ((hl m).2 (by rw [e.1.1]; exact h1)) hm
        | cons y a =>
          simp at e
          exact ⟨a, n, b, e.2, h1, fun z hz => h2 z (by simp [hz])⟩

theorem call_form {fl : Str → Bool} {json : List Nat → Json} {r : Req} {p : Str} {cls : Dict → Verdict}
    (hk : b!"header" ∈ r.keys) (hb : r.body ≠ none → b!"body" ∈ r.keys) :
    call fl json r [(p, some (.form cls))] =
      match contentType r.header with
      | none => .status 415
      | some ct =>
        match dataForm json r.body ct with
        | .ok f => (match makeForm cls f with | .ok a => .called [a] | .http n => .status n | .raised => .status 500)
        | .http n => .status n
        | .raised => .status 500 := by
  have hck : ∀ k, k ∈ r.keys → k ∈ r.keys.erase b!"cookie" ++ [b!"cookie"] := by
    intro k hk
    by_cases e : k = b!"cookie"
    · subst e; simp
    · exact List.mem_append_left _ ((List.mem_erase_of_ne e).2 hk)
  have hbody : (if b!"body" ∈ r.keys.erase b!"cookie" ++ [b!"cookie"] then r.body else none) = r.body := by
    split
    · rfl
    · rename_i hn
      cases hr : r.body with
      | none => rfl
      | some b => exact absurd (hck _ (hb (by rw [hr]; simp))) hn
  unfold call
  rw [bindArgs]
  simp only [bindParam, checkAnn, if_pos (hck _ hk), hbody]
  cases contentType r.header with
  | none => rfl
  | some ct =>
    simp only
    cases dataForm json r.body ct with
    | http n => rfl
    | raised => rfl
    | ok f =>
      simp only
      cases makeForm cls f with
      | http n => rfl
      | raised => rfl
      | ok a => rfl

/-- **C119 (partial).** A handler with one form parameter: without a content type the answer is 415; without a body it
is 400, or 415; with another content type 415; a multipart form is answered 400 when a part's disposition cannot be
read, and a form the class refuses as invalid is answered 400.  In all these cases the handler is not called. -/
theorem C119_refused_partial {fl : Str → Bool} {json : List Nat → Json} {r : Req} {p : Str} {cls : Dict → Verdict}
    (hk : b!"header" ∈ r.keys) (hb : r.body ≠ none → b!"body" ∈ r.keys) :
    (contentType r.header = none → call fl json r [(p, some (.form cls))] = .status 415) ∧
    (∀ ct, contentType r.header = some ct → r.body = none → call fl json r [(p, some (.form cls))] = .status 400) ∧
    (∀ ct, contentType r.header = some ct → r.body ≠ none → formKind ct = none → call fl json r [(p, some (.form cls))] = .status 415) ∧
    (∀ ct l, contentType r.header = some ct → formKind ct = some .multipart → r.body = some (.parts l) → multipartForm l [] = none →
      call fl json r [(p, some (.form cls))] = .status 400) ∧
    (∀ ct d, contentType r.header = some ct → dataForm json r.body ct = .ok (.dict d) →
      call fl json r [(p, some (.form cls))] =
        match cls d with | .ok => .called [.form d] | .invalid => .status 400 | .error => .status 500) := by
  rw [call_form hk hb]
  refine ⟨?_, ?_, ?_, ?_, ?_⟩
  · intro h; rw [h]
  · intro ct h1 h2; rw [h1, h2]; rfl
  · intro ct h1 h2 h3
    rw [h1]
    cases hr : r.body with
    | none => exact absurd hr h2
    | some b => simp only [dataForm, h3]
  · intro ct l h1 h2 h3 h4
    rw [h1, h3]
    simp only [dataForm, h2, h4]
  · intro ct d h1 h2
    rw [h1]
    simp only [h2, makeForm]
    cases cls d <;> rfl

/-- **C119 refuted (client errors as server errors).** A JSON body that is not JSON, an urlencoded body that is not
UTF-8 and a JSON body that is no object are the client's mistakes, but the answer is 500. -/
theorem C119_server_error_refuted {fl : Str → Bool} {json : List Nat → Json} {r : Req} {p : Str} {cls : Dict → Verdict}
    (hk : b!"header" ∈ r.keys) (hb : b!"body" ∈ r.keys) {ct : Str} {b : List Nat} (hct : contentType r.header = some ct) (hr : r.body = some (.bytes b))
    (h : (formKind ct = some .json ∧ (json b = .bad ∨ json b = .other)) ∨ (formKind ct = some .urlencoded ∧ decodeStrict b = none)) :
    call fl json r [(p, some (.form cls))] = .status 500 := by
  rw [call_form hk (fun _ => hb), hct, hr]
  rcases h with ⟨h1, h2 | h2⟩ | ⟨h1, h2⟩
  · simp only [dataForm, h1, h2]
  · simp only [dataForm, h1, h2, makeForm]
  · simp only [dataForm, h1, parseForm, h2, Option.map_none]

/-- **C119 refuted (multipart not recognised).** When the parts of a multipart body are not found (C98: no blank before
`boundary`, another parameter first, no parts), the handler is not called and the answer is 500. -/
theorem C119_raw_multipart_refuted {fl : Str → Bool} {json : List Nat → Json} {r : Req} {p : Str} {cls : Dict → Verdict}
    (hk : b!"header" ∈ r.keys) (hb : b!"body" ∈ r.keys) {h : List Header.HField} {w : Bytes} (hw : 32 ∉ w)
    (hh : Multipart.HasType h (b!"multipart/form-data;" ++ w)) {body : Bytes} (hne : body ≠ [])
    (hr : ∀ b, Multipart.bodySeen h body = .bytes b → r.body = some (.bytes b))
    (hct : contentType r.header = some (b!"multipart/form-data;" ++ w)) :
    call fl json r [(p, some (.form cls))] = .status 500 := by
  have hr' := hr _ (Multipart.C98_no_blank_refuted hw hh body)
  rw [call_form hk (fun _ => hb), hct, hr']
  obtain ⟨b, bs, rfl⟩ := List.exists_cons_of_ne_nil hne
  simp only [dataForm, formKind_multipart]

/-- **C119 refuted (null).** For the JSON body `null` the class of the form is not asked: the handler is called with
`None`. -/
theorem C119_null_refuted {fl : Str → Bool} {json : List Nat → Json} {r : Req} {p : Str} (cls : Dict → Verdict)
    (hk : b!"header" ∈ r.keys) (hb : b!"body" ∈ r.keys) {ct : Str} {b : List Nat} (hct : contentType r.header = some ct) (hr : r.body = some (.bytes b))
    (h : formKind ct = some .json) (hj : json b = .null) :
    call fl json r [(p, some (.form cls))] = .called [.none] := by
  rw [call_form hk (fun _ => hb), hct, hr]
  simp only [dataForm, h, hj, makeForm]

example : b!"header" ∈ demo.keys ∧ contentType demo.header = some b!"application/json; charset=utf-8" ∧
    call (fun _ => true) (fun _ => .object [(b!"a", b!"1")]) demo [(b!"form", some (.form (fun _ => .ok)))] = .called [.form [(b!"a", .json b!"1")]] ∧
    call (fun _ => true) (fun _ => .object []) demo [(b!"form", some (.form (fun _ => .invalid)))] = .status 400 ∧
    call (fun _ => true) (fun _ => .bad) demo [(b!"form", some (.form (fun _ => .ok)))] = .status 500 ∧
    call (fun _ => true) (fun _ => .bad) { demo with header := [] } [(b!"form", some (.form (fun _ => .ok)))] = .status 415 ∧
    call (fun _ => true) (fun _ => .bad) { demo with body := none } [(b!"form", some (.form (fun _ => .ok)))] = .status 400 ∧
    call (fun _ => true) (fun _ => .bad) { demo with header := [(b!"content-type", b!"Application/JSON")] } [(b!"form", some (.form (fun _ => .ok)))] = .status 415 := by
  decide +kernel

end Fly.PyForm
