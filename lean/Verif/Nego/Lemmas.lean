import Verif.Nego.Spec
import Verif.Encode.Props
import Verif.Mime.Props
import Verif.Lang.Props
import Verif.H2Request.Model
import Verif.H2Request.Spec

/-! # The four negotiation steps on what a client says -/

namespace Fly.Nego
open Header (HField)
open H2R (pairs nego negoEncoding negoMime negoCharset negoLang Holds)
open Encode (Named)

theorem encoding_step {cells : List HField} {fs : List (Bytes × Bytes)} (hh : Holds cells fs) {o : Option (List Encode.Elem)} (h : SaysCodings fs o) :
    ((∀ es, o = some es → (∃ e ∈ es, ∃ k, Named e.name k ∧ 10 ≤ e.quality) ∨ ∀ e ∈ es, ∀ k, ¬ Named e.name k) → negoEncoding cells = .ok) ∧
    (¬ (∀ es, o = some es → (∃ e ∈ es, ∃ k, Named e.name k ∧ 10 ≤ e.quality) ∨ ∀ e ∈ es, ∀ k, ¬ Named e.name k) → negoEncoding cells = .notAcceptable) := by
  have hp : pairs cells = fs := hh
  unfold negoEncoding
  rw [hp]
  cases o with
  | none =>
    rw [Encode.C27_no_field fs h]
    exact ⟨fun _ => rfl, fun hn => absurd (fun es he => nomatch he) hn⟩
  | some es =>
    obtain ⟨h1, h2, h3, h4⟩ := h
    obtain ⟨ch, e, _, hna, hno⟩ := Encode.C27_choice_partial fs es h1 h2 h3 h4
    rw [e]
    constructor
    · intro hm
      have : ch ≠ .notAcceptable := by
        intro hc
        obtain ⟨⟨x, hx, k, hk⟩, hall⟩ := hna.1 hc
        rcases hm es rfl with ⟨e, he, k, hk, hq⟩ | hq
        · have := hall e he k hk; omega
        · exact hq x hx k hk
      cases ch with
      | notAcceptable => exact absurd rfl this
      | none => rfl
      | use k => rfl
    · intro hm
      have : ch = .notAcceptable := by
        refine hna.2 ⟨?_, ?_⟩
        · refine Classical.byContradiction fun hn => hm ?_
          rintro _ ⟨⟩
          exact Or.inr fun e he k hk => hn ⟨e, he, k, hk⟩
        · intro e he k hk
          refine Classical.byContradiction fun hn => hm ?_
          rintro _ ⟨⟩
          exact Or.inl ⟨e, he, k, hk, by omega⟩
      rw [this]

/-- Fields without value in front do not hide the first Accept field. -/
theorem first_filter {cells : List HField} {fs : List (Bytes × Bytes)} (hh : Holds cells fs) {v : Bytes} (hv : v ≠ []) (h : Mime.FirstAccept v fs) :
    Mime.FirstAccept v (pairs (cells.filter fun f => f.value.isSome)) := by
  obtain ⟨pre, post, n, e, hn, hpre⟩ := h
  have hh : cells.map (fun f => (f.name.getD [], f.value.getD [])) = pre ++ (n, v) :: post := by rw [← e]; exact hh
  obtain ⟨c1, c2, rfl, h1, h2⟩ := List.map_eq_append_iff.1 hh
  obtain ⟨c, c3, rfl, h3, h4⟩ := List.map_eq_cons_iff.1 h2
  have hc : c.value.isSome = true := by
    cases hcv : c.value with
    | some _ => rfl
    | none =>
      rw [hcv] at h3
      simp at h3
      exact absurd h3.2 hv
  refine ⟨pairs (c1.filter fun f => f.value.isSome), pairs (c3.filter fun f => f.value.isSome), n, ?_, hn, ?_⟩
  · rw [List.filter_append, List.filter_cons_of_pos (by simpa using hc)]
    unfold pairs
    rw [List.map_append, List.map_cons, h3]
  · intro x hx
    obtain ⟨f, hf, rfl⟩ := List.mem_map.1 hx
    exact hpre _ (by rw [← h1]; exact List.mem_map.2 ⟨f, (List.mem_filter.1 hf).1, rfl⟩)

theorem media_step {cells : List HField} {fs : List (Bytes × Bytes)} (hh : Holds cells fs) {o : Option (List Mime.Range)} (h : SaysMedia fs o) :
    ((∀ rs, o = some rs → ∃ r ∈ rs, 10 ≤ r.quality) → negoMime cells = .ok) ∧
    (¬ (∀ rs, o = some rs → ∃ r ∈ rs, 10 ≤ r.quality) → negoMime cells = .notAcceptable) := by
  have hp : pairs cells = fs := hh
  unfold negoMime
  cases o with
  | none =>
    rw [Mime.C29_absent _ (by
      intro x hx
      obtain ⟨f, hf, e⟩ := List.mem_map.1 hx
      exact h x (by rw [← hp]; exact List.mem_map.2 ⟨f, (List.mem_filter.1 hf).1, e⟩))]
    exact ⟨fun _ => rfl, fun hn => absurd (fun es he => nomatch he) hn⟩
  | some rs =>
    obtain ⟨l, r, trail, rfl, hl, hr, ht, hf⟩ := h
    have hne : Mime.prefixText l ++ r.text ++ trail ≠ [] := by
      intro e
      have := (List.append_eq_nil_iff.1 (List.append_eq_nil_iff.1 e).1).2
      unfold Mime.Range.text Mime.Media.text at this
      simp at this
    have := Mime.C29_understood_partial l r trail hl hr ht _ (first_filter hh hne hf)
    constructor
    · intro hm
      rw [if_pos (hm _ rfl)] at this
      obtain ⟨told, e, _⟩ := this
      rw [e]
    · intro hm
      rw [if_neg (fun hx => hm (by rintro _ ⟨⟩; exact hx))] at this
      rw [this]

theorem tags_step (f : Lang.Field) (fs : List (Bytes × Bytes)) {o : Option (List Lang.Elem)} (h : SaysTags f fs o) :
    ((∀ es, o = some es → ∃ e ∈ es, 0 < e.quality) → H2R.langRes (Lang.accept f.code fs) = .ok) ∧
    (¬ (∀ es, o = some es → ∃ e ∈ es, 0 < e.quality) → H2R.langRes (Lang.accept f.code fs) = .notAcceptable) := by
  cases o with
  | none =>
    rw [Lang.C74_absent f fs h]
    exact ⟨fun _ => rfl, fun hn => absurd (fun es he => nomatch he) hn⟩
  | some es =>
    obtain ⟨h1, h2, trail, h3, h4⟩ := h
    rw [Lang.C74_understood_partial f es trail h1 h3 h2 fs h4]
    constructor
    · intro hm
      rw [if_pos (hm es rfl)]; rfl
    · intro hm
      rw [if_neg (fun hx => hm (by rintro _ ⟨⟩; exact hx))]; rfl

/-- The first Accept-Language field has a value. -/
theorem lang_value {cells : List HField} {fs : List (Bytes × Bytes)} (hh : Holds cells fs) {o : Option (List Lang.Elem)} (h : SaysTags .language fs o) :
    negoLang cells = H2R.langRes (Lang.accept Lang.lang fs) := by
  have hp : pairs cells = fs := hh
  unfold negoLang
  rw [hp]
  cases hf : cells.find? fun f => f.name == some b!"accept-language" with
  | none => rfl
  | some c =>
    obtain ⟨n, v⟩ := c
    cases v with
    | some v => rfl
    | none =>
      exfalso
      obtain ⟨hn, a, b, hab, ha⟩ := List.find?_eq_some_iff_append.1 hf
      simp only [beq_iff_eq] at hn
      subst hn
      have hfs : fs = pairs a ++ (b!"accept-language", []) :: pairs b := by
        rw [← hp, hab]; simp [pairs]
      cases o with
      | none => exact h (b!"accept-language", []) (by rw [hfs]; simp) rfl
      | some es =>
        obtain ⟨h1, h2, trail, h3, pre, post, h4, h5⟩ := h
        have hne : Lang.text es ++ trail ≠ [] := by
          intro e
          obtain ⟨x, es, rfl⟩ := List.exists_cons_of_ne_nil h1
          have hx := (h2 x (by simp)).1.ne
          have := (List.append_eq_nil_iff.1 e).1
          cases es with
          | nil => exact hx (List.append_eq_nil_iff.1 this).1
          | cons y es => simp [Lang.text] at this
        have key : ∀ (pre q post post' : List (Bytes × Bytes)) (v : Bytes), v ≠ [] → (∀ x ∈ pre, x.1 ≠ b!"accept-language") →
            (∀ x ∈ q, x.1 = b!"accept-language" → x.2 = []) →
            pre ++ (b!"accept-language", v) :: post = q ++ (b!"accept-language", []) :: post' → (∃ x ∈ q, x.1 = b!"accept-language") := by
          intro pre
          induction pre with
          | nil =>
            intro q post post' v hv _ hq e
            cases q with
            | nil => simp at e; exact absurd e.1 hv
            | cons y q => simp at e; exact ⟨y, by simp, by rw [← e.1]⟩
          | cons x pre ih =>
            intro q post post' v hv hpre hq e
            cases q with
            | nil => simp at e; exact absurd (by rw [e.1]) (hpre x (by simp))
            | cons y q =>
              simp at e
              obtain ⟨z, hz, hz2⟩ := ih q post post' v hv (fun z hz => hpre z (by simp [hz])) (fun z hz => hq z (by simp [hz])) e.2
              exact ⟨z, by simp [hz], hz2⟩
        have hno : ∀ x ∈ pairs a, x.1 ≠ b!"accept-language" := by
          intro x hx hx2
          obtain ⟨f, hf, rfl⟩ := List.mem_map.1 hx
          have := ha f hf
          simp only [Bool.not_eq_true', beq_eq_false_iff_ne] at this
          cases hfn : f.name with
          | none => rw [hfn] at hx2; simp at hx2
          | some m => rw [hfn] at hx2 this; simp at hx2; exact this (by rw [hx2])
        obtain ⟨x, hx, hx2⟩ := key pre (pairs a) post (pairs b) _ hne h5 (fun x hx hx2 => absurd hx2 (hno x hx)) (by rw [← hfs]; exact h4.symm)
        exact hno x hx hx2

/-- The request passes the negotiation exactly if there is something that is not refused. -/
theorem nego_says {cells : List HField} {fs : List (Bytes × Bytes)} (hh : Holds cells fs) {w : Wish} (h : Says fs w) :
    (w.Met → nego cells = .ok) ∧ (¬ w.Met → nego cells = .notAcceptable) := by
  have h1 := encoding_step hh h.codings
  have h2 := media_step hh h.media
  have h3 : negoCharset cells = H2R.langRes (Lang.accept Lang.charset fs) := by
    have hp : pairs cells = fs := hh
    unfold negoCharset; rw [hp]
  have h3' := tags_step .charset fs h.charsets
  have h4 := lang_value hh h.languages
  have h4' := tags_step .language fs h.languages
  simp only [Lang.Field.code] at h3' h4'
  rw [← h3] at h3'
  rw [← h4] at h4'
  constructor
  · rintro ⟨m1, m2, m3, m4⟩
    unfold nego
    simp only [h1.1 m1, h2.1 m2, h3'.1 m3, h4'.1 m4]
  · intro hm
    unfold nego
    by_cases m1 : ∀ es, w.codings = some es → (∃ e ∈ es, ∃ k, Named e.name k ∧ 10 ≤ e.quality) ∨ ∀ e ∈ es, ∀ k, ¬ Named e.name k
    · by_cases m2 : ∀ rs, w.media = some rs → ∃ r ∈ rs, 10 ≤ r.quality
      · by_cases m3 : ∀ es, w.charsets = some es → ∃ e ∈ es, 0 < e.quality
        · have m4 : ¬ ∀ es, w.languages = some es → ∃ e ∈ es, 0 < e.quality := fun m4 => hm ⟨m1, m2, m3, m4⟩
          simp only [h1.1 m1, h2.1 m2, h3'.1 m3, h4'.2 m4]
        · simp only [h1.1 m1, h2.1 m2, h3'.2 m3]
      · simp only [h1.1 m1, h2.2 m2]
    · simp only [h1.2 m1]

/-- Without a field that begins with `accept` the client says nothing. -/
theorem says_nothing {fs : List (Bytes × Bytes)} (h : ∀ x ∈ fs, ¬ b!"accept" <+: x.1 ∧ x.1 ≠ b!"Accept") : Says fs .nothing := by
  refine ⟨fun x hx hp => (h x hx).1 (List.IsPrefix.trans ⟨b!"-encoding", rfl⟩ hp), fun x hx => ⟨(h x hx).2, fun e => (h x hx).1 (e ▸ List.prefix_rfl)⟩,
    fun x hx e => (h x hx).1 (e ▸ ⟨b!"-charset", rfl⟩), fun x hx e => (h x hx).1 (e ▸ ⟨b!"-language", rfl⟩)⟩

theorem nothing_met : Wish.nothing.Met := by
  simp [Wish.Met, Wish.nothing]

theorem agreeable_nothing {fs : List (Bytes × Bytes)} (h : ∀ x ∈ fs, ¬ b!"accept" <+: x.1 ∧ x.1 ≠ b!"Accept") : Agreeable fs :=
  ⟨.nothing, says_nothing h, nothing_met⟩

theorem nego_agreeable {cells : List HField} {fs : List (Bytes × Bytes)} (hh : Holds cells fs) (h : Agreeable fs) : nego cells = .ok := by
  obtain ⟨w, h1, h2⟩ := h
  exact (nego_says hh h1).1 h2

end Fly.Nego
