import Verif.Nego.Turn
import Verif.Nego.Lemmas
import Verif.Site.Props

/-! # Negotiated requests over HTTP/1.1 -/

namespace Fly.Nego
open ReqEvent (Msg Rcv Env Reply St)
open Header (Pairs HList)
open Site (Site)
open Trip (Seen CfgOk Readable Each client WrittenPath)
open H2R (pairs Holds)
open Encode (Named decide' settle)

/-! ## Codings -/

theorem accept_accepted {ps : List (Bytes × Bytes)} {ch : Encode.Choice} (h : Encode.accept ps = .choice ch) : decide' (accepted ps) = ch := by
  unfold Encode.accept at h
  unfold accepted
  cases hv : Encode.headerValue ps with
  | none => rw [hv] at h; simp only at h ⊢; injection h
  | some v =>
    rw [hv] at h
    simp only at h ⊢
    cases hp : Encode.parseAe v with
    | ok l => rw [hp] at h; simp only at h ⊢; injection h
    | _ => rw [hp] at h; simp at h

/-- A name the server writes. -/
theorem code_name (c : Encode.Coding) : encName (code c) = Encode.nameOf (Encode.kind c) := by cases c <;> rfl

theorem same_kind (c : Encode.Coding) : Same (Encode.kind c) c := by cases c <;> simp [Same, Encode.kind]

theorem kind_gzip {c : Encode.Coding} (h : c = .gzip) : Encode.kind c = .gzip := by rw [h]; rfl

/-- The coding chosen for contents that are not encoded in advance is one the client takes. -/
theorem decided_taken {fs : Pairs} {w : Wish} (h : Says fs w) {k : Response.Coding} (hd : (accepts (accepted fs)).decided = some k) :
    ∃ c, encName k = Encode.nameOf c ∧ w.Takes c := by
  unfold accepts at hd
  simp only at hd
  have hc := h.codings
  split at hd
  · next c hu =>
    injection hd with hd
    refine ⟨Encode.kind c, by rw [← hd, code_name], ?_⟩
    intro es he
    rw [he] at hc
    obtain ⟨h1, h2, h3, h4⟩ := hc
    obtain ⟨ch, e, hch, _⟩ := Encode.C27_choice_partial fs es h1 h2 h3 h4
    rw [accept_accepted e] at hu
    obtain ⟨_, hx⟩ := hch c hu
    rcases hx with ⟨x, hx, hn, hq⟩ | ⟨rfl, hx⟩
    · exact Or.inl ⟨x, hx, c, same_kind c, hn, hq⟩
    · exact Or.inr ⟨rfl, hx⟩
  · cases hd

/-- The list of a field that can be read. -/
theorem accepted_field {fs : Pairs} {es : List Encode.Elem} (h1 : Encode.Field fs es) (h2 : es ≠ []) (h3 : ∀ e ∈ es, e.Ok) (h4 : Encode.WeightsLast es) :
    accepted fs = es.filterMap Encode.keep := by
  unfold accepted
  rw [Encode.header_field fs es h1 h2 h3]
  obtain ⟨e, es, rfl⟩ := List.exists_cons_of_ne_nil h2
  simp only
  rw [Encode.parseAe_text e es h3]
  exact Encode.collect_last _ h4

/-- The coding of contents encoded in advance that are sent is one the client takes, if it does not refuse it. -/
theorem matching_taken {fs : Pairs} {w : Wish} (h : Says fs w) {k : Response.Coding} (hd : (accepts (accepted fs)).matching k = true)
    (hn : ∀ c, code c = k → ¬ w.Refuses c) : ∃ c, encName k = Encode.nameOf c ∧ w.Takes c := by
  unfold accepts at hd
  simp only [List.any_eq_true] at hd
  obtain ⟨a, ha, he⟩ := hd
  have he : code a.coding = k := by simpa using he
  refine ⟨Encode.kind a.coding, by rw [← he, code_name], ?_⟩
  intro es hes
  have hc := h.codings
  rw [hes] at hc
  obtain ⟨h1, h2, h3, h4⟩ := hc
  rw [accepted_field h1 h2 h3 h4] at ha
  have named : ∀ b ∈ es.filterMap Encode.keep, code b.coding = k → ∃ x ∈ es, Named x.name b.coding ∧ 10 ≤ x.quality := by
    intro b hb hk
    obtain ⟨x, hx, g1, g2⟩ := (Encode.mem_keep es b).1 hb
    refine ⟨x, hx, g1, ?_⟩
    by_cases hq : 10 ≤ x.quality
    · exact hq
    · exact absurd ⟨es, hes, x, hx, b.coding, Or.inl rfl, g1, by omega⟩ (hn b.coding hk)
  unfold settle at ha
  split at ha
  · next b hb =>
    split at ha
    · next hany =>
      obtain ⟨x, hx, e⟩ := List.mem_map.1 ha
      split at e
      · next hxb =>
        subst hxb
        have hk : a.coding = .gzip := by rw [← e]; exact Encode.mostPriority_gzip
        obtain ⟨g, _, _⟩ := Encode.loop_some _ _ _ hb
        have g := g.resolve_left (by simp)
        obtain ⟨y, hy, y1, y2⟩ := (Encode.mem_keep es x).1 g.1
        have hp := Encode.pct_pos y.quality (Encode.quality_le y (h3 y hy))
        exact Or.inr ⟨kind_gzip hk, y, hy, hany ▸ y1, by omega⟩
      · subst e
        obtain ⟨y, hy, y1, y2⟩ := named x hx he
        exact Or.inl ⟨y, hy, _, same_kind _, y1, y2⟩
    · obtain ⟨y, hy, y1, y2⟩ := named a ha he
      exact Or.inl ⟨y, hy, _, same_kind _, y1, y2⟩
  · obtain ⟨y, hy, y1, y2⟩ := named a ha he
    exact Or.inl ⟨y, hy, _, same_kind _, y1, y2⟩

/-! ## The header of a request -/

theorem lower_same (n : Bytes) : n.map Header.lower = Trip.lowerCase n := by
  unfold Trip.lowerCase
  apply List.map_congr_left
  intro b _
  rfl

theorem told_holds (m : Msg) : pairs m.header.items = told m := by
  unfold pairs told ReqEvent.Msg.header ReqHeader.cells
  rw [List.map_map]
  apply List.map_congr_left
  intro p _
  simp only [Function.comp, Option.getD_some, lower_same]

theorem h1_says {m : Msg} {w : Wish} (h : Says (told m) w) : (w.Met → h1 m.header = .ok) ∧ (¬ w.Met → h1 m.header = .notAcceptable) := by
  obtain ⟨a, b⟩ := nego_says (cells := m.header.items) (told_holds m) h
  unfold h1
  exact ⟨fun hm => by rw [a hm], fun hm => by rw [b hm]⟩

end Fly.Nego
