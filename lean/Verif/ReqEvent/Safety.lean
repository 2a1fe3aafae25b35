import Verif.ReqEvent.Lemmas
import Verif.ReqHeader.Total
import Verif.Request.Lemmas

set_option linter.all false

/-! # What holds on every connection whatever arrives -/

namespace Fly.ReqEvent
open Req (ReqLine)

/-- Invariant of a request after the bytes `D` were received. -/
structure Safe (e : Env) (s : St) (D : Bytes) : Prop where
  line : s.fase ≠ .line → s.line ≠ none
  discard : s.discard = true → s.fase = .body ∧ e.maxLen < bodyLength s.header ∧ Header.expect100 s.header = false
  body : s.fase = .body → Header.contentLength s.header ≠ 0
  buf : s.discard = false → s.buf <:+ D
  first : s.fase = .line → s.buf = D
  parsed : ∀ l, s.line = some l → LineOf D l

def GoodOut (e : Env) (D : Bytes) : Out → Prop
  | .wait s left => ∃ T, Safe e s T ∧ T ++ dataOf left = D
  | .reply (.handler _ _ h b) =>
    (b = none ∧ Header.contentLength h = 0) ∨
      ∃ x, b = some x ∧ Header.contentLength h ≠ 0 ∧ x.length = bodyLength h ∧ bodyLength h ≤ e.maxLen ∧ x <:+: D
  | .crash => LongLine D ∨ ∃ l, LineOf D l ∧ l.version = .v2
  | _ => True

theorem lineOf_append {D : Bytes} (E : Bytes) {l : ReqLine} (h : LineOf D l) : LineOf (D ++ E) l := by
  obtain ⟨n, h1, h2⟩ := h
  refine ⟨n, search_append _ _ _ _ _ _ h1, ?_⟩
  rwa [List.take_append_of_le_length (by have := search_bounds _ _ _ _ _ h1; omega)]

theorem longLine_append {D : Bytes} (E : Bytes) (h : LongLine D) : LongLine (D ++ E) := by
  obtain ⟨n, h1, h2⟩ := h
  exact ⟨n, search_append _ _ _ _ _ _ h1, h2⟩

theorem build_good (e : Env) (D T R : Bytes) (l : ReqLine) (r : Reply) (hT : T ++ R = D) (hl : LineOf T l) (hr : ∀ a b c d, r ≠ .handler a b c d) :
    GoodOut e D (build (some l) r) := by
  unfold build
  simp only
  split
  · rename_i hv; exact Or.inr ⟨l, hT ▸ lineOf_append R hl, hv⟩
  · cases r with
    | handler a b c d => exact absurd rfl (hr a b c d)
    | _ => trivial

theorem receive_safe (e : Env) (D : Bytes) (rs : List Rcv) : ∀ (s : St) (tot : Bool) (T : Bytes), Safe e s T → T ++ dataOf rs = D →
    ∀ o s' rs', receive s tot rs = (o, s', rs') → (∃ T', Safe e s' T' ∧ T' ++ dataOf rs' = D) ∧ s'.discard = s.discard ∧ s'.header = s.header ∧ s'.fase = s.fase ∧ s'.line = s.line := by
  induction rs with
  | nil =>
    intro s tot T hs hT o s' rs' h
    simp only [receive, Prod.mk.injEq] at h
    obtain ⟨_, rfl, rfl⟩ := h
    exact ⟨⟨T, hs, hT⟩, rfl, rfl, rfl, rfl⟩
  | cons r rs ih =>
    intro s tot T hs hT o s' rs' h
    cases r with
    | block => simp only [receive, Prod.mk.injEq] at h; obtain ⟨_, rfl, rfl⟩ := h; exact ⟨⟨T, hs, hT⟩, rfl, rfl, rfl, rfl⟩
    | eof => simp only [receive, Prod.mk.injEq] at h; obtain ⟨_, rfl, rfl⟩ := h; exact ⟨⟨T, hs, hT⟩, rfl, rfl, rfl, rfl⟩
    | err => simp only [receive, Prod.mk.injEq] at h; obtain ⟨_, rfl, rfl⟩ := h; exact ⟨⟨T, hs, hT⟩, rfl, rfl, rfl, rfl⟩
    | data bs limit =>
      simp only [dataOf] at hT
      simp only [receive] at h
      have hT' : (T ++ bs) ++ dataOf rs = D := by rw [← hT, List.append_assoc]
      have key : ∀ (g1 g2 : Bool), s.discard = false → Safe e ⟨s.buf ++ bs, s.fase, g1, g2, s.line, s.header, false, s.discardLen⟩ (T ++ bs) := by
        intro g1 g2 hd
        refine ⟨hs.line, by simp, hs.body, ?_, ?_, ?_⟩
        · intro _
          obtain ⟨p, hp⟩ := hs.buf hd
          exact ⟨p, by simp [← hp]⟩
        · intro hf; simp only [hs.first hf]
        · intro l hl; exact lineOf_append _ (hs.parsed l hl)
      split at h
      · rename_i hd
        have := ih _ true (T ++ bs) (?_) hT' _ _ _ h
        · obtain ⟨a, b, c, d, f⟩ := this
          exact ⟨a, by rw [b], c, d, f⟩
        · exact ⟨hs.line, fun _ => hs.discard hd, hs.body, fun h => by simp at h; rw [hd] at h; simp at h,
            fun h => by simp only [(hs.discard hd).1] at h; simp at h, fun l hl => lineOf_append _ (hs.parsed l hl)⟩
      · rename_i hd
        have hd' : s.discard = false := by simpa using hd
        split at h
        · simp only [Prod.mk.injEq] at h
          obtain ⟨_, rfl, rfl⟩ := h
          rw [hd']
          exact ⟨⟨T ++ bs, key _ _ hd', hT'⟩, rfl, rfl, rfl, rfl⟩
        · split at h
          · simp only [Prod.mk.injEq] at h
            obtain ⟨_, rfl, rfl⟩ := h
            rw [hd']
            exact ⟨⟨T ++ bs, key _ _ hd', hT'⟩, rfl, rfl, rfl, rfl⟩
          · rw [hd'] at h
            have := ih _ true (T ++ bs) (key _ _ hd') hT' _ _ _ h
            obtain ⟨a, b, c, d, f⟩ := this
            exact ⟨a, by rw [b, hd'], c, d, f⟩

theorem finish_good (e : Env) (D T R : Bytes) (l : ReqLine) (h : Header.HList) (b : Option Bytes) (hT : T ++ R = D) (hl : LineOf T l)
    (hb : (b = none ∧ Header.contentLength h = 0) ∨
      ∃ x, b = some x ∧ Header.contentLength h ≠ 0 ∧ x.length = bodyLength h ∧ bodyLength h ≤ e.maxLen ∧ x <:+: D) :
    GoodOut e D (finish e l h b) := by
  unfold finish select
  cases e.route l.uri l.method with
  | some r => exact hb
  | none =>
    simp only
    cases e.file h l.uri with
    | none => exact build_good e D T R l _ hT hl (by simp)
    | some f =>
      simp only
      split <;> first
        | exact build_good e D T R l _ hT hl (by split <;> (try simp) <;> split <;> (try simp) <;> split <;> simp)
        | skip
      rename_i hh
      split at hh <;> (try simp at hh)
      split at hh <;> (try simp at hh)
      split at hh <;> simp at hh

theorem discard_good (e : Env) (D T : Bytes) (s : St) (rs : List Rcv) (hs : Safe e { s with discard := true } T) (hT : T ++ dataOf rs = D) :
    GoodOut e D (discard e s rs) := by
  unfold discard
  simp only
  split
  · trivial
  · cases hr : receive { s with discard := true } false rs with
    | mk o p =>
      obtain ⟨s', rs'⟩ := p
      have := receive_safe e D rs _ false T hs hT o s' rs' hr
      cases o <;> simp only <;> (try trivial) <;> (split <;> first | exact this.1 | trivial)

theorem body_good (e : Env) (D T : Bytes) (s : St) (rs : List Rcv) (h1 : s.line ≠ none) (h2 : Header.contentLength s.header ≠ 0)
    (h3 : s.discard = true → e.maxLen < bodyLength s.header ∧ Header.expect100 s.header = false) (h4 : s.discard = false → s.buf <:+ T) (h5 : ∀ l, s.line = some l → LineOf T l) (hT : T ++ dataOf rs = D) :
    GoodOut e D (body e s rs) := by
  unfold body
  cases hl : s.line with
  | none => exact absurd hl h1
  | some l =>
    simp only
    split
    · exact build_good e D T _ l _ hT (h5 l hl) (by simp)
    · rename_i hx
      split
      · rename_i hm
        refine discard_good e D T _ rs ⟨by simp, ?_, ?_, by simp, by simp, ?_⟩ hT
        · intro _; exact ⟨rfl, hm, by simpa using hx⟩
        · intro _; exact h2
        · intro l' hl'; exact h5 l' (by simpa [hl] using hl')
      · rename_i hm
        have hd : s.discard = false := by
          cases hd : s.discard with
          | false => rfl
          | true => have := h3 hd; omega
        split
        · refine ⟨T, ⟨by simp, ?_, fun _ => h2, fun _ => h4 hd, by simp, ?_⟩, hT⟩
          · intro h; simp [hd] at h
          · intro l' hl'; exact h5 l' (by simpa [hl] using hl')
        · rename_i hw
          simp only [not_or, Nat.not_lt] at hw
          refine finish_good e D T _ l _ _ hT (h5 l hl) (Or.inr ⟨_, rfl, h2, ?_, by omega, ?_⟩)
          · rw [List.length_take]; omega
          · obtain ⟨p, hp⟩ := h4 hd
            refine ⟨p, s.buf.drop (bodyLength s.header) ++ dataOf rs, ?_⟩
            rw [List.append_assoc, ← List.append_assoc (s.buf.take _), List.take_append_drop, ← List.append_assoc, hp, hT]

theorem dropLast_suffix {r d : Bytes} (h : r <:+ d ++ [0]) : r.dropLast <:+ d := by
  obtain ⟨p, hp⟩ := h
  rcases List.eq_nil_or_concat r with rfl | ⟨q, x, rfl⟩
  · exact List.nil_suffix
  · rw [List.concat_eq_append] at hp ⊢
    rw [List.dropLast_concat]
    rw [← List.append_assoc] at hp
    have := List.append_inj' hp rfl
    exact ⟨p, this.1⟩

theorem header_good (e : Env) (D T : Bytes) (s : St) (rs : List Rcv) (h1 : s.line ≠ none) (h2 : s.discard = false) (h4 : s.buf <:+ T)
    (h5 : ∀ l, s.line = some l → LineOf T l) (hT : T ++ dataOf rs = D) : GoodOut e D (header e s rs) := by
  unfold header
  simp only
  have hw : ∀ b, b <:+ s.buf → GoodOut e D (.wait ({ s with fase := .header, buf := b }) rs) := by
    intro b hb
    refine ⟨T, ⟨fun _ => h1, ?_, by simp, fun _ => hb.trans h4, by simp, h5⟩, hT⟩
    intro h; simp [h2] at h
  have hbd : ∀ n, GoodOut e D (build s.line (.status n)) := by
    intro n
    cases hl : s.line with
    | none => exact absurd hl h1
    | some l => exact build_good e D T _ l _ hT (h5 l hl) (by simp)
  split
  · exact hw _ (List.suffix_refl _)
  · split
    · exact hw _ (List.suffix_refl _)
    · have hf := ReqHeader.headerOperation_fine s.buf
      cases hr : ReqHeader.headerOperation s.buf with
      | crash => rw [hr] at hf; exact absurd hf id
      | bad => exact hbd 400
      | middle rest => rw [hr] at hf; exact hw _ (dropLast_suffix hf)
      | ok h rest =>
        rw [hr] at hf
        simp only
        split
        · exact hbd 400
        · exact hbd 406
        · trivial
        · split
          · rename_i hc
            cases hl : s.line with
            | none => exact absurd hl h1
            | some l => exact finish_good e D T _ l h none hT (h5 l hl) (Or.inl ⟨rfl, hc⟩)
          · rename_i hc
            exact body_good e D T _ rs h1 hc (by intro h; simp [h2] at h) (fun _ => (dropLast_suffix hf).trans h4) h5 hT

theorem line_good (e : Env) (D T : Bytes) (s : St) (rs : List Rcv) (h2 : s.discard = false) (h4 : s.buf = T) (h5 : ∀ l, s.line = some l → LineOf T l)
    (hT : T ++ dataOf rs = D) : GoodOut e D (line e s rs) := by
  unfold line
  simp only
  cases hse : search b!"\r\n" b!"\r\n" 0 s.buf with
  | none =>
    refine ⟨T, ⟨by simp, ?_, by simp, fun _ => h4 ▸ List.suffix_refl _, fun _ => h4, h5⟩, hT⟩
    intro h; simp [h2] at h
  | some n =>
    rw [h4] at hse
    simp only
    split
    · rename_i hn
      have : LongLine D := hT ▸ longLine_append _ ⟨n, hse, hn⟩
      unfold build
      cases s.line with
      | none => exact Or.inl this
      | some l =>
        simp only
        split
        · exact Or.inl this
        · trivial
    · cases hp : Req.parseReqline (s.buf.take n) with
      | crash => exact absurd hp (Req.parse_no_crash _)
      | bad => trivial
      | ok l =>
        rw [h4] at hp
        refine header_good e D T _ rs (by simp) h2 ((List.drop_suffix _ _).trans (h4 ▸ List.suffix_refl _)) ?_ hT
        intro l' hl'
        simp at hl'
        exact ⟨n, hse, hl' ▸ hp⟩

theorem handle_good (e : Env) (D T : Bytes) (s : St) (rs : List Rcv) (hs : Safe e s T) (hT : T ++ dataOf rs = D) : GoodOut e D (handle e s rs) := by
  unfold handle
  split
  · rename_i hd
    obtain ⟨h1, h2, h3⟩ := hs.discard hd
    exact body_good e D T s rs (hs.line (by simp [h1])) (hs.body h1) (fun _ => ⟨h2, h3⟩) (by simp [hd]) hs.parsed hT
  · rename_i hd
    have hd' : s.discard = false := by simpa using hd
    cases hr : receive s false rs with
    | mk o p =>
      obtain ⟨s', rs'⟩ := p
      obtain ⟨⟨T', hs', hT'⟩, hd2, hh, hf, hl⟩ := receive_safe e D rs s false T hs hT o s' rs' hr
      rw [hd'] at hd2
      cases o with
      | fatal => trivial
      | ended => trivial
      | overflow => trivial
      | readBlock => exact ⟨T', hs', hT'⟩
      | success =>
        simp only
        split
        · rename_i hf'; exact line_good e D T' s' rs' hd2 (hs'.first hf') hs'.parsed hT'
        · rename_i hf'; exact header_good e D T' s' rs' (hs'.line (by simp [hf'])) hd2 (hs'.buf hd2) hs'.parsed hT'
        · rename_i hf'; exact body_good e D T' s' rs' (hs'.line (by simp [hf'])) (hs'.body hf') (by simp [hd2]) hs'.buf hs'.parsed hT'

theorem serve_good (e : Env) (D : Bytes) : ∀ (n : Nat) (T : Bytes) (s : St) (rs : List Rcv), Safe e s T → T ++ dataOf rs = D → GoodOut e D (serve e n s rs) := by
  intro n
  induction n with
  | zero => intro T s rs hs hT; exact ⟨T, hs, hT⟩
  | succ n ih =>
    intro T s rs hs hT
    unfold serve
    split
    · rename_i hr; rw [hr] at hT; exact ⟨T, hs, hT⟩
    · have := handle_good e D T s rs hs hT
      cases ho : handle e s rs with
      | wait s' l =>
        rw [ho] at this
        obtain ⟨T', h1, h2⟩ := this
        exact ih T' s' l h1 h2
      | reply r => rw [ho] at this; exact this
      | close => trivial
      | error => trivial
      | crash => rw [ho] at this; exact this

theorem connection_good (e : Env) (rs : List Rcv) : GoodOut e (dataOf rs) (connection e rs) :=
  serve_good e _ _ [] _ _ ⟨by simp [St.init], by simp [St.init], by simp [St.init], fun _ => List.suffix_refl _, fun _ => rfl, by simp [St.init]⟩ rfl

end Fly.ReqEvent
