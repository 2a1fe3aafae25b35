import Verif.Pages.Model
import Verif.Response.Props
import Verif.FileType.Props

namespace Fly.Pages
open Fly.FileType (Mime fromPath contentType fromPath_last lookup_type)

/-! ## C153 — the page of a status is the file with its number -/

theorem openLoop_spec (fs : Bytes → Found) (dir : Bytes) (hb : ∀ p, fs p ≠ .bad) (rows : List (Nat × Bytes)) :
    ∀ acc, (∀ r ∈ rows, (pagePath dir r.1).length < pathMax) →
      openLoop fs dir rows acc = .pages (acc ++ rows.filterMap fun r =>
        match fs (pagePath dir r.1) with
        | .page c => some ⟨r.1, pagePath dir r.1, fromPath (pagePath dir r.1), c⟩
        | _ => none) := by
  induction rows with
  | nil => intro acc _; simp [openLoop]
  | cons r rows ih =>
    intro acc hl
    obtain ⟨code, ph⟩ := r
    have h1 := hl (code, ph) List.mem_cons_self
    simp only at h1
    have ih' := fun acc => ih acc (fun r hr => hl r (List.mem_cons_of_mem _ hr))
    unfold openLoop
    simp only
    rw [if_neg (by omega)]
    cases hf : fs (pagePath dir code) with
    | unreadable => simp only [ih', List.filterMap_cons, hf]
    | closed => simp only [ih', List.filterMap_cons, hf]
    | bad => exact absurd hf (hb _)
    | page c => simp only [ih', List.filterMap_cons, hf, List.append_assoc, List.cons_append, List.nil_append]

theorem find_filterMap (g : Nat → Option Page) (hg : ∀ n p, g n = some p → p.status = n) (rows : List (Nat × Bytes)) (t : Nat) :
    (rows.filterMap fun r => g r.1).find? (·.status == t) = if t ∈ rows.map (·.1) then g t else none := by
  induction rows with
  | nil => rfl
  | cons r rows ih =>
    obtain ⟨code, ph⟩ := r
    rw [List.filterMap_cons]
    by_cases hc : code = t
    · subst hc
      cases hgc : g code with
      | none =>
        simp only [ih]
        split
        · simp [hgc]
        · simp
      | some p =>
        simp only
        rw [List.find?_cons_of_pos (by simpa using hg _ _ hgc)]
        simp
    · have : (t ∈ ((code, ph) :: rows).map (·.1)) ↔ t ∈ rows.map (·.1) := by
        simp only [List.map_cons, List.mem_cons]
        exact ⟨fun h => h.resolve_left (fun e => hc e.symm), .inr⟩
      cases hgc : g code with
      | none => simp only [ih, this]
      | some p =>
        simp only
        rw [List.find?_cons_of_neg (by have := hg _ _ hgc; simp [this, hc]), ih]
        simp only [this]

/-- The path as an administrator knows it: directory, slash, three digits, `.html`. -/
def named (dir : Bytes) (t : Nat) : Bytes := dir ++ b!"/" ++ Response.threeDigits t ++ b!".html"

theorem pagePath_rows : ∀ r ∈ Response.responses, Response.decimal r.1 = Response.threeDigits r.1 := by decide +kernel

theorem status_rows : ∀ t ∈ Response.statusTypes, t ≠ 411 → t ∈ Response.responses.map (·.1) := by decide +kernel

theorem html_type (dir : Bytes) (t : Nat) : contentType (fromPath (named dir t)) = b!"text/html" := by
  have : named dir t = (dir ++ b!"/" ++ Response.threeDigits t) ++ 46 :: b!"html" := by simp [named]
  rw [this, fromPath_last _ _ (by decide), lookup_type]
  rfl

/-- **C153 (partial).** If the directory's path has at most 4086 bytes and no page fails to be encoded, the page of
each status except 411 is the content of `<dir>/<status>.html`, as `text/html`, and there is none if that file cannot be read.  Missing:
411 and longer paths (`C153_page_411_ignored_refuted`, `C153_long_directory_refuted`). -/
theorem C153_page_of_status_partial (fs : Bytes → Found) (dir : Bytes) (hd : dir.length ≤ 4086) (hb : ∀ p, fs p ≠ .bad) :
    ∃ l, openPages fs (some dir) = .pages l ∧ ∀ t ∈ Response.statusTypes, t ≠ 411 →
      (∀ c, fs (named dir t) = .page c → ∃ p, pageOf l t = some p ∧ p.content = c ∧ contentType p.mime = b!"text/html") ∧
      ((∀ c, fs (named dir t) ≠ .page c) → pageOf l t = none) := by
  have hlen : ∀ r ∈ Response.responses, (pagePath dir r.1).length < pathMax := by
    intro r hr
    unfold pagePath pathMax
    rw [pagePath_rows r hr]
    simp [Response.threeDigits]
    omega
  refine ⟨_, openLoop_spec fs dir hb Response.responses [] hlen, ?_⟩
  intro t ht h411
  have hm := status_rows t ht h411
  have hp : pagePath dir t = named dir t := by
    obtain ⟨r, hr, e⟩ := List.mem_map.1 hm
    unfold pagePath named
    rw [← e, pagePath_rows r hr]
  have hfind := find_filterMap (fun n =>
      match fs (pagePath dir n) with
      | .page c => some ⟨n, pagePath dir n, fromPath (pagePath dir n), c⟩
      | _ => none) (fun n p hp => by
        split at hp
        · cases hp; rfl
        · cases hp) Response.responses t
  rw [if_pos hm, hp] at hfind
  unfold pageOf
  rw [List.nil_append]
  constructor
  · intro c hc
    rw [hc] at hfind
    exact ⟨_, hfind, rfl, html_type dir t⟩
  · intro hc
    rw [hfind]
    split
    · next c hc' => exact absurd hc' (hc c)
    · rfl

/-- A page for 404, one for 500 that cannot be read. -/
def exampleFs : Bytes → Found := fun p =>
  if p = b!"/srv/pages/404.html" then .page b!"<p>gone" else if p = b!"/srv/pages/500.html" then .closed else .unreadable

example : named b!"/srv/pages" 404 = b!"/srv/pages/404.html" := by decide
example : openPages exampleFs (some b!"/srv/pages") = .pages [⟨404, b!"/srv/pages/404.html", fromPath b!"/srv/pages/404.html", b!"<p>gone"⟩] := by
  decide +kernel

/-- **C153 refuted.** The page for 411 is never used: 411 is not in the table. -/
theorem C153_page_411_ignored_refuted (fs : Bytes → Found) (dir : Option Bytes) (l : List Page) (h : openPages fs dir = .pages l) : pageOf l 411 = none := by
  have hmem : ∀ (rows : List (Nat × Bytes)) (d : Bytes) (acc l : List Page), openLoop fs d rows acc = .pages l →
      ∀ p ∈ l, p ∈ acc ∨ p.status ∈ rows.map (·.1) := by
    intro rows d
    induction rows with
    | nil => intro acc l h p hp; simp only [openLoop, Opened.pages.injEq] at h; subst h; exact .inl hp
    | cons r rows ih =>
      intro acc l h p hp
      obtain ⟨code, ph⟩ := r
      unfold openLoop at h
      simp only at h
      split at h
      · cases h
      · split at h
        · rcases ih _ _ h p hp with h1 | h1
          · exact .inl h1
          · exact .inr (List.mem_cons_of_mem _ h1)
        · rcases ih _ _ h p hp with h1 | h1
          · exact .inl h1
          · exact .inr (List.mem_cons_of_mem _ h1)
        · cases h
        · rcases ih _ _ h p hp with h1 | h1
          · rcases List.mem_append.1 h1 with h2 | h2
            · exact .inl h2
            · rw [List.mem_singleton] at h2
              subst h2
              exact .inr List.mem_cons_self
          · exact .inr (List.mem_cons_of_mem _ h1)
  unfold pageOf
  rw [List.find?_eq_none]
  intro p hp
  cases dir with
  | none => simp only [openPages, Opened.pages.injEq] at h; subst h; cases hp
  | some d =>
    rcases hmem _ _ _ _ h p hp with h1 | h1
    · cases h1
    · have : ∀ n ∈ Response.responses.map (·.1), n ≠ 411 := by decide +kernel
      simpa using this _ h1

example : openPages (fun p => if p = b!"/p/411.html" then .page b!"x" else .unreadable) (some b!"/p") = .pages [] := by decide +kernel

/-- **C153 refuted.** A directory whose path is longer than 4086 bytes makes the worker write behind its buffer. -/
theorem C153_long_directory_refuted (fs : Bytes → Found) (dir : Bytes) (h : 4086 < dir.length) : openPages fs (some dir) = .overflow := by
  have e : Response.responses = (100, b!"Continue") :: Response.responses.tail := rfl
  unfold openPages
  simp only
  rw [e]
  unfold openLoop
  simp only
  rw [if_pos]
  have : (Response.decimal 100).length = 3 := by decide +kernel
  unfold pagePath pathMax
  simp [this]
  omega

example : openPages exampleFs (some (List.replicate 4090 97)) = .overflow := C153_long_directory_refuted _ _ (by rw [List.length_replicate]; omega)

end Fly.Pages
