import Verif.FileType.Model
import Verif.FileType.Spec

/-! # C152: files are served under the media type of their extension -/

namespace Fly.FileType

theorem strchr_append (p ext : Bytes) (hp : 46 ∉ p) : strchr 46 (p ++ 46 :: ext) = some (46 :: ext) := by
  induction p with
  | nil => rfl
  | cons b p ih =>
    simp only [List.mem_cons, not_or] at hp
    simp only [List.cons_append, strchr]
    rw [if_neg (fun h => hp.1 h.symm)]
    exact ih hp.2

theorem strchr_none (p : Bytes) (hp : 46 ∉ p) : strchr 46 p = none := by
  induction p with
  | nil => rfl
  | cons b p ih =>
    simp only [List.mem_cons, not_or] at hp
    simp only [strchr]
    rw [if_neg (fun h => hp.1 h.symm)]
    exact ih hp.2

/-- The first dot of a text. -/
theorem first_dot (p : Bytes) (h : 46 ∈ p) : ∃ a b, p = a ++ 46 :: b ∧ 46 ∉ a := by
  induction p with
  | nil => cases h
  | cons c p ih =>
    by_cases hc : c = 46
    · exact ⟨[], p, by rw [hc]; rfl, by simp⟩
    · have hm : 46 ∈ p := by
        rcases List.mem_cons.1 h with h | h
        · exact absurd h.symm hc
        · exact h
      obtain ⟨a, b, e, hn⟩ := ih hm
      exact ⟨c :: a, b, by rw [e]; rfl, by simp [hn]; omega⟩

/-- The last dot of a text. -/
theorem last_dot (p : Bytes) (h : 46 ∈ p) : ∃ a b, p = a ++ 46 :: b ∧ 46 ∉ b := by
  induction p with
  | nil => cases h
  | cons c p ih =>
    by_cases hm : 46 ∈ p
    · obtain ⟨a, b, e, hn⟩ := ih hm
      exact ⟨c :: a, b, by rw [e]; rfl, hn⟩
    · rcases List.mem_cons.1 h with h | h
      · exact ⟨[], p, by rw [← h]; rfl, hm⟩
      · exact absurd h hm

/-- Every path is a directory part and a name. -/
theorem split_name (p : Bytes) : ∃ dir name, p = dir ++ name ∧ (dir = [] ∨ ∃ d, dir = d ++ [47]) ∧ 47 ∉ name := by
  induction p with
  | nil => exact ⟨[], [], rfl, .inl rfl, by simp⟩
  | cons c p ih =>
    obtain ⟨dir, name, e, hd, hn⟩ := ih
    rcases hd with rfl | ⟨d, rfl⟩
    · by_cases hc : c = 47
      · exact ⟨[47], name, by rw [e, hc]; rfl, .inr ⟨[], rfl⟩, hn⟩
      · exact ⟨[], c :: name, by rw [e]; rfl, .inl rfl, by simp [hn]; omega⟩
    · exact ⟨c :: (d ++ [47]), name, by rw [e]; rfl, .inr ⟨c :: d, rfl⟩, hn⟩

/-- The loop ends behind the last dot. -/
theorem afterDots_last (fuel : Nat) : ∀ (p ext : Bytes), 46 ∉ ext → (p ++ 46 :: ext).length ≤ fuel → afterDots fuel (p ++ 46 :: ext) = ext := by
  induction fuel with
  | zero => intro p ext _ h; simp at h
  | succ fuel ih =>
    intro p ext he hl
    have hne : p ++ 46 :: ext ≠ [] := by simp
    unfold afterDots
    rw [if_neg hne]
    by_cases hp : 46 ∈ p
    · obtain ⟨a, b, e, hn⟩ := first_dot p hp
      subst e
      have e1 : a ++ 46 :: b ++ 46 :: ext = a ++ 46 :: (b ++ 46 :: ext) := by simp
      rw [e1, strchr_append _ _ hn]
      dsimp only [List.drop_succ_cons, List.drop_zero]
      apply ih b ext he
      simp at hl ⊢
      omega
    · rw [strchr_append _ _ hp]
      dsimp only [List.drop_succ_cons, List.drop_zero]
      cases fuel with
      | zero => rfl
      | succ f =>
        unfold afterDots
        split
        · rfl
        · have : strchr 46 (List.drop 1 (46 :: ext)) = none := strchr_none _ he
          rw [this]; rfl

theorem fromPath_last (p ext : Bytes) (he : 46 ∉ ext) : fromPath (p ++ 46 :: ext) = lookup ext mimes := by
  unfold fromPath
  rw [afterDots_last _ p ext he (Nat.le_refl _)]
  have : ∃ q, strchr 46 (p ++ 46 :: ext) = some q := by
    obtain ⟨a, b, e, hn⟩ := first_dot (p ++ 46 :: ext) (by simp)
    rw [e]; exact ⟨_, strchr_append _ _ hn⟩
  obtain ⟨q, hq⟩ := this
  rw [hq]

/-- The table, read as a whole. -/
theorem lookup_type (ext : Bytes) : contentType (lookup ext mimes) = (typeOf ext).getD b!"text/plain" := by
  unfold typeOf mimes
  simp only [lookup, List.mem_cons, List.not_mem_nil, or_false, or_self]
  by_cases h1 : ext = b!"txt"
  · rw [if_pos h1, if_pos h1]; rfl
  rw [if_neg h1, if_neg h1]
  by_cases h2 : ext = b!"csv"
  · rw [if_pos h2, if_pos h2]; rfl
  rw [if_neg h2, if_neg h2]
  by_cases h3 : ext = b!"html" ∨ ext = b!"htm"
  · rw [if_pos h3, if_pos h3]; rfl
  rw [if_neg h3, if_neg h3]
  by_cases h4 : ext = b!"css"
  · rw [if_pos h4, if_pos h4]; rfl
  rw [if_neg h4, if_neg h4]
  by_cases h5 : ext = b!"xml"
  · rw [if_pos h5, if_pos h5]; rfl
  rw [if_neg h5, if_neg h5]
  by_cases h6 : ext = b!"js"
  · rw [if_pos h6, if_pos h6]; rfl
  rw [if_neg h6, if_neg h6]
  by_cases h7 : ext = b!"rtf"
  · rw [if_pos h7, if_pos h7]; rfl
  rw [if_neg h7, if_neg h7]
  rfl

theorem typeOf_no_slash (ext : Bytes) (h : 47 ∈ ext) : typeOf ext = none := by
  unfold typeOf
  repeat rw [if_neg (by rintro rfl; revert h; decide)]
  rw [if_neg (by
    rintro (rfl | rfl)
    · revert h; decide
    · revert h; decide)]
  repeat rw [if_neg (by rintro rfl; revert h; decide)]

/-- **C152.** A file with an extension the server knows is sent with that media type, whatever directories it is in and whatever dots its
path has; any other extension is sent as `text/plain`. -/
theorem C152_type_of_extension (path ext : Bytes) (h : HasExt path ext) : served path = (typeOf ext).getD b!"text/plain" := by
  obtain ⟨dir, stem, e, _, _, _, hd⟩ := h
  have : path = (dir ++ stem) ++ 46 :: ext := by rw [e]; simp
  unfold served
  rw [this, fromPath_last _ _ hd, lookup_type]

/-- **C152.** A file without extension is sent as `text/plain`, also in a directory whose name has a dot. -/
theorem C152_no_extension (path : Bytes) (h : NoExt path) : served path = b!"text/plain" := by
  obtain ⟨dir, name, e, hdir, hs, hd⟩ := h
  unfold served
  by_cases hp : 46 ∈ dir
  · rcases hdir with rfl | ⟨d, rfl⟩
    · cases hp
    · have hpd : 46 ∈ d := by
        rcases List.mem_append.1 hp with h | h
        · exact h
        · simp at h
      obtain ⟨a, b, ed, hn⟩ := last_dot d hpd
      have : path = a ++ 46 :: (b ++ 47 :: name) := by rw [e, ed]; simp
      rw [this, fromPath_last _ _ (by simp [hn, hd]), lookup_type, typeOf_no_slash _ (by simp)]
      rfl
  · have : 46 ∉ path := by rw [e]; simp [hp, hd]
    unfold fromPath
    rw [strchr_none _ this]
    rfl

/-- Every path is one or the other. -/
theorem C152_every_path (path : Bytes) : (∃ ext, HasExt path ext) ∨ NoExt path := by
  obtain ⟨dir, name, e, hdir, hs⟩ := split_name path
  by_cases hd : 46 ∈ name
  · obtain ⟨a, b, ed, hn⟩ := last_dot name hd
    refine .inl ⟨b, dir, a, by rw [e, ed]; simp, hdir, ?_, ?_, hn⟩
    · intro h; exact hs (by rw [ed]; simp [h])
    · intro h; exact hs (by rw [ed]; simp [h])
  · exact .inr ⟨dir, name, e, hdir, hs, hd⟩

example : HasExt b!"/srv/v1.2/site/main.min.js" b!"js" :=
  ⟨b!"/srv/v1.2/site/", b!"main.min", by decide, .inr ⟨b!"/srv/v1.2/site", by decide⟩, by decide, by decide, by decide⟩
example : served b!"/srv/v1.2/site/main.min.js" = b!"text/javascript" := by decide
example : NoExt b!"/srv/page.html/README" :=
  ⟨b!"/srv/page.html/", b!"README", by decide, .inr ⟨b!"/srv/page.html", by decide⟩, by decide, by decide⟩
example : served b!"/srv/page.html/README" = b!"text/plain" := by decide

end Fly.FileType
