import Verif.Header.Spec

/-! # C20 — header lists -/

namespace Fly.Header

theorem cstr_good {n : Bytes} (h : 0 ∉ n) : cstr n = n := by
  unfold cstr
  induction n with
  | nil => rfl
  | cons x n ih =>
    have hx : (x != 0) = true := by rw [bne_iff_ne]; intro e; subst e; exact h (by simp)
    rw [List.takeWhile_cons, if_pos hx, ih (fun hm => h (by simp [hm]))]

/-- All names are proper C strings and the count is right. -/
structure Inv (h : HList) : Prop where
  names : ∀ f ∈ h.items, ∃ n, f.name = some n ∧ GoodName n
  count : h.count = h.items.length

theorem mkField_view {n : Bytes} (hn : n ≠ []) (v : Bytes) :
    (mkField n v).name = some n ∧ ((mkField n v).value).getD [] = v := by
  unfold mkField
  have : ¬ n.length = 0 := by simpa using hn
  rw [if_neg this]
  refine ⟨rfl, ?_⟩
  by_cases hv : v.length = 0
  · rw [if_pos hv]; exact (List.eq_nil_of_length_eq_zero hv).symm
  · rw [if_neg hv]; rfl

theorem findStr_spec {n : Bytes} (hn : GoodName n) : ∀ (l : List HField), (∀ f ∈ l, ∃ m, f.name = some m ∧ GoodName m) →
    (findStr n l = some none ∧ ∀ f ∈ l, f.name ≠ some n) ∨
    (∃ i pre f post, findStr n l = some (some i) ∧ l = pre ++ f :: post ∧ pre.length = i ∧ f.name = some n ∧
      ∀ g ∈ pre, g.name ≠ some n)
  | [], _ => Or.inl ⟨rfl, by simp⟩
  | f :: fs, hl => by
    obtain ⟨m, hm, hg⟩ := hl f (by simp)
    have e : strEq f.name n = some (m == n) := by
      unfold strEq; rw [hm]; simp only; rw [cstr_good hg.2, cstr_good hn.2]
    unfold findStr
    rw [e]
    by_cases hmn : m = n
    · subst hmn
      simp only [beq_self_eq_true]
      exact Or.inr ⟨0, [], f, fs, rfl, rfl, rfl, hm, by simp⟩
    · have hb : (m == n) = false := by simpa using hmn
      rw [hb]
      simp only
      rcases findStr_spec hn fs (fun g hg => hl g (by simp [hg])) with ⟨h1, h2⟩ | ⟨i, pre, g, post, h1, h2, h3, h4, h5⟩
      · left
        rw [h1]
        refine ⟨rfl, ?_⟩
        intro g hg
        rcases List.mem_cons.1 hg with rfl | hg
        · rw [hm]; intro h; exact hmn (Option.some.inj h)
        · exact h2 g hg
      · right
        rw [h1]
        refine ⟨i + 1, f :: pre, g, post, rfl, by rw [h2]; rfl, by simp [h3], h4, ?_⟩
        intro k hk
        rcases List.mem_cons.1 hk with rfl | hk
        · rw [hm]; intro h; exact hmn (Option.some.inj h)
        · exact h5 k hk

def pr (f : HField) : Bytes × Bytes := (f.name.getD [], f.value.getD [])

theorem view_eq (h : HList) : view h = h.items.map pr := rfl

theorem modify_split (g : HField → HField) (f : HField) (post : List HField) : ∀ pre : List HField,
    (pre ++ f :: post).modify pre.length g = pre ++ g f :: post
  | [] => by simp
  | x :: pre => by simp [modify_split g f post pre]

theorem setFirst_split {n v : Bytes} : ∀ (pre : Pairs) (w : Bytes) (post : Pairs), (∀ p ∈ pre, p.1 ≠ n) →
    setFirst n v (pre ++ (n, w) :: post) = pre ++ (n, v) :: post
  | [], w, post, _ => by simp [setFirst]
  | (m, x) :: pre, w, post, h => by
    have : m ≠ n := h (m, x) (by simp)
    simp only [List.cons_append, setFirst, if_neg this]
    rw [setFirst_split pre w post (fun p hp => h p (by simp [hp]))]

theorem setFirst_none {n v : Bytes} : ∀ (l : Pairs), (∀ p ∈ l, p.1 ≠ n) → setFirst n v l = l ++ [(n, v)]
  | [], _ => rfl
  | (m, x) :: l, h => by
    have : m ≠ n := h (m, x) (by simp)
    simp only [List.cons_append, setFirst, if_neg this]
    rw [setFirst_none l (fun p hp => h p (by simp [hp]))]

theorem removeFirst_split {n : Bytes} : ∀ (pre : Pairs) (w : Bytes) (post : Pairs), (∀ p ∈ pre, p.1 ≠ n) →
    removeFirst n (pre ++ (n, w) :: post) = pre ++ post
  | [], w, post, _ => by simp [removeFirst]
  | (m, x) :: pre, w, post, h => by
    have : m ≠ n := h (m, x) (by simp)
    simp only [List.cons_append, removeFirst, if_neg this]
    rw [removeFirst_split pre w post (fun p hp => h p (by simp [hp]))]

theorem removeFirst_none {n : Bytes} : ∀ (l : Pairs), (∀ p ∈ l, p.1 ≠ n) → removeFirst n l = l
  | [], _ => rfl
  | (m, x) :: l, h => by
    have : m ≠ n := h (m, x) (by simp)
    simp only [removeFirst, if_neg this]
    rw [removeFirst_none l (fun p hp => h p (by simp [hp]))]

theorem pr_ne {n : Bytes} {f : HField} {m : Bytes} (hm : f.name = some m) (h : f.name ≠ some n) : (pr f).1 ≠ n := by
  intro e; unfold pr at e; rw [hm] at e; simp at e; exact h (by rw [hm, e])

theorem names_ne {n : Bytes} {l : List HField} (hi : ∀ f ∈ l, ∃ m, f.name = some m ∧ GoodName m) (h : ∀ f ∈ l, f.name ≠ some n) :
    ∀ p ∈ l.map pr, p.1 ≠ n := by
  intro p hp
  obtain ⟨f, hf, rfl⟩ := List.mem_map.1 hp
  obtain ⟨m, hm, _⟩ := hi f hf
  exact pr_ne hm (h f hf)

theorem add_ok {h : HList} (hi : Inv h) {n : Bytes} (hn : GoodName n) (v : Bytes) (b : Bool) :
    Inv (add h n v b) ∧ view (add h n v b) = if b then (n, v) :: view h else view h ++ [(n, v)] := by
  obtain ⟨h1, h2⟩ := mkField_view hn.1 v
  have hp : pr (mkField n v) = (n, v) := by unfold pr; rw [h1, h2]; rfl
  cases b
  · refine ⟨⟨?_, ?_⟩, ?_⟩
    · intro f hf
      simp only [add, Bool.false_eq_true, if_false] at hf
      rcases List.mem_append.1 hf with hf | hf
      · exact hi.names f hf
      · rw [List.mem_singleton.1 hf]; exact ⟨n, h1, hn⟩
    · simp [add, hi.count]
    · simp [add, view_eq, hp]
  · refine ⟨⟨?_, ?_⟩, ?_⟩
    · intro f hf
      simp only [add, if_true] at hf
      rcases List.mem_cons.1 hf with rfl | hf
      · exact ⟨n, h1, hn⟩
      · exact hi.names f hf
    · simp [add, hi.count]
    · simp [add, view_eq, hp]

theorem step_ok {h : HList} (hi : Inv h) (op : Op) (hn : GoodName op.name) :
    ∃ h', step h op = some h' ∧ Inv h' ∧ view h' = specStep (view h) op := by
  cases op with
  | add n v =>
    have hn : GoodName n := hn
    have := add_ok hi hn v false
    exact ⟨_, rfl, this.1, by rw [this.2]; rfl⟩
  | addHead n v =>
    have hn : GoodName n := hn
    have := add_ok hi hn v true
    exact ⟨_, rfl, this.1, by rw [this.2]; rfl⟩
  | addIfNo n v =>
    have hn : GoodName n := hn
    simp only [step, addIfNo, specStep]
    rcases findStr_spec hn h.items hi.names with ⟨h1, h2⟩ | ⟨i, pre, f, post, h1, h2, h3, h4, h5⟩
    · rw [h1]
      have := add_ok hi hn v false
      refine ⟨_, rfl, this.1, ?_⟩
      have hm : n ∉ (view h).map (·.1) := by
        intro hm
        obtain ⟨p, hp, hpe⟩ := List.mem_map.1 hm
        exact names_ne hi.names h2 p hp hpe
      rw [this.2, if_neg hm]
      rfl
    · rw [h1]
      refine ⟨_, rfl, hi, ?_⟩
      rw [if_pos]
      rw [view_eq, h2]
      simp only [List.map_append, List.map_cons, List.mem_append, List.mem_cons]
      right; left
      unfold pr; rw [h4]; rfl
  | addVerIfNo n v =>
    have hn : GoodName n := hn
    simp only [step, addVerIfNo, specStep]
    have hany : h.items.any (sameLenName · n) = true ↔ n ∈ (view h).map (·.1) := by
      rw [List.any_eq_true, view_eq]
      constructor
      · rintro ⟨f, hf, he⟩
        obtain ⟨m, hm, hg⟩ := hi.names f hf
        refine List.mem_map.2 ⟨pr f, List.mem_map.2 ⟨f, hf, rfl⟩, ?_⟩
        unfold sameLenName at he
        rw [hm] at he
        simp only [cstr_good hg.2, cstr_good hn.2, Bool.and_eq_true, beq_iff_eq] at he
        unfold pr; rw [hm]; exact he.2
      · intro hmem
        obtain ⟨p, hp, he⟩ := List.mem_map.1 hmem
        obtain ⟨f, hf, rfl⟩ := List.mem_map.1 hp
        obtain ⟨m, hm, hg⟩ := hi.names f hf
        refine ⟨f, hf, ?_⟩
        unfold pr at he; rw [hm] at he
        have he : m = n := he
        unfold sameLenName; rw [hm, he]; simp
    by_cases hc : n ∈ (view h).map (·.1)
    · rw [if_pos (hany.2 hc), if_pos hc]
      exact ⟨_, rfl, hi, rfl⟩
    · rw [if_neg (fun hx => hc (hany.1 hx)), if_neg hc]
      have := add_ok hi hn v false
      exact ⟨_, rfl, this.1, by rw [this.2]; rfl⟩
  | set n v =>
    have hn : GoodName n := hn
    simp only [step, addModify, specStep]
    rcases findStr_spec hn h.items hi.names with ⟨h1, h2⟩ | ⟨i, pre, f, post, h1, h2, h3, h4, h5⟩
    · rw [h1]
      have := add_ok hi hn v false
      refine ⟨_, rfl, this.1, ?_⟩
      rw [this.2, view_eq, setFirst_none _ (names_ne hi.names h2)]
      rfl
    · rw [h1]
      have hmod : h.items.modify i (fun f => { f with value := some v }) = pre ++ { f with value := some v } :: post := by
        rw [h2, ← h3, modify_split]
      refine ⟨_, rfl, ⟨?_, ?_⟩, ?_⟩
      · intro g hg
        simp only at hg
        rw [hmod] at hg
        rcases List.mem_append.1 hg with hg | hg
        · exact hi.names g (by rw [h2]; simp [hg])
        · rcases List.mem_cons.1 hg with rfl | hg
          · exact ⟨n, h4, hn⟩
          · exact hi.names g (by rw [h2]; simp [hg])
      · simp [hi.count]
      · simp only [view_eq]
        rw [hmod, h2, List.map_append, List.map_append, List.map_cons, List.map_cons]
        have e1 : pr f = (n, f.value.getD []) := by unfold pr; rw [h4]; rfl
        have e2 : pr { f with value := some v } = (n, v) := by unfold pr; simp [h4]
        rw [e1, e2, setFirst_split]
        exact names_ne (fun g hg => hi.names g (by rw [h2]; simp [hg])) h5
  | delete n =>
    have hn : GoodName n := hn
    simp only [step, delete, specStep]
    rcases findStr_spec hn h.items hi.names with ⟨h1, h2⟩ | ⟨i, pre, f, post, h1, h2, h3, h4, h5⟩
    · rw [h1]
      refine ⟨_, rfl, hi, ?_⟩
      rw [view_eq, removeFirst_none _ (names_ne hi.names h2)]
    · rw [h1]
      have her : h.items.eraseIdx i = pre ++ post := by
        rw [h2, ← h3, List.eraseIdx_append_of_length_le (Nat.le_refl _)]; simp
      refine ⟨_, rfl, ⟨?_, ?_⟩, ?_⟩
      · intro g hg
        simp only at hg
        rw [her] at hg
        rcases List.mem_append.1 hg with hg | hg <;> exact hi.names g (by rw [h2]; simp [hg])
      · simp only [her, hi.count]
        rw [h2]; simp
      · simp only [view_eq]
        rw [her, h2, List.map_append, List.map_append, List.map_cons]
        have e1 : pr f = (n, f.value.getD []) := by unfold pr; rw [h4]; rfl
        rw [e1, removeFirst_split]
        exact names_ne (fun g hg => hi.names g (by rw [h2]; simp [hg])) h5

theorem run_ok : ∀ (ops : List Op) (h : HList), Inv h → (∀ op ∈ ops, GoodName op.name) →
    ∃ h', run h ops = some h' ∧ Inv h' ∧ view h' = specRun (view h) ops
  | [], h, hi, _ => ⟨h, rfl, hi, rfl⟩
  | op :: ops, h, hi, hv => by
    obtain ⟨h1, e1, i1, v1⟩ := step_ok hi op (hv op (by simp))
    obtain ⟨h2, e2, i2, v2⟩ := run_ok ops h1 i1 (fun o ho => hv o (by simp [ho]))
    refine ⟨h2, ?_, i2, ?_⟩
    · simp only [run, e1]; exact e2
    · rw [v2, v1]; rfl

/-- **C20.** For every sequence of header operations with proper names, starting from an empty list: no
operation fails, the list read is exactly that of the specification (`specStep`: add appends, conditional
add appends only if the name is absent, set changes the first pair of that name or appends, delete removes
the first), and the stored count is its length. -/
theorem C20_header_list_refines_pairs (ops : List Op) (hv : ∀ op ∈ ops, GoodName op.name) :
    ∃ h, run HList.init ops = some h ∧ view h = specRun [] ops ∧ h.count = (specRun [] ops).length := by
  obtain ⟨h, e, i, v⟩ := run_ok ops HList.init ⟨by simp [HList.init], rfl⟩ hv
  have v : view h = specRun [] ops := v
  refine ⟨h, e, v, ?_⟩
  rw [← v, i.count, view_eq, List.length_map]

/-- What the specification says about the first header of a name: after set it has the new value; all
other names are untouched. -/
theorem setFirst_lookup (n v m : Bytes) : ∀ l : Pairs,
    (setFirst n v l).lookup m = if m = n then some v else l.lookup m
  | [] => by
    simp only [setFirst, List.lookup]
    by_cases h : m = n
    · subst h; simp
    · have : (m == n) = false := by simpa using h
      simp [this, h]
  | (k, w) :: l => by
    unfold setFirst
    by_cases hk : k = n
    · rw [if_pos hk]; subst hk
      by_cases h : m = k
      · subst h; simp [List.lookup]
      · have : (m == k) = false := by simpa using h
        simp [List.lookup, this, h]
    · rw [if_neg hk]
      have ih := setFirst_lookup n v m l
      by_cases h : m = k
      · subst h; simp [List.lookup, hk]
      · have : (m == k) = false := by simpa using h
        simp only [List.lookup, this]
        exact ih

theorem setFirst_names (n v : Bytes) : ∀ l : Pairs,
    (setFirst n v l).map (·.1) = if n ∈ l.map (·.1) then l.map (·.1) else l.map (·.1) ++ [n]
  | [] => by simp [setFirst]
  | (k, w) :: l => by
    unfold setFirst
    by_cases hk : k = n
    · rw [if_pos hk]; simp [hk]
    · rw [if_neg hk]
      simp only [List.map_cons, setFirst_names n v l, List.mem_cons]
      have : ¬ n = k := fun h => hk h.symm
      by_cases hm : n ∈ l.map (·.1)
      · simp [this, hm]
      · simp [this, hm]

theorem removeFirst_sub (n : Bytes) : ∀ l : Pairs, List.Sublist (removeFirst n l) l
  | [] => List.Sublist.refl _
  | (k, w) :: l => by
    unfold removeFirst
    by_cases hk : k = n
    · rw [if_pos hk]; exact List.sublist_cons_self _ _
    · rw [if_neg hk]; exact (removeFirst_sub n l).cons_cons _

/-- An operation that cannot introduce a second header of a name. -/
def Op.conditional : Op → Prop
  | .add _ _ => False
  | .addHead _ _ => False
  | _ => True

theorem specStep_nodup {l : Pairs} (h : (l.map (·.1)).Nodup) (op : Op) (hc : op.conditional) : ((specStep l op).map (·.1)).Nodup := by
  have app : ∀ (n v : Bytes), n ∉ l.map (·.1) → ((l ++ [(n, v)]).map (·.1)).Nodup := by
    intro n v hm
    rw [List.map_append, List.nodup_append]
    refine ⟨h, by simp, ?_⟩
    intro a ha b hb
    simp only [List.map_cons, List.map_nil, List.mem_singleton] at hb
    subst hb
    intro e; subst e; exact hm ha
  cases op with
  | add n v => exact absurd hc id
  | addHead n v => exact absurd hc id
  | addIfNo n v =>
    simp only [specStep]
    split
    · exact h
    · next hm => exact app n v hm
  | addVerIfNo n v =>
    simp only [specStep]
    split
    · exact h
    · next hm => exact app n v hm
  | set n v =>
    simp only [specStep, setFirst_names]
    split
    · exact h
    · next hm => simpa using app n v hm
  | delete n => exact List.Nodup.sublist ((removeFirst_sub n l).map _) h

theorem specRun_nodup : ∀ (ops : List Op) (l : Pairs), (l.map (·.1)).Nodup → (∀ op ∈ ops, op.conditional) →
    ((specRun l ops).map (·.1)).Nodup
  | [], l, h, _ => h
  | op :: ops, l, h, hc =>
    specRun_nodup ops _ (specStep_nodup h op (hc op (by simp))) (fun o ho => hc o (by simp [ho]))

/-- **C20 (no duplicates).** A header list built only with conditional adds, sets and deletes never holds
two headers of the same name. -/
theorem C20_conditional_add_never_duplicates (ops : List Op) (hv : ∀ op ∈ ops, GoodName op.name)
    (hc : ∀ op ∈ ops, op.conditional) :
    ∃ h, run HList.init ops = some h ∧ ((view h).map (·.1)).Nodup := by
  obtain ⟨h, e, v, _⟩ := C20_header_list_refines_pairs ops hv
  exact ⟨h, e, by rw [v]; exact specRun_nodup ops [] (by simp) hc⟩

example : (run HList.init [.add b!"Server" b!"fly", .addIfNo b!"Server" b!"x", .addHead b!":status" b!"200",
    .set b!"Content-Length" b!"10", .set b!"Content-Length" b!"7", .add b!"A" [], .delete b!"Server", .addVerIfNo b!"A" b!"1"]).map
    (fun h => (view h, h.count)) =
    some ([(b!":status", b!"200"), (b!"Content-Length", b!"7"), (b!"A", [])], 3) := by decide

/-- **C20 refuted (case).** Header names are case-insensitive for a client; the conditional add is not, so
a handler's `date` header is joined by a second `Date`. -/
theorem C20_case_variant_duplicated_refuted (v w : Bytes) :
    (run HList.init [.add b!"date" v, .addIfNo b!"Date" w]).map view = some [(b!"date", v), (b!"Date", w)] := by
  have h1 := C20_header_list_refines_pairs [.add b!"date" v, .addIfNo b!"Date" w] (by
    intro op hop
    simp only [List.mem_cons, List.not_mem_nil, or_false] at hop
    rcases hop with rfl | rfl <;> exact ⟨by simp [Op.name], by simp [Op.name]⟩)
  obtain ⟨h, e, hv, _⟩ := h1
  rw [e]
  show some (view h) = _
  rw [hv]
  rfl

/-- **C20 refuted (empty name).** A header with an empty name is stored as a NULL pointer: the next search
by name is undefined, whatever else is in the list. -/
theorem C20_empty_name_crashes_refuted (v n w : Bytes) : run HList.init [.add [] v, .addIfNo n w] = none := by
  simp [run, step, add, HList.init, addIfNo, findStr, mkField, strEq]

/-- **C20 refuted (removal).** Removing a header that is present reads freed memory. -/
theorem C20_remove_present_header_undefined_refuted (ops : List Op) (hv : ∀ op ∈ ops, GoodName op.name) (n : Bytes) (hn : GoodName n)
    (hm : n ∈ (specRun [] ops).map (·.1)) :
    ∃ h, run HList.init ops = some h ∧ removeChain h n = none := by
  obtain ⟨h, e, v, c⟩ := C20_header_list_refines_pairs ops hv
  refine ⟨h, e, ?_⟩
  unfold removeChain
  have h0 : ¬ h.count = 0 := by
    rw [c]; intro h0
    rw [List.eq_nil_of_length_eq_zero h0] at hm; simp at hm
  rw [if_neg h0, if_pos]
  rw [← v, view_eq] at hm
  obtain ⟨p, hp, rfl⟩ := List.mem_map.1 hm
  obtain ⟨f, hf, rfl⟩ := List.mem_map.1 hp
  rw [List.any_eq_true]
  refine ⟨f, hf, ?_⟩
  simp [pr]

example : (run HList.init [.add b!"expect" b!"100-continue"]).bind (removeChain · b!"expect") = none := by decide

/-! ## C67 — persistence of the connection -/

/-- **C67.** The connection is closed after a response iff the first `Connection` header of the *response*
has a value other than `keep-alive` (and not empty); for every list of proper headers the answer is
defined. -/
theorem C67_connection_decided_by_response_header (ops : List Op) (hv : ∀ op ∈ ops, GoodName op.name)
    (hvals : ∀ p ∈ specRun [] ops, 0 ∉ p.2) :
    ∃ h r, run HList.init ops = some h ∧ connection h = some r ∧
      (r = .close → ∃ v, (specRun [] ops).lookup b!"Connection" = some v ∧ v ≠ b!"keep-alive") ∧
      ((specRun [] ops).lookup b!"Connection" = some b!"close" → r = .close) := by
  obtain ⟨h, e, i, v⟩ := run_ok ops HList.init ⟨by simp [HList.init], rfl⟩ hv
  have v : view h = specRun [] ops := v
  have lk : ∀ (l : List HField), (∀ f ∈ l, ∃ m, f.name = some m ∧ GoodName m) → (∀ f ∈ l, f.name ≠ some b!"Connection") →
      ∀ rest, (l.map pr ++ rest).lookup b!"Connection" = rest.lookup b!"Connection" := by
    intro l
    induction l with
    | nil => intro _ _ rest; rfl
    | cons f l ih =>
      intro hl hne rest
      obtain ⟨m, hm, _⟩ := hl f (by simp)
      have hne' := pr_ne hm (hne f (by simp))
      have hb : (b!"Connection" == (pr f).1) = false := by
        rw [beq_eq_false_iff_ne]; exact fun h => hne' h.symm
      rw [List.map_cons, List.cons_append, List.lookup]
      rw [hb]
      exact ih (fun g hg => hl g (by simp [hg])) (fun g hg => hne g (by simp [hg])) rest
  unfold connection
  by_cases h0 : h.count = 0
  · refine ⟨h, .keepAlive, e, by rw [if_pos h0], by simp, ?_⟩
    intro hl
    have : specRun [] ops = [] := by
      have hn : h.items = [] := List.eq_nil_of_length_eq_zero (by rw [← i.count]; exact h0)
      rw [← v, view_eq, hn]; rfl
    rw [this] at hl; simp at hl
  · rcases findStr_spec (n := b!"Connection") ⟨by simp, by decide⟩ h.items i.names with ⟨h1, h2⟩ | ⟨j, pre, f, post, h1, h2, h3, h4, h5⟩
    · refine ⟨h, .keepAlive, e, by rw [if_neg h0, h1], by simp, ?_⟩
      intro hl
      have := lk h.items i.names h2 []
      rw [List.append_nil, ← view_eq, v, hl] at this
      simp at this
    · have hf : h.items[j]? = some f := by rw [h2, ← h3]; simp
      have hlk : (specRun [] ops).lookup b!"Connection" = some (f.value.getD []) := by
        rw [← v, view_eq, h2, List.map_append]
        rw [lk pre (fun g hg => i.names g (by rw [h2]; simp [hg])) h5]
        rw [List.map_cons]
        have : pr f = (b!"Connection", f.value.getD []) := by unfold pr; rw [h4]; rfl
        rw [this]; rfl
      have hmem : pr f ∈ specRun [] ops := by rw [← v, view_eq, h2]; simp
      have hz : 0 ∉ f.value.getD [] := hvals _ hmem
      cases hval : f.value with
      | none =>
        refine ⟨h, .keepAlive, e, by rw [if_neg h0, h1]; simp only [hf, Option.bind_some, hval], by simp, ?_⟩
        intro hl; rw [hlk, hval] at hl; simp at hl
      | some w =>
        rw [hval] at hz hlk
        have hz : 0 ∉ w := hz
        have hw : cstr w = w := cstr_good hz
        have hlk : (specRun [] ops).lookup b!"Connection" = some w := hlk
        refine ⟨h, if w = b!"close" then .close else if w = b!"keep-alive" then .keepAlive else .close, e, ?_, ?_, ?_⟩
        · rw [if_neg h0, h1]
          simp only [hf, Option.bind_some, hval, hw]
          split
          · rfl
          · split <;> rfl
        · intro hr
          refine ⟨w, hlk, ?_⟩
          intro hk; rw [hk] at hr; revert hr; decide
        · intro hl
          rw [hlk] at hl
          rw [if_pos (Option.some.inj hl)]

/-- The header list the server gives its own responses over HTTP/1 (src/response.c:806-1302): server and
date first, then `Connection` (`close` for 413 only). -/
def serverOps (status : Nat) (date : Bytes) : List Op :=
  [.addIfNo b!"Server" b!"fly", .addIfNo b!"Date" date, .add b!"Connection" (if status = 413 then b!"close" else b!"keep-alive")]

/-- **C67 refuted.** The decision after a response (src/response.c:494-507) looks at the response only.
A request's `Connection: close` is stored under the lower-case name and never consulted: for every
request header list the server's own responses other than 413 keep the connection open. -/
theorem C67_request_close_ignored_refuted (status : Nat) (hs : status ≠ 413) (date : Bytes) :
    (run HList.init (serverOps status date)).bind connection = some .keepAlive ∧
    findStr b!"Connection" (addRequest HList.init b!"Connection" b!"close").items = some none := by
  refine ⟨?_, by decide⟩
  unfold serverOps
  rw [if_neg hs]
  by_cases hd : date.length = 0
  · rw [List.eq_nil_of_length_eq_zero hd]; decide
  · have e : run HList.init (serverOps 0 date) = some ⟨[⟨some b!"Server", some b!"fly"⟩, ⟨some b!"Date", some date⟩,
        ⟨some b!"Connection", some b!"keep-alive"⟩], 3⟩ := by
      have c1 : (cstr b!"Server" == cstr b!"Date") = false := by decide
      simp [serverOps, run, step, addIfNo, add, HList.init, findStr, mkField, strEq, hd, c1]
    have e2 : serverOps 0 date = [.addIfNo b!"Server" b!"fly", .addIfNo b!"Date" date, .add b!"Connection" b!"keep-alive"] := by
      simp [serverOps]
    rw [← e2, e]
    have c2 : (cstr b!"Server" == cstr b!"Connection") = false := by decide
    have c3 : (cstr b!"Date" == cstr b!"Connection") = false := by decide
    have c4 : ¬ cstr b!"keep-alive" = b!"close" := by decide
    have c5 : cstr b!"keep-alive" = b!"keep-alive" := by decide
    simp [connection, findStr, strEq, c2, c3, c4, c5]

end Fly.Header
