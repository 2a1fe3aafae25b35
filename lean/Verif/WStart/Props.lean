import Verif.WStart.Spec
import Verif.Master.Props

/-! # C179, C180, C181: the start of a worker -/

namespace Fly.WStart

/-- A file that does not end the worker: if it is there and due, it can be read and encoded. -/
def Harmless (w : World) (c : Conf) (d : Bytes) (f : File) : Prop :=
  ∀ p, place w d f = some p → Due c f → ∃ b, w.opens p = some b ∧ w.encode b ≠ .failed

/-- The file as it is held with descriptors enough. -/
def held (w : World) (c : Conf) (d : Bytes) (f : File) : Held :=
  match place w d f with
  | none => ⟨f, none, .plain⟩
  | some p => ⟨f, w.opens p, (preencode w c f (w.opens p)).getD .plain⟩

/-- The descriptors it takes. -/
def cost (w : World) (d : Bytes) (f : File) : Nat := if (contents w d f).isSome then 1 else 0

theorem joinPath_eq (w : World) (d : Bytes) (f : File) : joinPath w d f.name = place w d f := by
  unfold joinPath place
  by_cases h : Short d f
  · rw [if_pos h, if_neg]
    unfold Short at h
    unfold pathMax
    omega
  · rw [if_neg h, if_pos]
    unfold Short at h
    unfold pathMax
    omega

theorem openFd_enough (w : World) (p : Bytes) (n : Nat) (h : (if (w.opens p).isSome then 1 else 0) ≤ n) :
    openFd w n p = (w.opens p, n - (if (w.opens p).isSome then 1 else 0)) := by
  unfold openFd
  cases ho : w.opens p with
  | none => cases n <;> rfl
  | some b =>
    rw [ho] at h
    cases n with
    | zero => simp at h
    | succ n => simp

theorem preencode_harmless (w : World) (c : Conf) (d : Bytes) (f : File) (p : Bytes) (h : Harmless w c d f)
    (hp : place w d f = some p) : ∃ s, preencode w c f (w.opens p) = some s := by
  unfold preencode
  by_cases h1 : c.threshold ≤ f.size ∧ f.regular = true
  · rw [if_pos h1]
    by_cases h2 : f.size ≤ c.max
    · rw [if_pos h2]
      obtain ⟨b, hb, he⟩ := h p hp ⟨h1.2, h1.1, h2⟩
      rw [hb]
      simp only
      cases hw : w.encode b with
      | ok b => exact ⟨_, rfl⟩
      | full => exact ⟨_, rfl⟩
      | failed => exact absurd hw he
    · rw [if_neg h2]
      exact ⟨_, rfl⟩
  · rw [if_neg h1]
    exact ⟨_, rfl⟩

theorem openFile_held (w : World) (c : Conf) (d : Bytes) (f : File) (n : Nat) (h : Harmless w c d f)
    (hn : cost w d f ≤ n) : openFile w c d f n = some (held w c d f, n - cost w d f) := by
  unfold openFile held
  rw [joinPath_eq]
  unfold cost contents at hn ⊢
  cases hp : place w d f with
  | none => simp
  | some p =>
    rw [hp] at hn
    simp only [Option.bind_some] at hn ⊢
    rw [openFd_enough w p n hn]
    simp only
    obtain ⟨s, hs⟩ := preencode_harmless w c d f p h hp
    rw [hs]
    rfl

theorem openAll_held (w : World) (c : Conf) : ∀ (l : List (Bytes × File)) (n : Nat),
    (∀ x ∈ l, Harmless w c x.1 x.2) → (l.map (fun x => cost w x.1 x.2)).sum ≤ n →
    openAll w c l n = some (l.map (fun x => held w c x.1 x.2), n - (l.map (fun x => cost w x.1 x.2)).sum)
  | [], n, _, _ => by simp [openAll]
  | (d, f) :: rest, n, h, hn => by
    simp only [List.map_cons, List.sum_cons] at hn ⊢
    have h1 := openFile_held w c d f n (h _ List.mem_cons_self) (by omega)
    have h2 := openAll_held w c rest (n - cost w d f) (fun x hx => h x (List.mem_cons_of_mem _ hx)) (by omega)
    rw [openAll, h1]
    simp only
    rw [h2]
    simp only [Option.some.injEq, Prod.mk.injEq, true_and]
    omega

theorem mem_allFiles {ms : List Mount} {x : Bytes × File} : x ∈ allFiles ms ↔ Mounted ms x.1 x.2 := by
  unfold allFiles Mounted
  rw [List.mem_flatMap]
  constructor
  · rintro ⟨m, hm, hx⟩
    obtain ⟨f, hf, rfl⟩ := List.mem_map.1 hx
    exact ⟨m, hm, rfl, hf⟩
  · rintro ⟨m, hm, h1, h2⟩
    exact ⟨m, hm, List.mem_map.2 ⟨x.2, h2, by rw [h1]⟩⟩

theorem length_allFiles (ms : List Mount) : (allFiles ms).length = countFiles ms := by
  induction ms with
  | nil => rfl
  | cons m ms ih =>
    unfold countFiles allFiles at *
    simp only [List.flatMap_cons, List.length_append, List.length_map, List.map_cons, List.sum_cons, ih]

theorem sum_cost_le (w : World) : ∀ l : List (Bytes × File),
    (l.map (fun x => cost w x.1 x.2)).sum ≤ l.length
  | [] => Nat.le_refl _
  | x :: l => by
    have := sum_cost_le w l
    have h1 : cost w x.1 x.2 ≤ 1 := by
      unfold cost
      by_cases h : (contents w x.1 x.2).isSome = true <;> simp [h]
    simp only [List.map_cons, List.sum_cons, List.length_cons]
    omega

/-- The pages are those of `Fly.Pages` (C156), one descriptor each. -/
theorem openPages_enough (w : World) (d : Bytes) : ∀ (rows : List (Nat × Bytes)) (n : Nat) (acc ps : List Pages.Page),
    Pages.openLoop w.pageFs d rows acc = .pages ps → ps.length ≤ n + acc.length →
    acc.length ≤ ps.length ∧ openPages w d rows n acc = some (ps, n + acc.length - ps.length)
  | [], n, acc, ps, h, _ => by
    rw [Pages.openLoop] at h
    cases h
    refine ⟨Nat.le_refl _, ?_⟩
    rw [openPages]
    simp only [Option.some.injEq, Prod.mk.injEq, true_and]
    omega
  | (code, x) :: rows, n, acc, ps, h, hn => by
    rw [Pages.openLoop] at h
    unfold openPages
    simp only
    by_cases hl : Pages.pathMax ≤ (Pages.pagePath d code).length
    · rw [if_pos hl] at h
      cases h
    · rw [if_neg hl] at h ⊢
      cases hf : w.pageFs (Pages.pagePath d code) with
      | unreadable =>
        rw [hf] at h
        exact openPages_enough w d rows n acc ps h hn
      | closed =>
        rw [hf] at h
        exact openPages_enough w d rows n acc ps h hn
      | bad =>
        rw [hf] at h
        cases h
      | page b =>
        rw [hf] at h
        simp only at h
        have key : ∀ k, ps.length ≤ k + (acc ++ [(⟨code, Pages.pagePath d code, FileType.fromPath (Pages.pagePath d code), b⟩ : Pages.Page)]).length → _ :=
          fun k hk => openPages_enough w d rows k _ ps h hk
        cases n with
        | zero =>
          have := (key ps.length (by omega)).1
          rw [List.length_append, List.length_singleton] at this
          omega
        | succ n =>
          have k2 := key n (by rw [List.length_append, List.length_singleton]; omega)
          rw [List.length_append, List.length_singleton] at k2
          refine ⟨by omega, ?_⟩
          simp only
          rw [k2.2]
          simp only [Option.some.injEq, Prod.mk.injEq, true_and]
          omega

theorem pages_enough (w : World) (n : Nat) (ps : List Pages.Page)
    (h : Pages.openPages w.pageFs w.pageDir = .pages ps) (hn : ps.length ≤ n) :
    pages w n = some (ps, n - ps.length) := by
  unfold pages
  unfold Pages.openPages at h
  cases hd : w.pageDir with
  | none =>
    rw [hd] at h
    cases h
    rfl
  | some d =>
    rw [hd] at h
    simp only at h ⊢
    exact (openPages_enough w d _ n [] ps h hn).2

theorem start_held (w : World) (c : Conf) (ms : List Mount) (ps : List Pages.Page)
    (hsome : ms ≠ [] ∨ c.routes ≠ 0) (hm : w.master = true)
    (hps : Pages.openPages w.pageFs w.pageDir = .pages ps)
    (hh : ∀ d f, Mounted ms d f → Harmless w c d f) (hl : countFiles ms + ps.length + 3 ≤ w.limit) :
    ∃ free, start w c ms = .serving ⟨(allFiles ms).map (fun x => held w c x.1 x.2), ps, true, free⟩ := by
  have hsum := sum_cost_le w (allFiles ms)
  rw [length_allFiles] at hsum
  obtain ⟨n, hn⟩ : ∃ n, w.limit = n + 1 := ⟨w.limit - 1, by omega⟩
  have ho := openAll_held w c (allFiles ms) n (fun x hx => hh x.1 x.2 (mem_allFiles.1 hx)) (by omega)
  have hp := pages_enough w (n - ((allFiles ms).map (fun x => cost w x.1 x.2)).sum) ps hps (by omega)
  obtain ⟨k, hk⟩ : ∃ k, n - ((allFiles ms).map (fun x => cost w x.1 x.2)).sum - ps.length = k + 2 :=
    ⟨n - ((allFiles ms).map (fun x => cost w x.1 x.2)).sum - ps.length - 2, by omega⟩
  refine ⟨k, ?_⟩
  have hne : ¬ (ms = [] ∧ c.routes = 0) := fun h => hsome.elim (fun g => g h.1) (fun g => g h.2)
  unfold start
  rw [hn]
  simp only
  rw [if_neg (by rw [hm]; decide), if_neg hne, ho]
  simp only
  rw [hp]
  simp only
  rw [hk]
  rfl

theorem held_file (w : World) (c : Conf) (d : Bytes) (f : File) : (held w c d f).file = f := by
  unfold held
  cases place w d f <;> rfl

theorem files_held (w : World) (c : Conf) (ms : List Mount) :
    ((allFiles ms).map (fun x => held w c x.1 x.2)).map (·.file) = ms.flatMap (·.files) := by
  have h1 : ∀ (d : Bytes) (l : List File),
      ((l.map (fun f => (d, f))).map (fun x => held w c x.1 x.2)).map (·.file) = l := by
    intro d l
    induction l with
    | nil => rfl
    | cons f l ih => simp only [List.map_cons, ih, held_file]
  induction ms with
  | nil => rfl
  | cons m ms ih =>
    unfold allFiles at *
    rw [List.flatMap_cons, List.flatMap_cons, List.map_append, List.map_append, ih, h1]

theorem held_answers (w : World) (c : Conf) (d : Bytes) (f : File) (b : Bytes) (h : Harmless w c d f)
    (hb : contents w d f = some b) : (held w c d f).fd = some b ∧ Answers w c f b (get (held w c d f)) := by
  unfold contents at hb
  cases hp : place w d f with
  | none =>
    rw [hp] at hb
    cases hb
  | some p =>
    rw [hp] at hb
    simp only [Option.bind_some] at hb
    unfold held
    rw [hp]
    simp only
    refine ⟨hb, ?_⟩
    have hd : Due c f → w.encode b ≠ .failed := fun g => by
      obtain ⟨b', h1, h2⟩ := h p hp g
      rw [hb] at h1
      cases h1
      exact h2
    rw [hb]
    unfold preencode get
    by_cases h1 : c.threshold ≤ f.size ∧ f.regular = true
    · rw [if_pos h1]
      by_cases h2 : f.size ≤ c.max
      · rw [if_pos h2]
        have hdue : Due c f := ⟨h1.2, h1.1, h2⟩
        simp only
        cases hw : w.encode b with
        | ok x => exact .coded x hdue hw
        | full => exact .full hdue hw
        | failed => exact absurd hw (hd hdue)
      · rw [if_neg h2]
        exact .big ⟨h1.2, h1.1, by omega⟩
    · rw [if_neg h1]
      exact .plain (fun g => h1 ⟨g.2.1, g.1⟩) (fun g => h1 ⟨g.2.1, g.1⟩)

/-- **C179**: a worker whose files are all there, readable and (where due) encodable, and which may make as many
descriptors as it needs, comes up: it serves every mounted file, in the mounted order, with the content or
encoding the file has, it has every page of the status codes, and it ends when it is told to. -/
theorem C179_starts (w : World) (c : Conf) (ms : List Mount) (ps : List Pages.Page)
    (hsome : ms ≠ [] ∨ c.routes ≠ 0) (hm : w.master = true)
    (hps : Pages.openPages w.pageFs w.pageDir = .pages ps)
    (hf : ∀ d f, Mounted ms d f → ∃ b, contents w d f = some b ∧ (Due c f → w.encode b ≠ .failed))
    (hl : 1 + countFiles ms + ps.length + 2 ≤ w.limit) :
    ∃ s, start w c ms = .serving s ∧ s.pages = ps ∧ endsOnTerm s = true ∧
      s.files.map (·.file) = ms.flatMap (·.files) ∧
      ∀ d f, Mounted ms d f → ∃ h ∈ s.files, ∃ b, h.file = f ∧ contents w d f = some b ∧ h.fd = some b ∧
        Answers w c f b (get h) := by
  have hh : ∀ d f, Mounted ms d f → Harmless w c d f := by
    intro d f hmd p hp hdue
    obtain ⟨b, h1, h2⟩ := hf d f hmd
    unfold contents at h1
    rw [hp] at h1
    exact ⟨b, h1, h2 hdue⟩
  obtain ⟨free, hs⟩ := start_held w c ms ps hsome hm hps hh (by omega)
  refine ⟨_, hs, rfl, rfl, ?_, ?_⟩
  · exact files_held w c ms
  · intro d f hmd
    obtain ⟨b, h1, _⟩ := hf d f hmd
    obtain ⟨h3, h4⟩ := held_answers w c d f b (hh d f hmd) h1
    exact ⟨held w c d f, List.mem_map.2 ⟨(d, f), mem_allFiles.2 hmd, rfl⟩, b, held_file w c d f, h1, h3, h4⟩

/-- A world of three files and one page. -/
def site : World :=
  { real := some
    opens := fun p => if p = b!"/srv/a.txt" then some b!"hello" else if p = b!"/srv/b.txt" then some b!"something longer" else if p = b!"/pub/c" then some b!"x" else none
    encode := fun b => .ok (b.take 3)
    pageFs := fun p => if p = b!"/pages/404.html" then .page b!"not here" else .unreadable
    pageDir := some b!"/pages"
    master := true
    limit := 7 }

def siteMounts : List Mount := [⟨b!"/srv", [⟨b!"a.txt", 5, true⟩, ⟨b!"b.txt", 16, true⟩]⟩, ⟨b!"/pub", [⟨b!"c", 1, true⟩]⟩]

example : ∃ s, start site ⟨10, 100, 0⟩ siteMounts = .serving s ∧ s.pages.map (·.status) = [404] ∧ s.free = 0 ∧
    s.files.map get = [.content b!"hello", .coded b!"som", .content b!"x"] ∧ endsOnTerm s = true :=
  ⟨_, rfl, by decide +kernel⟩

/-- **C180** (partial: files that are not to be encoded in advance, or that are gone). Files that cannot be
opened do not keep a worker from coming up, and every other file is served as if they were not there. -/
theorem C180_others_partial (w : World) (c : Conf) (ms : List Mount) (ps : List Pages.Page)
    (hsome : ms ≠ [] ∨ c.routes ≠ 0) (hm : w.master = true)
    (hps : Pages.openPages w.pageFs w.pageDir = .pages ps)
    (hf : ∀ d f, Mounted ms d f → (∃ b, contents w d f = some b ∧ (Due c f → w.encode b ≠ .failed)) ∨
      place w d f = none ∨ ¬ Due c f)
    (hl : 1 + countFiles ms + ps.length + 2 ≤ w.limit) :
    ∃ s, start w c ms = .serving s ∧ s.pages = ps ∧ endsOnTerm s = true ∧
      s.files.map (·.file) = ms.flatMap (·.files) ∧
      ∀ d f b, Mounted ms d f → contents w d f = some b → ∃ h ∈ s.files, h.file = f ∧ h.fd = some b ∧
        Answers w c f b (get h) := by
  have hh : ∀ d f, Mounted ms d f → Harmless w c d f := by
    intro d f hmd p hp hdue
    rcases hf d f hmd with ⟨b, h1, h2⟩ | h | h
    · unfold contents at h1
      rw [hp] at h1
      exact ⟨b, h1, h2 hdue⟩
    · rw [hp] at h
      cases h
    · exact absurd hdue h
  obtain ⟨free, hs⟩ := start_held w c ms ps hsome hm hps hh (by omega)
  refine ⟨_, hs, rfl, rfl, ?_, ?_⟩
  · exact files_held w c ms
  · intro d f b hmd h1
    obtain ⟨h3, h4⟩ := held_answers w c d f b (hh d f hmd) h1
    exact ⟨held w c d f, List.mem_map.2 ⟨(d, f), mem_allFiles.2 hmd, rfl⟩, held_file w c d f, h3, h4⟩

example : ∃ s, start site ⟨10, 100, 0⟩ [⟨b!"/srv", [⟨b!"locked", 5, true⟩, ⟨b!"b.txt", 16, true⟩]⟩] = .serving s ∧
    s.files.map get = [.workerExits 12, .coded b!"som"] := ⟨_, rfl, by decide +kernel⟩

theorem openAll_fatal (w : World) (c : Conf) (d : Bytes) (f : File) (hx : ∀ n, openFile w c d f n = none) :
    ∀ (l : List (Bytes × File)) (n : Nat), (d, f) ∈ l → openAll w c l n = none
  | [], _, h => by cases h
  | (d', f') :: rest, n, h => by
    rw [openAll]
    rcases List.mem_cons.1 h with h | h
    · cases h
      rw [hx]
    · cases openFile w c d' f' n with
      | none => rfl
      | some p =>
        simp only
        rw [openAll_fatal w c d f hx rest p.2 h]

theorem start_fatal (w : World) (c : Conf) (ms : List Mount) (d : Bytes) (f : File)
    (hmd : Mounted ms d f) (hx : ∀ n, openFile w c d f n = none) : start w c ms = .exits 10 := by
  unfold start
  cases w.limit with
  | zero => rfl
  | succ n =>
    simp only
    by_cases hm : w.master = false
    · rw [if_pos hm]
    · rw [if_neg hm]
      by_cases hn : ms = [] ∧ c.routes = 0
      · rw [if_pos hn]
      · rw [if_neg hn, openAll_fatal w c d f hx _ n (mem_allFiles.2 hmd)]

/-- **C180** is false: a file that is there but may not be read (or cannot be encoded), of a size that is encoded in
advance, ends every worker before it serves anything, whatever else is mounted, however many descriptors there are;
and the master, whatever happened before, ends the whole server when it hears of it. -/
theorem C180_unreadable_refuted (w : World) (c : Conf) (ms : List Mount) (d : Bytes) (f : File) (p : Bytes)
    (hmd : Mounted ms d f) (hp : place w d f = some p) (hdue : Due c f)
    (hno : w.opens p = none ∨ ∃ b, w.opens p = some b ∧ w.encode b = .failed)
    (req max : Int) (first : Nat) (es : List (Nat × Master.Change)) (hb : ∀ e ∈ es, Master.Benign e.2)
    (s : Master.St) (hs : Master.serve req max first [] (Master.oneByOne es) = .run s) (hreq : 0 < req)
    (pid : Nat) (hpid : pid ∈ s.live) :
    ∃ ch t, heard (start w c ms) = some ch ∧
      Master.serve req max first [] (Master.oneByOne es ++ [.child pid ch, .handle]) = .ended t s.table ∧
      t.table = [] := by
  have hx : ∀ n, openFile w c d f n = none := by
    intro n
    unfold openFile
    rw [joinPath_eq, hp]
    simp only
    have hpre : preencode w c f (openFd w n p).1 = none := by
      unfold preencode
      rw [if_pos ⟨hdue.2.1, hdue.1⟩, if_pos hdue.2.2]
      unfold openFd
      rcases hno with h | ⟨b, h, he⟩
      · rw [h]
        cases n <;> rfl
      · rw [h]
        cases n with
        | zero => rfl
        | succ n =>
          simp only
          rw [he]
    rw [hpre]
  rw [start_fatal w c ms d f hmd hx]
  have := Master.C43_status_refuted req max first es hb s hs hreq pid 10 hpid (by decide) (by decide)
  rw [if_pos (Or.inl rfl)] at this
  exact ⟨_, _, rfl, this, rfl⟩

example : start site ⟨10, 100, 0⟩ [⟨b!"/srv", [⟨b!"a.txt", 5, true⟩, ⟨b!"locked", 50, true⟩]⟩] = .exits 10 := by
  decide +kernel

example : ∃ t, Master.serve 2 100 1000 [] [.child 1001 (.exited 10), .handle] = .ended t [1000, 1001] := ⟨_, rfl⟩

/-- **C180** is false: a file that is not encoded in advance and cannot be opened (or is gone, or whose path is too
long) does not keep the worker from coming up, but one GET of it ends the worker. -/
theorem C180_request_refuted (w : World) (c : Conf) (ms : List Mount) (ps : List Pages.Page)
    (hsome : ms ≠ [] ∨ c.routes ≠ 0) (hm : w.master = true)
    (hps : Pages.openPages w.pageFs w.pageDir = .pages ps)
    (hf : ∀ d f, Mounted ms d f → (∃ b, contents w d f = some b ∧ (Due c f → w.encode b ≠ .failed)) ∨
      place w d f = none ∨ ¬ Due c f)
    (hl : 1 + countFiles ms + ps.length + 2 ≤ w.limit)
    (d : Bytes) (f : File) (hmd : Mounted ms d f) (hno : contents w d f = none) (hbig : ¬ TooBig c f) :
    ∃ s, start w c ms = .serving s ∧ ∃ h ∈ s.files, h.file = f ∧ get h = .workerExits 12 := by
  have hh : ∀ d f, Mounted ms d f → Harmless w c d f := by
    intro d f hmd p hp hdue
    rcases hf d f hmd with ⟨b, h1, h2⟩ | h | h
    · unfold contents at h1
      rw [hp] at h1
      exact ⟨b, h1, h2 hdue⟩
    · rw [hp] at h
      cases h
    · exact absurd hdue h
  obtain ⟨free, hs⟩ := start_held w c ms ps hsome hm hps hh (by omega)
  refine ⟨_, hs, held w c d f, List.mem_map.2 ⟨(d, f), mem_allFiles.2 hmd, rfl⟩, held_file w c d f, ?_⟩
  have hnd : ∀ p, place w d f = some p → ¬ Due c f := by
    intro p hp hdue
    obtain ⟨b, h1, _⟩ := hh d f hmd p hp hdue
    unfold contents at hno
    rw [hp] at hno
    simp only [Option.bind_some] at hno
    rw [hno] at h1
    cases h1
  unfold held get
  cases hp : place w d f with
  | none => rfl
  | some p =>
    unfold contents at hno
    rw [hp] at hno
    simp only [Option.bind_some] at hno
    simp only [hno]
    unfold preencode
    have h1 : ¬ (c.threshold ≤ f.size ∧ f.regular = true) := by
      intro h
      by_cases h2 : f.size ≤ c.max
      · exact hnd p hp ⟨h.2, h.1, h2⟩
      · exact hbig ⟨h.2, h.1, by omega⟩
    rw [if_neg h1]
    rfl

/-! ## C181: descriptors -/

theorem openFile_plain (w : World) (c : Conf) (d : Bytes) (f : File) (n : Nat) (b : Bytes)
    (hb : contents w d f = some b) (hs : f.size < c.threshold) :
    ∃ h, openFile w c d f n = some (h, n - 1) ∧ h.file = f := by
  unfold contents at hb
  cases hp : place w d f with
  | none =>
    rw [hp] at hb
    cases hb
  | some p =>
    rw [hp] at hb
    simp only [Option.bind_some] at hb
    unfold openFile
    rw [joinPath_eq, hp]
    simp only
    have h1 : ∀ fd, preencode w c f fd = some .plain := by
      intro fd
      unfold preencode
      rw [if_neg (fun h => by omega)]
    rw [h1]
    have h2 : (openFd w n p).2 = n - 1 := by
      unfold openFd
      rw [hb]
      cases n <;> rfl
    rw [h2]
    exact ⟨_, rfl, rfl⟩

theorem openAll_plain (w : World) (c : Conf) : ∀ (l : List (Bytes × File)) (n : Nat),
    (∀ x ∈ l, (∃ b, contents w x.1 x.2 = some b) ∧ x.2.size < c.threshold) →
    ∃ hs, openAll w c l n = some (hs, n - l.length) ∧ hs.map (·.file) = l.map (·.2)
  | [], n, _ => ⟨[], rfl, rfl⟩
  | (d, f) :: rest, n, h => by
    obtain ⟨⟨b, h1⟩, h2⟩ := h _ List.mem_cons_self
    obtain ⟨x, h3, h4⟩ := openFile_plain w c d f n b h1 h2
    obtain ⟨hs, h5, h6⟩ := openAll_plain w c rest (n - 1) (fun x hx => h x (List.mem_cons_of_mem _ hx))
    refine ⟨x :: hs, ?_, ?_⟩
    · rw [openAll, h3]
      simp only
      rw [h5]
      simp only [List.length_cons, Option.some.injEq, Prod.mk.injEq, true_and]
      omega
    · rw [List.map_cons, List.map_cons, h4, h6]

/-- Too few descriptors for the pages: the worker goes on without the pages behind. -/
theorem openPages_few (w : World) (d : Bytes) : ∀ (rows : List (Nat × Bytes)) (n : Nat) (acc acc' ps : List Pages.Page),
    Pages.openLoop w.pageFs d rows acc = .pages ps → acc.length ≤ ps.length ∧
    ∃ ps', openPages w d rows n acc' = some (ps', n + acc.length - ps.length)
  | [], n, acc, acc', ps, h => by
    rw [Pages.openLoop] at h
    cases h
    refine ⟨Nat.le_refl _, acc', ?_⟩
    rw [openPages]
    simp only [Option.some.injEq, Prod.mk.injEq, true_and]
    omega
  | (code, x) :: rows, n, acc, acc', ps, h => by
    rw [Pages.openLoop] at h
    unfold openPages
    simp only
    by_cases hl : Pages.pathMax ≤ (Pages.pagePath d code).length
    · rw [if_pos hl] at h
      cases h
    · rw [if_neg hl] at h ⊢
      cases hf : w.pageFs (Pages.pagePath d code) with
      | unreadable =>
        rw [hf] at h
        exact openPages_few w d rows n acc acc' ps h
      | closed =>
        rw [hf] at h
        exact openPages_few w d rows n acc acc' ps h
      | bad =>
        rw [hf] at h
        cases h
      | page b =>
        rw [hf] at h
        simp only at h
        cases n with
        | zero =>
          obtain ⟨h1, ps', h2⟩ := openPages_few w d rows 0 _ acc' ps h
          rw [List.length_append, List.length_singleton] at h1 h2
          refine ⟨by omega, ps', ?_⟩
          simp only
          rw [h2]
          simp only [Option.some.injEq, Prod.mk.injEq, true_and]
          omega
        | succ n =>
          obtain ⟨h1, ps', h2⟩ := openPages_few w d rows n _ (acc' ++ [⟨code, Pages.pagePath d code, FileType.fromPath (Pages.pagePath d code), b⟩]) ps h
          rw [List.length_append, List.length_singleton] at h1 h2
          refine ⟨by omega, ps', ?_⟩
          simp only
          rw [h2]
          simp only [Option.some.injEq, Prod.mk.injEq, true_and]
          omega

theorem pages_few (w : World) (n : Nat) (ps : List Pages.Page)
    (h : Pages.openPages w.pageFs w.pageDir = .pages ps) : ∃ ps', pages w n = some (ps', n - ps.length) := by
  unfold pages
  unfold Pages.openPages at h
  cases hd : w.pageDir with
  | none =>
    rw [hd] at h
    cases h
    exact ⟨[], rfl⟩
  | some d =>
    rw [hd] at h
    simp only at h ⊢
    exact (openPages_few w d _ n [] [] ps h).2

/-- **C181** (partial: small readable files). What a worker becomes is decided by how many descriptors
it may make, for `n` mounted files and pages of status codes: none: it ends the server; up to `n + 1`: it exits with an error; `n + 2`: it
serves but is deaf to SIGTERM; from `n + 3` on it serves, and ends when it is told to. -/
theorem C181_descriptors_partial (w : World) (c : Conf) (ms : List Mount)
    (hsome : ms ≠ [] ∨ c.routes ≠ 0) (hm : w.master = true) (ps : List Pages.Page)
    (hps : Pages.openPages w.pageFs w.pageDir = .pages ps)
    (hf : ∀ d f, Mounted ms d f → (∃ b, contents w d f = some b) ∧ f.size < c.threshold) :
    (w.limit = 0 → start w c ms = .exits 10) ∧
    (1 ≤ w.limit → w.limit ≤ countFiles ms + ps.length + 1 → start w c ms = .exits 12) ∧
    (w.limit = countFiles ms + ps.length + 2 → ∃ s, start w c ms = .serving s ∧ endsOnTerm s = false) ∧
    (countFiles ms + ps.length + 3 ≤ w.limit → ∃ s, start w c ms = .serving s ∧ endsOnTerm s = true) := by
  have hne : ¬ (ms = [] ∧ c.routes = 0) := fun h => hsome.elim (fun g => g h.1) (fun g => g h.2)
  have key : ∀ n, w.limit = n + 1 → ∃ hs ps', start w c ms = finish hs ps' (n - countFiles ms - ps.length) := by
    intro n hn
    obtain ⟨hs, h1, _⟩ := openAll_plain w c (allFiles ms) n (fun x hx => hf x.1 x.2 (mem_allFiles.1 hx))
    obtain ⟨ps', h2⟩ := pages_few w (n - (allFiles ms).length) ps hps
    refine ⟨hs, ps', ?_⟩
    unfold start
    rw [hn]
    simp only
    rw [if_neg (by rw [hm]; decide), if_neg hne, h1]
    simp only
    rw [h2]
    simp only
    rw [length_allFiles]
  refine ⟨fun h => ?_, fun h1 h2 => ?_, fun h => ?_, fun h => ?_⟩
  · unfold start
    rw [h]
  · obtain ⟨hs, ps', h3⟩ := key (w.limit - 1) (by omega)
    rw [h3, show w.limit - 1 - countFiles ms - ps.length = 0 by omega]
    rfl
  · obtain ⟨hs, ps', h3⟩ := key (w.limit - 1) (by omega)
    rw [h3, show w.limit - 1 - countFiles ms - ps.length = 1 by omega]
    exact ⟨_, rfl, rfl⟩
  · obtain ⟨hs, ps', h3⟩ := key (w.limit - 1) (by omega)
    rw [h3, show w.limit - 1 - countFiles ms - ps.length = (w.limit - 1 - countFiles ms - ps.length - 2) + 2 by omega]
    exact ⟨_, rfl, rfl⟩

/-- `site` with another number of descriptors. -/
def siteWith (limit : Nat) : World := { site with limit := limit }

example : start (siteWith 0) ⟨100, 100, 0⟩ siteMounts = .exits 10 ∧ start (siteWith 5) ⟨100, 100, 0⟩ siteMounts = .exits 12 ∧
    (∃ s, start (siteWith 6) ⟨100, 100, 0⟩ siteMounts = .serving s ∧ endsOnTerm s = false ∧
      s.files.map get = [.content b!"hello", .content b!"something longer", .content b!"x"]) ∧
    (∃ s, start (siteWith 7) ⟨100, 100, 0⟩ siteMounts = .serving s ∧ endsOnTerm s = true) := by
  refine ⟨by decide +kernel, by decide +kernel, ⟨_, rfl, by decide +kernel⟩, ⟨_, rfl, by decide +kernel⟩⟩

/-- **C181** is false: with as many small files as descriptors, no worker ever serves, and the server neither ends
nor says so: every worker exits, and the master, however often it heard of one, goes on with the configured number
of new ones, each of which will exit. -/
theorem C181_never_serves_refuted (w : World) (c : Conf) (ms : List Mount)
    (hsome : ms ≠ [] ∨ c.routes ≠ 0) (hm : w.master = true) (ps : List Pages.Page)
    (hps : Pages.openPages w.pageFs w.pageDir = .pages ps)
    (hf : ∀ d f, Mounted ms d f → (∃ b, contents w d f = some b) ∧ f.size < c.threshold)
    (h1 : 1 ≤ w.limit) (h2 : w.limit ≤ countFiles ms + ps.length + 1)
    (req max : Int) (first : Nat) (hreq : 0 < req) :
    ∃ ch, heard (start w c ms) = some ch ∧ ∀ pids : List Nat, ∃ s,
      Master.serve req max first [] (Master.oneByOne (pids.map (fun p => (p, ch)))) = .run s ∧
      s.live.length = Master.configured req max ∧
      ∀ p ∈ s.live, ∃ t n, n ∉ s.live ∧ t.live = s.live.erase p ++ [n] ∧
        Master.serve req max first [] (Master.oneByOne ((pids ++ [p]).map (fun p => (p, ch)))) = .run t := by
  rw [(C181_descriptors_partial w c ms hsome hm ps hps hf).2.1 h1 h2]
  refine ⟨_, rfl, fun pids => ?_⟩
  have hb : ∀ e ∈ pids.map (fun p => (p, Master.Change.exited 12)), Master.Benign e.2 := by
    intro e he
    obtain ⟨p, _, rfl⟩ := List.mem_map.1 he
    exact Or.inr (Or.inl rfl)
  obtain ⟨s, h3, h4, _, h5⟩ := Master.C43_partial req max first hreq _ hb
  refine ⟨s, h3, h4, fun p hp => ?_⟩
  obtain ⟨t, n, h6, h7, h8, _⟩ := h5 p (.exited 12) hp (Or.inr (Or.inl rfl))
  refine ⟨t, n, h7, h8, ?_⟩
  rw [List.map_append]
  exact h6

/-- **C181** is false: with descriptors for everything but its signals a worker serves, and no SIGTERM ends it. -/
theorem C181_deaf_refuted (w : World) (c : Conf) (ms : List Mount)
    (hsome : ms ≠ [] ∨ c.routes ≠ 0) (hm : w.master = true) (ps : List Pages.Page)
    (hps : Pages.openPages w.pageFs w.pageDir = .pages ps)
    (hf : ∀ d f, Mounted ms d f → (∃ b, contents w d f = some b) ∧ f.size < c.threshold)
    (hl : w.limit = countFiles ms + ps.length + 2) :
    ∃ s, start w c ms = .serving s ∧ endsOnTerm s = false :=
  (C181_descriptors_partial w c ms hsome hm ps hps hf).2.2.1 hl

end Fly.WStart
