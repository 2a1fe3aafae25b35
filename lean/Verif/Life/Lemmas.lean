import Verif.Life.Model

namespace Fly.Life

/-- What a start leaves open for good: the configuration file and the logs. -/
def leak (file : Bool) (c : Cfg) : List Kind :=
  (if c.logs then [.log, .log, .log] else []) ++ (if file then [.config] else [])

/-- Whether the configuration of a start comes from a file. -/
def fromFile (y : Sys) (s : St) : Bool :=
  match configPath s with
  | none => false
  | some p => (y.files p).isSome

/-- The configuration a start means to use. -/
def cfgOf (y : Sys) (s : St) : Cfg :=
  match configPath s with
  | none => y.default
  | some p => (y.files p).getD y.default

theorem opn_some {y : Sys} {k : Kind} {t u : List Kind} (h : opn y k t = some u) : u = k :: t ∧ t.length < y.maxFd := by
  unfold opn at h
  split at h
  · exact ⟨by simpa using h.symm, by assumption⟩
  · cases h

theorem listenOn_some {y : Sys} {port : Nat} {t u : List Kind} (h : listenOn y port t = some u) :
    Kind.listen port ∉ t ∧ u = .listen port :: t ∧ t.length < y.maxFd := by
  unfold listenOn at h
  split at h
  · cases h
  · exact ⟨by assumption, opn_some h⟩

theorem opnMaybe_cases (y : Sys) (k : Kind) (t : List Kind) :
    (opnMaybe y k t = k :: t ∧ t.length < y.maxFd) ∨ (opnMaybe y k t = t ∧ y.maxFd ≤ t.length) := by
  unfold opnMaybe opn
  split
  · exact .inl ⟨rfl, by assumption⟩
  · exact .inr ⟨rfl, by omega⟩

theorem openLogs_cases (y : Sys) (c : Cfg) (t : List Kind) :
    openLogs y c t = (if c.logs then [Kind.log, .log, .log] else []) ++ t ∨
      (y.maxFd ≤ (openLogs y c t).length ∧ ∃ n, openLogs y c t = List.replicate n .log ++ t) := by
  unfold openLogs
  split
  · rcases opnMaybe_cases y .log t with ⟨h1, g1⟩ | ⟨h1, g1⟩
    · rcases opnMaybe_cases y .log (.log :: t) with ⟨h2, g2⟩ | ⟨h2, g2⟩
      · rcases opnMaybe_cases y .log (.log :: .log :: t) with ⟨h3, g3⟩ | ⟨h3, g3⟩
        · left; rw [h1, h2, h3]; rfl
        · right; rw [h1, h2, h3]; exact ⟨g3, 2, rfl⟩
      · right; rw [h1, h2, h2]; exact ⟨g2, 1, rfl⟩
    · right; rw [h1, h1, h1]; exact ⟨g1, 0, rfl⟩
  · left; rfl

theorem readConfig_table (y : Sys) (s : St) :
    (readConfig y s = (cfgOf y s, (if fromFile y s then [Kind.config] else []) ++ s.table)) ∨
      (y.maxFd ≤ s.table.length ∧ readConfig y s = (y.default, s.table)) := by
  unfold readConfig cfgOf fromFile
  cases hp : configPath s with
  | none => left; simp
  | some p =>
    have hf : y.files p = none ∨ ∃ c, y.files p = some c := by cases y.files p <;> simp
    rcases hf with hf | ⟨c, hf⟩
    · left; simp [hf]
    · by_cases hl : s.table.length < y.maxFd
      · left; simp [hf, opn, hl]
      · right; exact ⟨by omega, by simp [hf, opn, hl]⟩

theorem configure_some {y : Sys} {s : St} {c : Cfg} {t : List Kind} {b : Bool} (h : configure y s = some (c, t, b)) :
    c = cfgOf y s ∧ c.parses = true ∧ Kind.listen c.port ∉ s.table ∧ b = (c.pidfile || s.pidExists) ∧ (c.pidfile = true → s.pidExists = false) ∧
      (t = (if c.logs then [Kind.log, .log, .log] else []) ++ Kind.listen c.port :: ((if fromFile y s then [Kind.config] else []) ++ s.table) ∨
        (y.maxFd ≤ t.length ∧ ∃ n, t = List.replicate n .log ++ Kind.listen c.port :: ((if fromFile y s then [Kind.config] else []) ++ s.table))) := by
  unfold configure at h
  rcases readConfig_table y s with hr | ⟨hm, hr⟩
  · rw [hr] at h
    dsimp only at h
    generalize hT : (if fromFile y s = true then [Kind.config] else []) ++ s.table = T at h ⊢
    split at h
    · cases h
    · rename_i hpar
      split at h
      · cases h
      · rename_i u hl
        · obtain ⟨hni, hu, _⟩ := listenOn_some hl
          subst hu
          have hni' : Kind.listen (cfgOf y s).port ∉ s.table := fun hx => hni (by rw [← hT]; simp [hx])
          have hlogs := openLogs_cases y (cfgOf y s) (Kind.listen (cfgOf y s).port :: T)
          split at h
          · rename_i hpf
            split at h
            · cases h
            · rename_i hpe
              split at h
              · simp only [Option.some.injEq, Prod.mk.injEq] at h
                obtain ⟨rfl, rfl, rfl⟩ := h
                exact ⟨rfl, by simpa using hpar, hni', by simp [hpf], fun _ => by simpa using hpe, hlogs⟩
              · cases h
          · rename_i hpf
            simp only [Option.some.injEq, Prod.mk.injEq] at h
            obtain ⟨rfl, rfl, rfl⟩ := h
            exact ⟨rfl, by simpa using hpar, hni', by simp [hpf], fun hx => absurd hx hpf, hlogs⟩
  · rw [hr] at h
    dsimp only at h
    split at h
    · cases h
    · split at h
      · cases h
      · rename_i u hl
        have := (listenOn_some hl).2.2
        omega

theorem openLoop_some {y : Sys} {t u : List Kind} (h : openLoop y t = some u) :
    u = .watch :: .mounts :: .signal :: .poll :: t ∧ t.length + 4 ≤ y.maxFd := by
  unfold openLoop at h
  cases h1 : opn y .poll t with
  | none => rw [h1] at h; cases h
  | some t1 =>
    rw [h1] at h
    simp only [Option.bind_some] at h
    cases h2 : opn y .signal t1 with
    | none => rw [h2] at h; cases h
    | some t2 =>
      rw [h2] at h
      simp only [Option.bind_some] at h
      cases h3 : opn y .mounts t2 with
      | none => rw [h3] at h; cases h
      | some t3 =>
        rw [h3] at h
        simp only [Option.bind_some] at h
        obtain ⟨e1, _⟩ := opn_some h1
        obtain ⟨e2, _⟩ := opn_some h2
        obtain ⟨e3, _⟩ := opn_some h3
        obtain ⟨e4, g4⟩ := opn_some h
        subst e1 e2 e3 e4
        refine ⟨rfl, ?_⟩
        simp only [List.length_cons] at g4
        omega

/-- What `start` comes to. -/
inductive Started (y : Sys) (s : St) : St → Prop where
  | quiet (ph : Phase) (h : ph = .ended .raised ∨ ph = .ended (.exit 1) ∨ (ph = .watching ∧ servable s.app s.debug = false)) : Started y s { s with phase := ph }
  | watching (n : Nat) (pid : Bool) (h : s.app.mountsOk = false ∨ (cfgOf y s).content = true) (hp : Kind.listen (cfgOf y s).port ∉ s.table) :
      Started y s { s with
        env := configPath s, pidExists := pid, phase := .watching
        table := List.replicate n .log ++ Kind.listen (cfgOf y s).port :: ((if fromFile y s then [Kind.config] else []) ++ s.table) }
  | died (n : Nat) (pid : Bool) :
      Started y s { s with
        env := configPath s, pidExists := pid, phase := .ended .died
        table := List.replicate n .log ++ Kind.listen (cfgOf y s).port :: ((if fromFile y s then [Kind.config] else []) ++ s.table) }
  | serving (hm : s.app.mountsOk = true) (hc : (cfgOf y s).content = false) (hp : Kind.listen (cfgOf y s).port ∉ s.table)
      (hl : s.table.length + (leak (fromFile y s) (cfgOf y s)).length + 5 ≤ y.maxFd) (hd : s.depth + y.need ≤ y.stackMax)
      (hs : servable s.app s.debug = true) (hpid : (cfgOf y s).pidfile = true → s.pidExists = false) (hpar : (cfgOf y s).parses = true) :
      Started y s { s with
        env := configPath s, pidExists := (cfgOf y s).pidfile || s.pidExists, phase := .serving (cfgOf y s)
        table := .watch :: .mounts :: .signal :: .poll :: ((if (cfgOf y s).logs then [Kind.log, .log, .log] else []) ++ Kind.listen (cfgOf y s).port :: ((if fromFile y s then [Kind.config] else []) ++ s.table)) }

theorem logs_replicate (c : Cfg) : ∃ n, (if c.logs then [Kind.log, .log, .log] else []) = List.replicate n Kind.log := by
  cases c.logs
  · exact ⟨0, rfl⟩
  · exact ⟨3, rfl⟩

theorem start_cases (y : Sys) (s : St) : Started y s (start y s) := by
  unfold start
  split
  · exact .quiet _ (.inl rfl)
  · rename_i hd
    split
    · rename_i hs
      exact .quiet _ (.inr (.inr ⟨rfl, hs⟩))
    · rename_i hs
      split
      · exact .quiet _ (.inr (.inl rfl))
      · rename_i c t pid hc
        obtain ⟨rfl, hpar, hni, hpid, hpid2, ht⟩ := configure_some hc
        split
        · rename_i hw
          rcases ht with ht | ⟨_, n, ht⟩
          · obtain ⟨n, hn⟩ := logs_replicate (cfgOf y s)
            rw [hn] at ht
            subst ht
            exact .watching n pid hw hni
          · subst ht
            exact .watching n pid hw hni
        · rename_i hw
          have hw1 : s.app.mountsOk = true := by
            cases h : s.app.mountsOk
            · exact absurd (.inl h) hw
            · rfl
          have hw2 : (cfgOf y s).content = false := by
            cases h : (cfgOf y s).content
            · rfl
            · exact absurd (.inr h) hw
          split
          · rcases ht with ht | ⟨_, n, ht⟩
            · obtain ⟨n, hn⟩ := logs_replicate (cfgOf y s)
              rw [hn] at ht
              subst ht
              exact .died n pid
            · subst ht
              exact .died n pid
          · rename_i u hu
            obtain ⟨rfl, hlen⟩ := openLoop_some hu
            rcases ht with ht | ⟨hm, n, ht⟩
            · subst ht
              subst hpid
              refine .serving hw1 hw2 hni ?_ (by omega) (by simpa using hs) hpid2 hpar
              simp only [leak, List.length_append, List.length_cons] at hlen ⊢
              omega
            · omega

/-- What `release` leaves of the descriptors of a start. -/
theorem release_serving (port : Nat) (logs file : Bool) (t : List Kind) :
    release port (.watch :: .mounts :: .signal :: .poll :: ((if logs then [Kind.log, .log, .log] else []) ++ Kind.listen port :: ((if file then [Kind.config] else []) ++ t)))
      = (if logs then [Kind.log, .log, .log] else []) ++ ((if file then [Kind.config] else []) ++ t) := by
  unfold release
  cases logs <;> simp [List.erase_cons]

end Fly.Life
