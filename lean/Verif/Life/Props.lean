import Verif.Life.Lemmas

/-! # Properties of the life of a server (C161–C167) -/

namespace Fly.Life

/-- The server serves. -/
abbrev Serves (s : St) : Prop := ∃ c, s.phase = .serving c

instance (s : St) : Decidable (Serves s) :=
  match h : s.phase with
  | .serving c => .isTrue ⟨c, h⟩
  | .watching => .isFalse (fun ⟨c, hc⟩ => by rw [h] at hc; cases hc)
  | .ended e => .isFalse (fun ⟨c, hc⟩ => by rw [h] at hc; cases hc)

/-- The process has ended. -/
abbrev Ended (s : St) : Prop := ∃ e, s.phase = .ended e

/-- The four descriptors of the event loop of the master. -/
def loopKinds : List Kind := [.poll, .signal, .mounts, .watch]

/-- How often the application file was changed. -/
def changes : List Ev → Nat
  | [] => 0
  | .change _ :: es => changes es + 1
  | .stop :: es => changes es

/-! ## C161: the descriptors of the event loop -/

/-- `n` descriptors of kind `k` more than in `t0` when the server serves, else none. -/
def Held (t0 : List Kind) (s : St) : Prop :=
  ∀ k ∈ loopKinds, s.table.count k = t0.count k + if Serves s then 1 else 0

theorem start_held (y : Sys) (t0 : List Kind) (s : St) (h : ∀ k ∈ loopKinds, s.table.count k = t0.count k) : Held t0 (start y s) := by
  intro k hk
  have hs := h k hk
  have hst := start_cases y s
  generalize start y s = r at hst
  cases hst with
  | quiet ph hph =>
    have : ¬ Serves { s with phase := ph } := by rintro ⟨c, hc⟩; rcases hph with e | e | ⟨e, _⟩ <;> rw [e] at hc <;> cases hc
    rw [if_neg this]; simpa using hs
  | watching n pid _ _ =>
    rw [if_neg (show ¬ Serves _ by rintro ⟨c, hc⟩; dsimp only at hc; cases hc)]
    dsimp only
    rw [← hs]
    simp only [loopKinds, List.mem_cons, List.not_mem_nil, or_false] at hk
    generalize fromFile y s = b
    rcases hk with rfl | rfl | rfl | rfl <;> cases b <;> simp [List.count_cons, List.count_replicate]
  | died n pid =>
    rw [if_neg (show ¬ Serves _ by rintro ⟨c, hc⟩; dsimp only at hc; cases hc)]
    dsimp only
    rw [← hs]
    simp only [loopKinds, List.mem_cons, List.not_mem_nil, or_false] at hk
    generalize fromFile y s = b
    rcases hk with rfl | rfl | rfl | rfl <;> cases b <;> simp [List.count_cons, List.count_replicate]
  | serving =>
    rw [if_pos (show Serves _ from ⟨_, rfl⟩)]
    dsimp only
    rw [← hs]
    simp only [loopKinds, List.mem_cons, List.not_mem_nil, or_false] at hk
    generalize fromFile y s = b
    rcases hk with rfl | rfl | rfl | rfl <;> cases b <;> cases (cfgOf y s).logs <;> simp [List.count_cons]

theorem release_count (port : Nat) (t : List Kind) (k : Kind) (hk : k ∈ loopKinds) : (release port t).count k = t.count k - 1 := by
  simp only [loopKinds, List.mem_cons, List.not_mem_nil, or_false] at hk
  rcases hk with rfl | rfl | rfl | rfl <;> simp [release, List.count_erase]

theorem again_held (y : Sys) (t0 : List Kind) (a : App) (s : St) (h : ∀ k ∈ loopKinds, s.table.count k = t0.count k) : Held t0 (again y a s) := by
  unfold again
  split
  · intro k hk
    rw [if_neg (by rintro ⟨c, hc⟩; cases hc)]
    exact h k hk
  · split
    · intro k hk
      rw [if_neg (by rintro ⟨c, hc⟩; cases hc)]
      exact h k hk
    · exact start_held y t0 _ h

theorem step_held (y : Sys) (t0 : List Kind) (s : St) (e : Ev) (h : Held t0 s) : Held t0 (step y s e) := by
  have hrel : ∀ c, s.phase = .serving c → ∀ k ∈ loopKinds, (release c.port s.table).count k = t0.count k := by
    intro c hc k hk
    have := h k hk
    rw [if_pos ⟨c, hc⟩] at this
    rw [release_count _ _ _ hk]; omega
  have hwat : s.phase = .watching → ∀ k ∈ loopKinds, s.table.count k = t0.count k := by
    intro hw k hk
    have := h k hk
    rw [if_neg (by rintro ⟨c, hc⟩; rw [hw] at hc; cases hc)] at this
    exact this
  cases e with
  | change a =>
    dsimp only [step]
    unfold onChange
    split
    · rename_i c hc
      split
      · intro k hk
        rw [if_neg (by rintro ⟨c, hc⟩; cases hc)]
        exact hrel c hc k hk
      · exact again_held y t0 a _ (hrel c hc)
    · rename_i hw
      exact again_held y t0 a _ (hwat hw)
    · exact h
  | stop =>
    dsimp only [step]
    unfold onStop
    split
    · rename_i c hc
      intro k hk
      rw [if_neg (by rintro ⟨c, hc⟩; cases hc)]
      exact hrel c hc k hk
    · rename_i hw
      intro k hk
      rw [if_neg (by rintro ⟨c, hc⟩; cases hc)]
      exact hwat hw k hk
    · exact h

theorem life_held (y : Sys) (t0 : List Kind) (evs : List Ev) : ∀ s, Held t0 s → Held t0 (life y s evs) := by
  induction evs with
  | nil => exact fun s h => h
  | cons e es ih => exact fun s h => ih _ (step_held y t0 s e h)

/-- **C161.**  Whatever versions of the application file are started one after the other, with whatever
configuration, failures and ends: while the server serves, the master has exactly one poll descriptor, one
signal descriptor and two inotify descriptors beyond those the process had at first, and at all other times
none. -/
theorem C161_loop_descriptors (y : Sys) (s0 : St) (evs : List Ev) (k : Kind) (hk : k ∈ loopKinds) :
    (life y (start y s0) evs).table.count k = s0.table.count k + if Serves (life y (start y s0) evs) then 1 else 0 :=
  life_held y s0.table evs _ (start_held y s0.table s0 (fun _ _ => rfl)) k hk

/-! ### A concrete server -/

def cfgA : Cfg := ⟨true, 1234, true, false, false⟩
def sysA : Sys := ⟨fun p => if p = 7 then some cfgA else none, ⟨true, 1234, false, false, false⟩, 64, 1000, 20⟩
def appA : App := ⟨true, true, none, none, none, 2, 1, 1, true⟩
def appB : App := { appA with routes := 5 }
def stA : St := ⟨12, [.other, .other, .other], none, false, appA, true, false, some 7, false, .watching⟩

example : Serves (start sysA stA) ∧ Serves (life sysA (start sysA stA) [.change appB, .change appA])
    ∧ ¬ Serves (life sysA (start sysA stA) [.change appB, .stop]) := by decide

example : (life sysA (start sysA stA) [.change appB]).table.count .poll = 1
    ∧ (life sysA (start sysA stA) [.change appB, .stop]).table.count .poll = 0 := by decide

/-! ## C162: descriptors that are left open -/

/-- Nothing but what is left open remains of a server. -/
def piled (lk : List Kind) : Nat → List Kind → List Kind
  | 0, t => t
  | n + 1, t => lk ++ piled lk n t

theorem piled_length (lk : List Kind) (n : Nat) (t : List Kind) : (piled lk n t).length = t.length + n * lk.length := by
  induction n with
  | zero => simp [piled]
  | succ n ih => simp [piled, ih, Nat.succ_mul]; omega

theorem piled_comm (lk : List Kind) (n : Nat) (t : List Kind) : lk ++ piled lk n t = piled lk (n + 1) t := rfl

/-- A version of the application file that can be served, without a configuration file of its own. -/
structure Fit (a : App) : Prop where
  loads : a.loads = true
  makes : a.makes = true
  config : a.config = none
  servable : servable a (a.debug.getD true) = true
  mountsOk : a.mountsOk = true

/-- The descriptors while the server serves. -/
def running (y : Sys) (s0 : St) (t : List Kind) : List Kind :=
  .watch :: .mounts :: .signal :: .poll ::
    ((if (cfgOf y s0).logs then [Kind.log, .log, .log] else []) ++ Kind.listen (cfgOf y s0).port :: ((if fromFile y s0 then [Kind.config] else []) ++ t))

theorem running_length (y : Sys) (s0 : St) (t : List Kind) : (running y s0 t).length = t.length + (leak (fromFile y s0) (cfgOf y s0)).length + 5 := by
  simp only [running, leak, List.length_cons, List.length_append]
  omega

theorem running_release (y : Sys) (s0 : St) (t : List Kind) :
    release (cfgOf y s0).port (running y s0 t) = leak (fromFile y s0) (cfgOf y s0) ++ t := by
  rw [running, release_serving, leak, List.append_assoc]

theorem cfgOf_congr (y : Sys) (s s0 : St) (h : configPath s = configPath s0) : cfgOf y s = cfgOf y s0 ∧ fromFile y s = fromFile y s0 := by
  unfold cfgOf fromFile
  rw [h]
  exact ⟨rfl, rfl⟩

/-- Serving, after `n` reloads. -/
structure Piled (y : Sys) (s0 : St) (n : Nat) (s : St) : Prop where
  phase : s.phase = .serving (cfgOf y s0)
  table : s.table = running y s0 (piled (leak (fromFile y s0) (cfgOf y s0)) n s0.table)
  env : s.env = configPath s0
  room : s.table.length ≤ y.maxFd
  depth : s.depth = s0.depth + 3 * n

theorem start_fit (y : Sys) (s s0 : St) (n : Nat) (hc : configPath s = configPath s0) (hs : servable s.app s.debug = true)
    (hm : s.app.mountsOk = true) (hcont : (cfgOf y s0).content = false) (hd : s.depth = s0.depth + 3 * n)
    (ht : s.table = piled (leak (fromFile y s0) (cfgOf y s0)) n s0.table) :
    Ended (start y s) ∨ (Piled y s0 n (start y s) ∧ (start y s).app = s.app ∧ (start y s).debug = s.debug ∧ (start y s).daemon = s.daemon ∧ (start y s).print = s.print) := by
  obtain ⟨e1, e2⟩ := cfgOf_congr y s s0 hc
  have hst := start_cases y s
  generalize start y s = r at hst
  cases hst with
  | quiet ph hph =>
    rcases hph with e | e | ⟨_, e⟩
    · exact .inl ⟨_, e⟩
    · exact .inl ⟨_, e⟩
    · rw [hs] at e; cases e
  | watching n pid h _ =>
    rcases h with h | h
    · rw [hm] at h; cases h
    · rw [e1, hcont] at h; cases h
  | died n pid => exact .inl ⟨_, rfl⟩
  | serving _ _ hp hl =>
    right
    refine ⟨⟨?_, ?_, hc, ?_, hd⟩, rfl, rfl, rfl, rfl⟩
    · dsimp only; rw [e1]
    · dsimp only [running]; rw [e1, e2, ht]
    · have hr := running_length y s0 s.table
      simp only [running] at hr
      dsimp only
      rw [e1, e2] at hl ⊢
      rw [hr]
      omega

theorem step_fit (y : Sys) (s0 s : St) (n : Nat) (a : App) (h : Piled y s0 n s) (hd : s.daemon = false) (ha : Fit a)
    (hcont : (cfgOf y s0).content = false) :
    Ended (step y s (.change a)) ∨ (Piled y s0 (n + 1) (step y s (.change a)) ∧ (step y s (.change a)).app = a ∧
      (step y s (.change a)).debug = a.debug.getD true ∧ (step y s (.change a)).daemon = false) := by
  have e : step y s (.change a) = again y a { s with table := release (cfgOf y s0).port s.table } := by
    dsimp only [step]; unfold onChange; rw [h.phase]; simp [hd]
  rw [e]
  unfold again
  rw [if_neg (by simp [ha.loads]), if_neg (by simp [ha.makes])]
  have hst := start_fit y
    { s with depth := s.depth + 3, app := a, debug := a.debug.getD true, print := a.print.getD false, config := a.config, daemon := false,
             table := release (cfgOf y s0).port s.table } s0 (n + 1)
    (by simp only [configPath, ha.config]; exact h.env) ha.servable ha.mountsOk hcont
    (by dsimp only; rw [h.depth]; omega)
    (by dsimp only; rw [h.table, running_release]; rfl)
  rcases hst with hst | ⟨h1, h2, h3, h4, _⟩
  · exact .inl hst
  · exact .inr ⟨h1, h2, h3, h4⟩

theorem ended_step (y : Sys) (s : St) (e : Ev) (h : Ended s) : Ended (step y s e) := by
  obtain ⟨x, hx⟩ := h
  cases e with
  | change a => dsimp only [step]; unfold onChange; rw [hx]; exact ⟨x, hx⟩
  | stop => dsimp only [step]; unfold onStop; rw [hx]; exact ⟨x, hx⟩

theorem ended_life (y : Sys) (evs : List Ev) : ∀ s, Ended s → Ended (life y s evs) := by
  induction evs with
  | nil => exact fun s h => h
  | cons e es ih => exact fun s h => ih _ (ended_step y s e h)

theorem life_concat (y : Sys) (s : St) (evs : List Ev) (e : Ev) : life y s (evs ++ [e]) = step y (life y s evs) e := by
  simp [life]

/-- **C162, part.**  A server whose versions have no configuration file and no log directory leaves no descriptor
behind: after any history the process has those it had at first and, while the server serves, the four of the
event loop and the listening socket.
Missing: servers with a configuration file or logs (refuted below), starts that fail (C165), and an emergency
exit. -/
theorem C162_no_growth_partial (y : Sys) (s0 : St) (evs : List Ev) (h1 : s0.config = none) (h2 : s0.env = none)
    (hlogs : y.default.logs = false) (hcont : y.default.content = false) (hm : s0.app.mountsOk = true)
    (ha : ∀ a, Ev.change a ∈ evs → a.config = none ∧ a.mountsOk = true)
    (hdied : (life y (start y s0) evs).phase ≠ .ended .died) :
    (life y (start y s0) evs).table =
      (if Serves (life y (start y s0) evs) then [.watch, .mounts, .signal, .poll, .listen y.default.port] else []) ++ s0.table := by
  let P : St → Prop := fun s => s.env = none ∧ (s.phase = .ended .died ∨
    (∃ c, s.phase = .serving c ∧ c = y.default ∧ s.table = [.watch, .mounts, .signal, .poll, .listen y.default.port] ++ s0.table) ∨
    ((∀ c, s.phase ≠ .serving c) ∧ s.table = s0.table))
  have hstart : ∀ s : St, s.config = none → s.env = none → s.app.mountsOk = true → s.table = s0.table → P (start y s) := by
    intro s hc he hmo ht
    have hcp : configPath s = none := by simp [configPath, hc, he]
    have hcfg : cfgOf y s = y.default := by simp [cfgOf, hcp]
    have hff : fromFile y s = false := by simp [fromFile, hcp]
    have hst := start_cases y s
    generalize start y s = r at hst
    cases hst with
    | quiet ph hph =>
      refine ⟨he, .inr (.inr ⟨?_, ht⟩)⟩
      intro c hc2
      rcases hph with e | e | ⟨e, _⟩ <;> rw [e] at hc2 <;> cases hc2
    | watching n pid h _ =>
      rcases h with h | h
      · rw [hmo] at h; cases h
      · rw [hcfg, hcont] at h; cases h
    | died n pid => exact ⟨hcp, .inl rfl⟩
    | serving =>
      refine ⟨hcp, .inr (.inl ⟨_, rfl, hcfg, ?_⟩)⟩
      simp [hcfg, hff, hlogs, ht]
  have hagain : ∀ (s : St) (a : App), s.env = none → s.table = s0.table → a.config = none → a.mountsOk = true → P (again y a s) := by
    intro s a he ht hc hmo
    unfold again
    split
    · exact ⟨he, .inr (.inr ⟨by simp, ht⟩)⟩
    · split
      · exact ⟨he, .inr (.inr ⟨by simp, ht⟩)⟩
      · exact hstart _ hc he hmo ht
  have hrel : release y.default.port ([.watch, .mounts, .signal, .poll, .listen y.default.port] ++ s0.table) = s0.table := by
    simp [release, List.erase_cons]
  have hlife : ∀ (es : List Ev) (s : St), (∀ a, Ev.change a ∈ es → a.config = none ∧ a.mountsOk = true) → P s → P (life y s es) := by
    intro es
    induction es with
    | nil => exact fun s _ h => h
    | cons e es ih =>
      intro s hs hP
      refine ih (step y s e) (fun a hx => hs a (by simp [hx])) ?_
      obtain ⟨he, hP⟩ := hP
      cases e with
      | change a =>
        obtain ⟨hac, ham⟩ := hs a (by simp)
        dsimp only [step]
        unfold onChange
        rcases hP with hd | ⟨c, hc, rfl, ht⟩ | ⟨hns, ht⟩
        · rw [hd]; exact ⟨he, .inl hd⟩
        · rw [hc]
          dsimp only
          split
          · exact ⟨he, .inr (.inr ⟨by simp, by simp only [ht]; exact hrel⟩)⟩
          · exact hagain _ a he (by simp only [ht]; exact hrel) hac ham
        · split
          · rename_i c hc; exact absurd hc (hns c)
          · exact hagain _ a he ht hac ham
          · exact ⟨he, .inr (.inr ⟨hns, ht⟩)⟩
      | stop =>
        dsimp only [step]
        unfold onStop
        rcases hP with hd | ⟨c, hc, rfl, ht⟩ | ⟨hns, ht⟩
        · rw [hd]; exact ⟨he, .inl hd⟩
        · rw [hc]
          exact ⟨he, .inr (.inr ⟨by simp, by simp only [ht]; exact hrel⟩)⟩
        · split
          · rename_i c hc; exact absurd hc (hns c)
          · exact ⟨he, .inr (.inr ⟨by simp, ht⟩)⟩
          · exact ⟨he, .inr (.inr ⟨hns, ht⟩)⟩
  obtain ⟨_, hP⟩ := hlife evs _ ha (hstart s0 h1 h2 hm rfl)
  rcases hP with hd | ⟨c, hc, _, ht⟩ | ⟨hns, ht⟩
  · exact absurd hd hdied
  · rw [if_pos ⟨c, hc⟩]; exact ht
  · rw [if_neg (by rintro ⟨c, hc⟩; exact hns c hc)]; simpa using ht

example : (life sysA (start sysA { stA with config := none }) [.change appB, .change appA, .stop]).table = stA.table := by decide

theorem life_fit (y : Sys) (s0 : St) (hs : servable s0.app s0.debug = true) (hm : s0.app.mountsOk = true)
    (hcont : (cfgOf y s0).content = false) (hdm : s0.daemon = false) (apps : List App) :
    (∀ a ∈ apps, Fit a) →
    (Ended (life y (start y s0) (apps.map .change)) ∨ (Piled y s0 apps.length (life y (start y s0) (apps.map .change)) ∧
      (life y (start y s0) (apps.map .change)).app = (s0.app :: apps).getLast (by simp) ∧ (life y (start y s0) (apps.map .change)).daemon = false)) := by
  intro hfit
  have main : ∀ (rs : List App), (∀ a ∈ rs, Fit a) →
      (Ended (life y (start y s0) (rs.reverse.map .change)) ∨ (Piled y s0 rs.length (life y (start y s0) (rs.reverse.map .change)) ∧
      (life y (start y s0) (rs.reverse.map .change)).app = rs.headD s0.app ∧ (life y (start y s0) (rs.reverse.map .change)).daemon = false)) := by
    intro rs
    induction rs with
    | nil =>
      intro _
      rcases start_fit y s0 s0 0 rfl hs hm hcont (by simp) rfl with h | ⟨h1, h2, _, h4, _⟩
      · exact .inl h
      · exact .inr ⟨h1, h2, by rw [← hdm]; exact h4⟩
    | cons a rs ih =>
      intro hr
      rw [List.reverse_cons, List.map_append, List.map_singleton, life_concat]
      rcases ih (fun b hb => hr b (by simp [hb])) with h | ⟨h1, _, h3⟩
      · exact .inl (ended_step y _ _ h)
      · rcases step_fit y s0 _ rs.length a h1 h3 (hr a (by simp)) hcont with h | ⟨g1, g2, _, g4⟩
        · exact .inl h
        · exact .inr ⟨g1, g2, g4⟩
  have := main apps.reverse (fun a ha => hfit a (by simpa using ha))
  rw [List.reverse_reverse, List.length_reverse] at this
  have hl : apps.reverse.headD s0.app = (s0.app :: apps).getLast (by simp) := by
    cases apps with
    | nil => rfl
    | cons a as => rw [List.headD_eq_head?_getD, List.head?_reverse, List.getLast?_eq_some_getLast (by simp)]; simp
  rw [hl] at this
  exact this

/-- **C162, refuted.**  With a configuration file or a log directory every reload leaves one descriptor for the
file and three for the logs open, for whatever versions of the application: while the server serves after `n`
reloads the process has `(n + 1)` times as many, beside those it had at first and the five in use. -/
theorem C162_grows_refuted (y : Sys) (s0 : St) (hs : servable s0.app s0.debug = true) (hm : s0.app.mountsOk = true)
    (hcont : (cfgOf y s0).content = false) (hdm : s0.daemon = false) (apps : List App) (hfit : ∀ a ∈ apps, Fit a)
    (hserves : Serves (life y (start y s0) (apps.map .change))) :
    (life y (start y s0) (apps.map .change)).table.length =
      s0.table.length + (apps.length + 1) * ((if fromFile y s0 then 1 else 0) + (if (cfgOf y s0).logs then 3 else 0)) + 5 := by
  rcases life_fit y s0 hs hm hcont hdm apps hfit with ⟨e, he⟩ | ⟨h, _⟩
  · obtain ⟨c, hc⟩ := hserves
    rw [he] at hc; cases hc
  · rw [h.table, running_length, piled_length]
    have hlk : (leak (fromFile y s0) (cfgOf y s0)).length = (if fromFile y s0 then 1 else 0) + (if (cfgOf y s0).logs then 3 else 0) := by
      unfold leak
      cases fromFile y s0 <;> cases (cfgOf y s0).logs <;> rfl
    rw [hlk, Nat.succ_mul]
    omega

/-- **C162, refuted.**  So a server that was started with the command `fly`, which always makes a configuration
file, cannot be reloaded as often as one likes: once the descriptors left behind reach the limit of the process,
the server ends. -/
theorem C162_exhausted_refuted (y : Sys) (s0 : St) (hs : servable s0.app s0.debug = true) (hm : s0.app.mountsOk = true)
    (hcont : (cfgOf y s0).content = false) (hdm : s0.daemon = false) (apps : List App) (hfit : ∀ a ∈ apps, Fit a)
    (hfile : fromFile y s0 = true) (hn : y.maxFd ≤ apps.length) : Ended (life y (start y s0) (apps.map .change)) := by
  rcases life_fit y s0 hs hm hcont hdm apps hfit with h | ⟨h, _⟩
  · exact h
  · have h1 := h.room
    rw [h.table, running_length, piled_length] at h1
    have hlk : 1 ≤ (leak (fromFile y s0) (cfgOf y s0)).length := by
      unfold leak; rw [hfile]; simp
    have : apps.length * 1 ≤ apps.length * (leak (fromFile y s0) (cfgOf y s0)).length := Nat.mul_le_mul_left _ hlk
    omega

example : (life sysA (start sysA stA) ([appB, appA].map .change)).table.length = 3 + 3 * 4 + 5
    ∧ Serves (life sysA (start sysA stA) ([appB, appA].map .change)) := by decide
example : Fit appA ∧ Fit appB := ⟨⟨rfl, rfl, rfl, rfl, rfl⟩, ⟨rfl, rfl, rfl, rfl, rfl⟩⟩
example : (life sysA (start sysA stA) (List.replicate 15 (.change appA))).phase = .ended .died := by decide

/-! ## C163: memory that is freed when the master ends -/

theorem chain_free (head : Nat) (a : Nat) : ∀ (l : List Nat) (h : Heap) (b : Nat), a ∉ l → Chain h head b l → Chain (h.free a) head b l := by
  intro l
  induction l with
  | nil => exact fun _ _ _ h => h
  | cons x l ih =>
    intro h b hn hc
    obtain ⟨h1, h2, n, h3, h4⟩ := hc
    refine ⟨h1, h2, n, ?_, ih h n (fun hx => hn (by simp [hx])) h4⟩
    unfold Heap.free
    rw [if_neg (fun e => hn (by simp [e])), h3]

/-- **C163, part.**  The list of saved signal actions, however long, is freed completely, every element once,
nothing else is freed, and no freed memory is read.
Missing: the list of watched paths (refuted below). -/
theorem C163_saved_actions_partial (head : Nat) (l : List Nat) : ∀ (h : Heap) (b : Nat) (fuel : Nat), l.Nodup → l.length < fuel → Chain h head b l →
    ∃ h', freeSaved head fuel b h = .done h' ∧ ∀ a, h' a = if a ∈ l then none else h a := by
  induction l with
  | nil =>
    intro h b fuel _ hf hc
    cases fuel with
    | zero => simp at hf
    | succ f => exact ⟨h, by unfold freeSaved; rw [if_pos (show b = head from hc)], by simp⟩
  | cons x l ih =>
    intro h b fuel hnd hf hc
    cases fuel with
    | zero => simp at hf
    | succ f =>
      obtain ⟨rfl, h2, n, h3, h4⟩ := hc
      have hx : b ∉ l := (List.nodup_cons.mp hnd).1
      obtain ⟨h', e1, e2⟩ := ih (h.free b) n f (List.nodup_cons.mp hnd).2 (by simpa using hf) (chain_free head b l h n hx h4)
      refine ⟨h', ?_, ?_⟩
      · unfold freeSaved
        rw [if_neg h2, h3]
        exact e1
      · intro a
        rw [e2 a]
        unfold Heap.free
        by_cases ha : a = b
        · subst ha; simp
        · simp [ha]

/-- **C163, refuted.**  The list of watched paths is walked through memory that was just freed: undefined
behaviour for every list but the empty one.  `run` always enters the application file (src/pyserver.c:1158,
src/master.c:1585-1595), so this happens whenever a server ends or is reloaded. -/
theorem C163_watched_paths_refuted (head b : Nat) (x : Nat) (l : List Nat) (h : Heap) (fuel : Nat) (hc : Chain h head b (x :: l)) :
    freePaths head (fuel + 1) b h = .undefined := by
  obtain ⟨rfl, h2, n, h3, _⟩ := hc
  unfold freePaths
  rw [if_neg h2, h3]
  simp [Heap.free]

example : Chain (fun a => if a = 5 then some 9 else if a = 9 then some 0 else none) 0 5 [5, 9] := by
  refine ⟨rfl, by decide, 9, rfl, rfl, by decide, 0, rfl, rfl⟩

/-! ## C164: reloading any number of times -/

/-- **C164, part.**  With enough descriptors and stack, every change of the application file to a version that can
be served is followed by a server of that version: after any list of such changes the server serves the last
one, with the configuration it was started with.
Missing: unbounded numbers of reloads (refuted below). -/
theorem C164_reload_partial (y : Sys) (s0 : St) (hs : servable s0.app s0.debug = true) (hm : s0.app.mountsOk = true)
    (hcont : (cfgOf y s0).content = false) (hdm : s0.daemon = false) (hpar : (cfgOf y s0).parses = true) (hpid : (cfgOf y s0).pidfile = false)
    (hport : Kind.listen (cfgOf y s0).port ∉ s0.table) (apps : List App) (hfit : ∀ a ∈ apps, Fit a)
    (hfd : s0.table.length + (apps.length + 1) * 4 + 5 ≤ y.maxFd) (hst : s0.depth + 3 * apps.length + y.need ≤ y.stackMax) :
    (life y (start y s0) (apps.map .change)).phase = .serving (cfgOf y s0) ∧
    (life y (start y s0) (apps.map .change)).app = (s0.app :: apps).getLast (by simp) := by
  have hlk : (leak (fromFile y s0) (cfgOf y s0)).length ≤ 4 := by
    unfold leak
    cases fromFile y s0 <;> cases (cfgOf y s0).logs <;> simp
  have hleak : ∀ p, Kind.listen p ∉ leak (fromFile y s0) (cfgOf y s0) := by
    intro p
    unfold leak
    cases fromFile y s0 <;> cases (cfgOf y s0).logs <;> simp
  have hpl : ∀ n, Kind.listen (cfgOf y s0).port ∉ piled (leak (fromFile y s0) (cfgOf y s0)) n s0.table := by
    intro n
    induction n with
    | zero => exact hport
    | succ n ih => simp only [piled, List.mem_append, not_or]; exact ⟨hleak _, ih⟩
  -- a start with enough room serves
  have hgo : ∀ (s : St) (n : Nat), n ≤ apps.length → configPath s = configPath s0 → servable s.app s.debug = true → s.app.mountsOk = true →
      s.depth = s0.depth + 3 * n → s.table = piled (leak (fromFile y s0) (cfgOf y s0)) n s0.table → ¬ Ended (start y s) := by
    intro s n hn hc hsv hmo hd ht
    obtain ⟨e1, e2⟩ := cfgOf_congr y s s0 hc
    have hlen : s.table.length + 4 + 5 ≤ y.maxFd := by
      rw [ht, piled_length]
      have h1 : n * (leak (fromFile y s0) (cfgOf y s0)).length ≤ apps.length * 4 := Nat.mul_le_mul hn hlk
      omega
    have hread : readConfig y s = (cfgOf y s0, (if fromFile y s0 then [Kind.config] else []) ++ s.table) := by
      rcases readConfig_table y s with h | ⟨h, _⟩
      · rw [h, e1, e2]
      · omega
    have hlisten : listenOn y (cfgOf y s0).port ((if fromFile y s0 then [Kind.config] else []) ++ s.table)
        = some (Kind.listen (cfgOf y s0).port :: ((if fromFile y s0 then [Kind.config] else []) ++ s.table)) := by
      have hni : Kind.listen (cfgOf y s0).port ∉ (if fromFile y s0 then [Kind.config] else []) ++ s.table := by
        rw [List.mem_append, not_or]
        refine ⟨?_, by rw [ht]; exact hpl n⟩
        split <;> simp
      have hl2 : ((if fromFile y s0 then [Kind.config] else []) ++ s.table).length < y.maxFd := by
        rw [List.length_append]
        split <;> simp <;> omega
      unfold listenOn opn
      rw [if_neg hni, if_pos hl2]
    have hlogs : openLogs y (cfgOf y s0) (Kind.listen (cfgOf y s0).port :: ((if fromFile y s0 then [Kind.config] else []) ++ s.table))
        = (if (cfgOf y s0).logs then [Kind.log, .log, .log] else []) ++ Kind.listen (cfgOf y s0).port :: ((if fromFile y s0 then [Kind.config] else []) ++ s.table) := by
      rcases openLogs_cases y (cfgOf y s0) (Kind.listen (cfgOf y s0).port :: ((if fromFile y s0 then [Kind.config] else []) ++ s.table)) with h | ⟨h, _⟩
      · exact h
      · exfalso
        have hshort : ∀ (t : List Kind), t.length + 3 < y.maxFd → ¬ y.maxFd ≤ (openLogs y (cfgOf y s0) t).length := by
          intro t ht
          unfold openLogs
          split
          · rcases opnMaybe_cases y .log t with ⟨h1, _⟩ | ⟨h1, g1⟩
            · rcases opnMaybe_cases y .log (.log :: t) with ⟨h2, _⟩ | ⟨h2, g2⟩
              · rcases opnMaybe_cases y .log (.log :: .log :: t) with ⟨h3, _⟩ | ⟨h3, g3⟩
                · rw [h1, h2, h3]; simp only [List.length_cons]; omega
                · simp only [List.length_cons] at g3; omega
              · simp only [List.length_cons] at g2; omega
            · omega
          · omega
        refine hshort _ ?_ h
        have : ((if fromFile y s0 then [Kind.config] else []) ++ s.table).length ≤ s.table.length + 1 := by
          rw [List.length_append]
          split <;> simp <;> omega
        rw [List.length_cons]
        omega
    have hconf : configure y s = some (cfgOf y s0, (if (cfgOf y s0).logs then [Kind.log, .log, .log] else []) ++ Kind.listen (cfgOf y s0).port :: ((if fromFile y s0 then [Kind.config] else []) ++ s.table), s.pidExists) := by
      unfold configure
      rw [hread]
      dsimp only
      rw [hlisten]
      dsimp only
      rw [hlogs]
      simp [hpar, hpid]
    have hloop : ∀ t : List Kind, t.length + 4 ≤ y.maxFd → openLoop y t = some (.watch :: .mounts :: .signal :: .poll :: t) := by
      intro t ht
      unfold openLoop opn
      rw [if_pos (by omega)]
      simp only [Option.bind_some]
      rw [if_pos (by simp; omega)]
      simp only [Option.bind_some]
      rw [if_pos (by simp; omega)]
      simp only [Option.bind_some]
      rw [if_pos (by simp; omega)]
    rintro ⟨e, he⟩
    unfold start at he
    rw [if_neg (by omega), if_neg (by simp [hsv]), hconf] at he
    dsimp only at he
    rw [if_neg (by simp [hmo, hcont])] at he
    rw [hloop _ (by
      have h1 : (if fromFile y s0 then [Kind.config] else []).length ≤ 1 := by split <;> simp
      have h2 : (if (cfgOf y s0).logs then [Kind.log, .log, .log] else []).length ≤ 3 := by split <;> simp
      simp only [List.length_append, List.length_cons]
      omega)] at he
    cases he
  -- the history
  have main : ∀ (pre : List App), pre.length ≤ apps.length → (∀ a ∈ pre, Fit a) → ¬ Ended (life y (start y s0) ((pre.reverse).map .change)) := by
    intro pre
    induction pre with
    | nil => intro _ _; exact hgo s0 0 (by simp) rfl hs hm (by simp) rfl
    | cons a rs ih =>
      intro hl hf
      have hrs : ∀ b ∈ rs.reverse, Fit b := fun b hb => hf b (by simp at hb; simp [hb])
      have hne := ih (by simp at hl; omega) (fun b hb => hf b (by simp [hb]))
      rw [List.reverse_cons, List.map_append, List.map_singleton, life_concat]
      rcases life_fit y s0 hs hm hcont hdm rs.reverse hrs with h | ⟨h1, _, h3⟩
      · exact absurd h hne
      · generalize life y (start y s0) (rs.reverse.map .change) = s at h1 h3
        have hfa : Fit a := hf a (by simp)
        have e : step y s (.change a) = again y a { s with table := release (cfgOf y s0).port s.table } := by
          dsimp only [step]; unfold onChange; rw [h1.phase]; simp [h3]
        rw [e]
        unfold again
        rw [if_neg (by simp [hfa.loads]), if_neg (by simp [hfa.makes])]
        refine hgo _ (rs.length + 1) (by simpa using hl) ?_ hfa.servable hfa.mountsOk ?_ ?_
        · simp only [configPath, hfa.config]; exact h1.env
        · have := h1.depth; simp at this; dsimp only; omega
        · have := h1.table
          rw [List.length_reverse] at this
          dsimp only
          rw [this, running_release]
          rfl
  have hne := main apps.reverse (by simp) (fun a ha => hfit a (by simpa using ha))
  rw [List.reverse_reverse] at hne
  rcases life_fit y s0 hs hm hcont hdm apps hfit with h | ⟨h1, h2, _⟩
  · exact absurd h hne
  · exact ⟨h1.phase, h2⟩

example : (life sysA (start sysA stA) ([appB, appA, appB].map .change)).phase = .serving cfgA
    ∧ (life sysA (start sysA stA) ([appB, appA, appB].map .change)).app = appB := by decide

theorem start_depth (y : Sys) (s : St) : (start y s).depth = s.depth ∧ (Serves (start y s) → s.depth + y.need ≤ y.stackMax) := by
  have hst := start_cases y s
  generalize start y s = r at hst
  cases hst with
  | quiet ph hph => exact ⟨rfl, by rintro ⟨c, hc⟩; rcases hph with e | e | ⟨e, _⟩ <;> rw [e] at hc <;> cases hc⟩
  | watching => exact ⟨rfl, by rintro ⟨c, hc⟩; cases hc⟩
  | died => exact ⟨rfl, by rintro ⟨c, hc⟩; cases hc⟩
  | serving _ _ _ _ hd => exact ⟨rfl, fun _ => hd⟩

theorem life_depth (y : Sys) (evs : List Ev) : ∀ s : St, (Serves s → s.depth ≤ y.stackMax) →
    (Ended (life y s evs) ∨ (life y s evs).depth = s.depth + 3 * changes evs) ∧ (Serves (life y s evs) → (life y s evs).depth ≤ y.stackMax) := by
  induction evs with
  | nil => exact fun s h => ⟨.inr rfl, h⟩
  | cons e es ih =>
    intro s h
    have hstep : (Ended (step y s e) ∨ (step y s e).depth = s.depth + 3 * changes [e]) ∧ (Serves (step y s e) → (step y s e).depth ≤ y.stackMax) := by
      cases e with
      | change a =>
        have hag : ∀ s : St, (Ended (again y a s) ∨ (again y a s).depth = s.depth + 3) ∧ (Serves (again y a s) → (again y a s).depth ≤ y.stackMax) := by
          intro s
          unfold again
          split
          · exact ⟨.inl ⟨_, rfl⟩, by rintro ⟨c, hc⟩; cases hc⟩
          · split
            · exact ⟨.inl ⟨_, rfl⟩, by rintro ⟨c, hc⟩; cases hc⟩
            · obtain ⟨h1, h2⟩ := start_depth y { s with depth := s.depth + 3, app := a, debug := a.debug.getD true, print := a.print.getD false, config := a.config, daemon := false }
              refine ⟨.inr h1, fun hx => ?_⟩
              have := h2 hx
              rw [h1]
              exact Nat.le_trans (Nat.le_add_right _ _) this
        dsimp only [step]
        unfold onChange
        split
        · split
          · exact ⟨.inl ⟨_, rfl⟩, by rintro ⟨c, hc⟩; cases hc⟩
          · exact hag _
        · exact hag _
        · rename_i x hx
          exact ⟨.inl ⟨x, hx⟩, h⟩
      | stop =>
        dsimp only [step]
        unfold onStop
        split
        · exact ⟨.inl ⟨_, rfl⟩, by rintro ⟨c, hc⟩; cases hc⟩
        · exact ⟨.inl ⟨_, rfl⟩, by rintro ⟨c, hc⟩; cases hc⟩
        · rename_i x hx
          exact ⟨.inl ⟨x, hx⟩, h⟩
    obtain ⟨g1, g2⟩ := ih (step y s e) hstep.2
    refine ⟨?_, g2⟩
    rcases hstep.1 with he | hd
    · exact .inl (ended_life y es _ he)
    · rcases g1 with g | g
      · exact .inl g
      · right
        show (life y (step y s e) es).depth = _
        rw [g, hd]
        cases e <;> simp [changes] <;> omega

/-- **C164, refuted.**  Every reload runs inside of the former one, three frames of Python's stack deeper, whether or
not starts in between fail.  So no server, however many descriptors it may have, serves after a number of
reloads of a third of the recursion limit (1000 by default: 334 reloads). -/
theorem C164_recursion_refuted (y : Sys) (s0 : St) (evs : List Ev) (h : y.stackMax < 3 * changes evs) : ¬ Serves (life y (start y s0) evs) := by
  obtain ⟨h1, h2⟩ := start_depth y s0
  obtain ⟨g1, g2⟩ := life_depth y evs (start y s0) (fun hx => by rw [h1]; exact Nat.le_trans (Nat.le_add_right _ _) (h2 hx))
  intro hs
  rcases g1 with ⟨e, he⟩ | g1
  · obtain ⟨c, hc⟩ := hs
    rw [he] at hc; cases hc
  · have := g2 hs
    omega

example : changes [.change appA, .stop, .change appB] = 2 := rfl

/-! ## C165: a start that fails -/

/-- **C165, part.**  An application without routes and mount points is not started and leaves nothing behind: the
process waits, and once the file is changed the new version is started just as if it had been the first one
(three frames deeper).
Missing: files that cannot be loaded, mount points that are refused, errors of the configuration (refuted
below). -/
theorem C165_corrected_partial (y : Sys) (s0 : St) (hst : s0.depth + y.need ≤ y.stackMax) (hs : servable s0.app s0.debug = false)
    (a : App) (hl : a.loads = true) (hm : a.makes = true) :
    (start y s0).phase = .watching ∧
    life y (start y s0) [.change a] =
      start y { s0 with depth := s0.depth + 3, app := a, debug := a.debug.getD true, print := a.print.getD false, config := a.config, daemon := false, phase := .watching } := by
  have e : start y s0 = { s0 with phase := .watching } := by
    unfold start
    rw [if_neg (by omega), if_pos hs]
  rw [e]
  refine ⟨rfl, ?_⟩
  show again y a { s0 with phase := .watching } = _
  unfold again
  rw [if_neg (by simp [hl]), if_neg (by simp [hm])]

example : (start sysA { stA with app := { appA with routes := 0, debugRoutes := 0, mounts := 0 } }).phase = .watching
    ∧ Serves (life sysA (start sysA { stA with app := { appA with routes := 0, debugRoutes := 0, mounts := 0 } }) [.change { appA with config := some 7 }]) := by decide

/-- **C165, refuted.**  A version of the application file with an error ends the server, whatever was served before:
the file is executed outside of the `try`. -/
theorem C165_broken_file_refuted (y : Sys) (s : St) (a : App) (hl : a.loads = false) (evs : List Ev) : ¬ Serves (life y s (.change a :: evs)) := by
  have : Ended (step y s (.change a)) := by
    dsimp only [step]
    unfold onChange
    split
    · split
      · exact ⟨_, rfl⟩
      · unfold again; rw [if_pos hl]; exact ⟨_, rfl⟩
    · unfold again; rw [if_pos hl]; exact ⟨_, rfl⟩
    · rename_i x hx; exact ⟨x, hx⟩
  obtain ⟨e, he⟩ := ended_life y evs _ this
  rintro ⟨c, hc⟩
  rw [show life y s (.change a :: evs) = life y (step y s (.change a)) evs from rfl, he] at hc
  cases hc

theorem start_busy (y : Sys) (s : St) (p : Nat) (hf : ∀ q c, y.files q = some c → c.port = p) (hdef : y.default.port = p)
    (h : Kind.listen p ∈ s.table) : ¬ Serves (start y s) ∧ Kind.listen p ∈ (start y s).table := by
  have hport : (cfgOf y s).port = p := by
    unfold cfgOf
    split
    · exact hdef
    · rename_i q _
      have : y.files q = none ∨ ∃ c, y.files q = some c := by cases y.files q <;> simp
      rcases this with e | ⟨c, e⟩
      · rw [e]; exact hdef
      · rw [e]; exact hf q c e
  have hst := start_cases y s
  generalize start y s = r at hst
  cases hst with
  | quiet ph hph => exact ⟨by rintro ⟨c, hc⟩; rcases hph with e | e | ⟨e, _⟩ <;> rw [e] at hc <;> (cases hc), h⟩
  | watching n pid _ hp => rw [hport] at hp; exact absurd h hp
  | died => exact ⟨by rintro ⟨c, hc⟩; (cases hc), by simp [h]⟩
  | serving _ _ hp => rw [hport] at hp; exact absurd h hp

/-- **C165, refuted.**  When a mount point is refused (or the default content path is set, below) the process waits
for a correction, but its listening socket stays open: no correction is ever served on that port. -/
theorem C165_never_again_refuted (y : Sys) (p : Nat) (hf : ∀ q c, y.files q = some c → c.port = p) (hdef : y.default.port = p)
    (s0 : St) (hs : servable s0.app s0.debug = true) (hw : (start y s0).phase = .watching) (evs : List Ev) :
    ¬ Serves (life y (start y s0) evs) := by
  have hport : (cfgOf y s0).port = p := by
    unfold cfgOf
    split
    · exact hdef
    · rename_i q _
      have : y.files q = none ∨ ∃ c, y.files q = some c := by cases y.files q <;> simp
      rcases this with e | ⟨c, e⟩
      · rw [e]; exact hdef
      · rw [e]; exact hf q c e
  have hinit : Kind.listen p ∈ (start y s0).table := by
    have hst := start_cases y s0
    generalize start y s0 = r at hst hw
    cases hst with
    | quiet ph hph =>
      rcases hph with e | e | ⟨_, e⟩
      · rw [e] at hw; cases hw
      · rw [e] at hw; cases hw
      · rw [hs] at e; cases e
    | watching => simp [hport]
    | died => cases hw
    | serving => cases hw
  have main : ∀ (es : List Ev) (s : St), ¬ Serves s → Kind.listen p ∈ s.table → ¬ Serves (life y s es) := by
    intro es
    induction es with
    | nil => exact fun s h _ => h
    | cons e es ih =>
      intro s hns ht
      have hstep : ¬ Serves (step y s e) ∧ Kind.listen p ∈ (step y s e).table := by
        cases e with
        | change a =>
          dsimp only [step]
          unfold onChange
          split
          · rename_i c hc; exact absurd ⟨c, hc⟩ hns
          · unfold again
            split
            · exact ⟨by rintro ⟨c, hc⟩; (cases hc), ht⟩
            · split
              · exact ⟨by rintro ⟨c, hc⟩; (cases hc), ht⟩
              · exact start_busy y _ p hf hdef ht
          · exact ⟨hns, ht⟩
        | stop =>
          dsimp only [step]
          unfold onStop
          split
          · rename_i c hc; exact absurd ⟨c, hc⟩ hns
          · exact ⟨by rintro ⟨c, hc⟩; (cases hc), ht⟩
          · exact ⟨hns, ht⟩
      exact ih _ hstep.1 hstep.2
  exact main evs _ (by rintro ⟨c, hc⟩; rw [hw] at hc; cases hc) hinit

example : (start sysA { stA with app := { appA with mountsOk := false } }).phase = .watching
    ∧ (life sysA (start sysA { stA with app := { appA with mountsOk := false } }) [.change appA]).phase = .ended (.exit 1) := by decide

/-- **C165, refuted.**  A server whose configuration sets the default content path never serves. -/
theorem C165_default_content_refuted (y : Sys) (hf : ∀ q c, y.files q = some c → c.content = true) (hdef : y.default.content = true)
    (s0 : St) (evs : List Ev) : ¬ Serves (life y (start y s0) evs) := by
  have hstart : ∀ s, ¬ Serves (start y s) := by
    intro s
    have hport : (cfgOf y s).content = true := by
      unfold cfgOf
      split
      · exact hdef
      · rename_i q _
        have : y.files q = none ∨ ∃ c, y.files q = some c := by cases y.files q <;> simp
        rcases this with e | ⟨c, e⟩
        · rw [e]; exact hdef
        · rw [e]; exact hf q c e
    have hst := start_cases y s
    generalize start y s = r at hst
    cases hst with
    | quiet ph hph => rintro ⟨c, hc⟩; rcases hph with e | e | ⟨e, _⟩ <;> rw [e] at hc <;> cases hc
    | watching => rintro ⟨c, hc⟩; cases hc
    | died => rintro ⟨c, hc⟩; cases hc
    | serving _ hc => rw [hport] at hc; cases hc
  have main : ∀ (es : List Ev) (s : St), ¬ Serves s → ¬ Serves (life y s es) := by
    intro es
    induction es with
    | nil => exact fun s h => h
    | cons e es ih =>
      intro s hns
      refine ih (step y s e) ?_
      cases e with
      | change a =>
        dsimp only [step]
        unfold onChange
        split
        · rename_i c hc; exact absurd ⟨c, hc⟩ hns
        · unfold again
          split
          · rintro ⟨c, hc⟩; cases hc
          · split
            · rintro ⟨c, hc⟩; cases hc
            · exact hstart _
        · exact hns
      | stop =>
        dsimp only [step]
        unfold onStop
        split
        · rename_i c hc; exact absurd ⟨c, hc⟩ hns
        · rintro ⟨c, hc⟩; cases hc
        · exact hns
  exact main evs _ (hstart s0)

example : (start ⟨fun _ => some { cfgA with content := true }, { cfgA with content := true }, 64, 1000, 20⟩ stA).phase = .watching := by decide

/-! ## C166: the command line after a reload -/

/-- **C166, part.**  The options of the command line that are written into the configuration (port, host, workers,
logs, …) stay in force: whatever the versions of the application file, as long as they name no configuration
file of their own, every configuration that is served is that of the command line.
Missing: `--production` and `--print_request`, and applications with a configuration file (refuted below). -/
theorem C166_configuration_partial (y : Sys) (cli : Cli) (tmp : Path) (depth : Nat) (table : List Kind) (env : Option Path) (pid : Bool) (a : App)
    (c0 : Cfg) (h0 : y.files tmp = some c0) (s : St) (hl : launch y cli tmp depth table env pid a = some s) (hst : servable a s.debug = true)
    (evs : List Ev) (ha : ∀ b, Ev.change b ∈ evs → b.config = none ∧ servable b (b.debug.getD true) = true)
    (c : Cfg) (hs : (life y s evs).phase = .serving c) : c = c0 := by
  let P : St → Prop := fun s => Ended s ∨ (s.env = some tmp ∧ ∀ c, s.phase = .serving c → c = c0)
  have hstart : ∀ s : St, configPath s = some tmp → servable s.app s.debug = true → P (start y s) := by
    intro s hcp hsv
    have hcfg : cfgOf y s = c0 := by simp [cfgOf, hcp, h0]
    have hst := start_cases y s
    generalize start y s = r at hst
    cases hst with
    | quiet ph hph =>
      rcases hph with e | e | ⟨_, e⟩
      · exact .inl ⟨_, e⟩
      · exact .inl ⟨_, e⟩
      · rw [hsv] at e; cases e
    | watching => exact .inr ⟨hcp, by simp⟩
    | died => exact .inl ⟨_, rfl⟩
    | serving => exact .inr ⟨hcp, by intro c hc; cases hc; exact hcfg⟩
  have hinit : P s := by
    unfold launch at hl
    split at hl
    · cases hl
    · split at hl
      · cases hl; exact .inl ⟨_, rfl⟩
      · split at hl
        · cases hl; exact .inl ⟨_, rfl⟩
        · cases hl
          refine hstart _ rfl ?_
          have h1 := start_cases y (boot cli tmp depth table env pid a)
          generalize start y (boot cli tmp depth table env pid a) = r at h1 hst
          cases h1 <;> exact hst
  have hmain : ∀ (es : List Ev) (s : St), (∀ b, Ev.change b ∈ es → b.config = none ∧ servable b (b.debug.getD true) = true) → P s → P (life y s es) := by
    intro es
    induction es with
    | nil => exact fun s _ h => h
    | cons e es ih =>
      intro s hb hP
      refine ih (step y s e) (fun b hx => hb b (by simp [hx])) ?_
      rcases hP with he | ⟨henv, hc⟩
      · exact .inl (ended_step y s e he)
      · cases e with
        | change b =>
          obtain ⟨hbc, hbs⟩ := hb b (by simp)
          have hag : ∀ s : St, s.env = some tmp → P (again y b s) := by
            intro s henv
            unfold again
            split
            · exact .inl ⟨_, rfl⟩
            · split
              · exact .inl ⟨_, rfl⟩
              · exact hstart _ (by simp [configPath, hbc, henv]) hbs
          dsimp only [step]
          unfold onChange
          split
          · split
            · exact .inl ⟨_, rfl⟩
            · exact hag _ henv
          · exact hag _ henv
          · rename_i x hx; exact .inl ⟨x, hx⟩
        | stop =>
          dsimp only [step]
          unfold onStop
          split
          · exact .inl ⟨_, rfl⟩
          · exact .inl ⟨_, rfl⟩
          · rename_i x hx; exact .inl ⟨x, hx⟩
  rcases hmain evs s ha hinit with ⟨e, he⟩ | ⟨_, hc⟩
  · rw [he] at hs; cases hs
  · exact hc c hs

/-- **C166, refuted.**  `--production` and `--print_request` are forgotten: after any reload the server is in the mode
that the application file says, and in debug mode when it says nothing. -/
theorem C166_production_refuted (y : Sys) (s : St) (b : App) (h : Serves (step y s (.change b))) :
    Serves s ∨ s.phase = .watching → (step y s (.change b)).debug = b.debug.getD true ∧ (step y s (.change b)).print = b.print.getD false := by
  intro hs
  have hstart : ∀ s : St, Serves (start y s) → (start y s).debug = s.debug ∧ (start y s).print = s.print := by
    intro s hx
    have hst := start_cases y s
    generalize start y s = r at hst hx
    cases hst <;> exact ⟨rfl, rfl⟩
  have hag : ∀ s : St, Serves (again y b s) → (again y b s).debug = b.debug.getD true ∧ (again y b s).print = b.print.getD false := by
    intro s hx
    unfold again at hx ⊢
    split at hx
    · obtain ⟨c, hc⟩ := hx; cases hc
    · rename_i h1
      split at hx
      · obtain ⟨c, hc⟩ := hx; cases hc
      · rename_i h2
        rw [if_neg h1, if_neg h2]
        exact hstart _ hx
  dsimp only [step] at h ⊢
  unfold onChange at h ⊢
  split at h
  · split at h
    · obtain ⟨c, hc⟩ := h; cases hc
    · rename_i c hc hd
      rw [if_neg hd]
      exact hag _ h
  · exact hag _ h
  · rename_i x hx
    rcases hs with ⟨c, hc⟩ | hc <;> rw [hx] at hc <;> cases hc

example : (launch sysA ⟨none, true, false, false⟩ 7 12 [.other] none false appA).map (fun s => (s.debug, decide (Serves s))) = some (false, true)
    ∧ (launch sysA ⟨none, true, false, false⟩ 7 12 [.other] none false appA).map (fun s => (step sysA s (.change appA)).debug) = some true := by decide

/-- **C166, refuted.**  An application that names a configuration file is started with the configuration of the
command line at first, and with its own file, without the options of the command line, after any reload. -/
theorem C166_own_file_refuted (y : Sys) (s : St) (b : App) (q : Path) (cq : Cfg) (hb : b.config = some q) (hq : y.files q = some cq)
    (hns : Serves s ∨ s.phase = .watching) (c : Cfg) (h : (step y s (.change b)).phase = .serving c) : c = cq := by
  have hag : ∀ s : St, (again y b s).phase = .serving c → c = cq := by
    intro s hx
    unfold again at hx
    split at hx
    · cases hx
    · split at hx
      · cases hx
      · have hst := start_cases y { s with depth := s.depth + 3, app := b, debug := b.debug.getD true, print := b.print.getD false, config := b.config, daemon := false }
        generalize start y { s with depth := s.depth + 3, app := b, debug := b.debug.getD true, print := b.print.getD false, config := b.config, daemon := false } = r at hst hx
        cases hst with
        | quiet ph hph => rcases hph with e | e | ⟨e, _⟩ <;> rw [e] at hx <;> cases hx
        | watching => cases hx
        | died => cases hx
        | serving => cases hx; simp [cfgOf, configPath, hb, hq]
  dsimp only [step] at h
  unfold onChange at h
  split at h
  · split at h
    · cases h
    · exact hag _ h
  · exact hag _ h
  · rename_i x hx
    rcases hns with ⟨c, hc⟩ | hc <;> rw [hx] at hc <;> cases hc

/-- **C166, refuted.**  … and at first the file that the application names is not looked at. -/
theorem C166_own_file_ignored_refuted (y : Sys) (cli : Cli) (tmp : Path) (depth : Nat) (table : List Kind) (env : Option Path) (pid : Bool) (a : App)
    (q : Option Path) (ht : cli.conf = none) :
    (launch y cli tmp depth table env pid { a with config := q }).map (fun s => s.phase) = (launch y cli tmp depth table env pid { a with config := none }).map (fun s => s.phase) := by
  have hc : configure y (boot cli tmp depth table env pid { a with config := q }) = configure y (boot cli tmp depth table env pid { a with config := none }) := rfl
  unfold launch
  rw [ht]
  dsimp only
  split
  · rfl
  · split
    · rfl
    · rw [if_neg (by simp), if_neg (by simp)]
      simp only [Option.map_some, Option.some.injEq]
      unfold start
      rw [hc]
      have hsv : servable (boot cli tmp depth table env pid { a with config := q }).app (boot cli tmp depth table env pid { a with config := q }).debug
          = servable (boot cli tmp depth table env pid { a with config := none }).app (boot cli tmp depth table env pid { a with config := none }).debug := rfl
      have hmo : (boot cli tmp depth table env pid { a with config := q }).app.mountsOk = (boot cli tmp depth table env pid { a with config := none }).app.mountsOk := rfl
      have hde : (boot cli tmp depth table env pid { a with config := q }).depth = (boot cli tmp depth table env pid { a with config := none }).depth := rfl
      rw [hsv, hmo, hde]
      split
      · rfl
      · split
        · rfl
        · split
          · rfl
          · split
            · rfl
            · split <;> rfl

/-! ## C167: the status of the command -/

/-- **C167, part.**  The command `fly` reports an application file that cannot be loaded at first with status 1.
Missing: every other failure (refuted below). -/
theorem C167_load_error_partial (y : Sys) (cli : Cli) (tmp : Path) (depth : Nat) (table : List Kind) (env : Option Path) (pid : Bool) (a : App)
    (h : a.loads = false) : status (launch y cli tmp depth table env pid a) = some 1 := by
  unfold launch
  rw [if_pos h]
  rfl

/-- **C167, refuted.**  Whenever else Python ends the process, at the start or later, the status is 0. -/
theorem C167_status_refuted (s : St) (e : End) (h : s.phase = .ended e) (hd : e ≠ .died) : status (some s) = some 0 := by
  unfold status
  dsimp only
  rw [h]
  cases e with
  | exit n => rfl
  | raised => rfl
  | died => exact absurd rfl hd

/-- **C167, refuted.**  So a port that is in use, a configuration that cannot be parsed and an existing pid file all
give status 0 to whoever started the server. -/
theorem C167_failed_start_refuted (y : Sys) (cli : Cli) (tmp : Path) (depth : Nat) (table : List Kind) (env : Option Path) (pid : Bool) (a : App)
    (hl : a.loads = true) (hm : a.makes = true) (hc : cli.conf = none ∨ a.config = none) (hsv : servable a (if cli.production then false else a.debug.getD true) = true)
    (c : Cfg) (hf : y.files tmp = some c) (hst : depth + y.need ≤ y.stackMax)
    (hbad : c.parses = false ∨ Kind.listen c.port ∈ table ∨ (c.pidfile = true ∧ pid = true)) :
    status (launch y cli tmp depth table env pid a) = some 0 := by
  unfold launch
  rw [if_neg (by simp [hl]), if_neg (by simp [hm]), if_neg (by rcases hc with h | h <;> simp [h])]
  have hcfg : cfgOf y (boot cli tmp depth table env pid a) = c := by simp [cfgOf, configPath, boot, hf]
  have hconf : configure y (boot cli tmp depth table env pid a) = none := by
    cases hx : configure y (boot cli tmp depth table env pid a) with
    | none => rfl
    | some r =>
      obtain ⟨c1, t, b⟩ := r
      obtain ⟨e1, h2, h3, _, h5, _⟩ := configure_some hx
      rw [hcfg] at e1
      subst e1
      rcases hbad with h | h | ⟨h, h'⟩
      · rw [h] at h2; cases h2
      · exact absurd h h3
      · have := h5 h
        simp [boot, h'] at this
  unfold start
  rw [if_neg (by simp only [boot]; omega), if_neg (by simp only [boot]; rw [hsv]; decide), hconf]
  rfl

example : status (launch sysA ⟨none, false, false, false⟩ 7 12 [.listen 1234] none false appA) = some 0
    ∧ status (launch sysA ⟨none, false, false, false⟩ 7 12 [.other] none false { appA with loads := false }) = some 1 := by decide

end Fly.Life
