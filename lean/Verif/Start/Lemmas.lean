import Verif.Start.Spec
import Verif.Response.Props

/-! # Lemmas about starting a server -/

namespace Fly.Start

open Response (decimal)

/-! ## The pid file -/

/-- The file a process has created. -/
def Phase.ino : Phase → Option Nat
  | .gone => none
  | .starting _ => none
  | .opened _ i => some i
  | .written _ i => some i
  | .configured _ i => some i
  | .middle i => some i
  | .serving _ i => some i

theorem owns_iff (w : World) (p i : Nat) : Owns w p i ↔ (w.procs p).ino = some i := by
  unfold Owns
  cases h : w.procs p <;> simp [Phase.ino]

/-- Files belong to one process each, and are older than the next one. -/
structure Inv (w : World) : Prop where
  old : ∀ p i, (w.procs p).ino = some i → i < w.nextIno
  path : ∀ i, w.path = some i → i < w.nextIno
  one : ∀ p q i, (w.procs p).ino = some i → (w.procs q).ino = some i → p = q

theorem inv_fresh : Inv fresh :=
  ⟨fun _ _ h => by simp [fresh, Phase.ino] at h, fun _ h => by simp [fresh] at h,
   fun _ _ _ h => by simp [fresh, Phase.ino] at h⟩

/-- Changing the phase of one process, keeping or giving up its file. -/
theorem inv_setProc (w : World) (p : Nat) (ph : Phase) (h : Inv w) (hp : ph.ino = none ∨ ph.ino = (w.procs p).ino) :
    Inv (w.setProc p ph) := by
  have key : ∀ q i, ((w.setProc p ph).procs q).ino = some i → (w.procs q).ino = some i := by
    intro q i hq
    simp only [World.setProc] at hq
    split at hq
    · next e =>
      subst e
      rcases hp with hp | hp
      · rw [hp] at hq; cases hq
      · rw [← hp]; exact hq
    · exact hq
  exact ⟨fun q i hq => h.old q i (key q i hq), h.path, fun a b i ha hb => h.one a b i (key a i ha) (key b i hb)⟩

/-- Passing a file on to a new process. -/
theorem inv_pass (w : World) (p c : Nat) (ph : Phase) (h : Inv w) (hp : ph.ino = (w.procs p).ino) :
    Inv ((w.setProc p .gone).setProc c ph) := by
  have key : ∀ q i, (((w.setProc p .gone).setProc c ph).procs q).ino = some i →
      (q = c ∧ (w.procs p).ino = some i) ∨ (q ≠ p ∧ q ≠ c ∧ (w.procs q).ino = some i) := by
    intro q i hq
    simp only [World.setProc] at hq
    split at hq
    · next e => exact .inl ⟨e, by rw [← hp]; exact hq⟩
    · next e =>
      split at hq
      · simp [Phase.ino] at hq
      · next e' => exact .inr ⟨e', e, hq⟩
  refine ⟨fun q i hq => ?_, h.path, fun a b i ha hb => ?_⟩
  · rcases key q i hq with ⟨_, h1⟩ | ⟨_, _, h1⟩
    · exact h.old p i h1
    · exact h.old q i h1
  · rcases key a i ha with ⟨e1, h1⟩ | ⟨e1, _, h1⟩ <;> rcases key b i hb with ⟨e2, h2⟩ | ⟨e2, _, h2⟩
    · rw [e1, e2]
    · exact absurd (h.one b p i h2 h1) e2
    · exact absurd (h.one a p i h1 h2) e1
    · exact h.one a b i h1 h2

theorem inv_of_eq {w w' : World} (h : Inv w) (h1 : w'.procs = w.procs) (h2 : w'.path = w.path) (h3 : w'.nextIno = w.nextIno) :
    Inv w' :=
  ⟨fun p i hp => by rw [h3]; rw [h1] at hp; exact h.old p i hp,
   fun i hi => by rw [h3]; rw [h2] at hi; exact h.path i hi,
   fun p q i hp hq => by rw [h1] at hp hq; exact h.one p q i hp hq⟩

theorem inv_step (w : World) (e : Ev) (h : Inv w) : Inv (step w e) := by
  cases e with
  | launch p d =>
    simp only [step]
    split
    · exact inv_setProc _ _ _ h (.inl rfl)
    · exact h
  | openPid p =>
    simp only [step]
    split
    · next d hd =>
      split
      · exact inv_setProc _ _ _ h (.inl rfl)
      · next hn =>
        have key : ∀ q i, ((w.setProc p (.opened d w.nextIno)).procs q).ino = some i →
            (q = p ∧ i = w.nextIno) ∨ (w.procs q).ino = some i := by
          intro q i hq
          simp only [World.setProc] at hq
          split at hq
          · next e => simp [Phase.ino] at hq; exact .inl ⟨e, hq.symm⟩
          · exact .inr hq
        refine ⟨fun q i hq => ?_, fun i hi => ?_, fun a b i ha hb => ?_⟩
        · rcases key q i hq with ⟨_, e⟩ | e
          · show i < w.nextIno + 1; omega
          · have := h.old q i e; show i < w.nextIno + 1; omega
        · simp at hi; show i < w.nextIno + 1; omega
        · rcases key a i ha with ⟨e1, h1⟩ | h1 <;> rcases key b i hb with ⟨e2, h2⟩ | h2
          · rw [e1, e2]
          · have := h.old b i h2; omega
          · have := h.old a i h1; omega
          · exact h.one a b i h1 h2
    · exact h
  | openFails p =>
    simp only [step]
    split
    · exact inv_setProc _ _ _ h (.inl rfl)
    · exact h
  | write p n =>
    simp only [step]
    split
    · next d i hd =>
      split
      · exact inv_setProc _ _ _ h (.inl rfl)
      · exact inv_of_eq (inv_setProc w p (.written d i) h (.inr (by rw [hd]; rfl))) rfl rfl rfl
    · exact h
  | writeFails p =>
    simp only [step]
    split
    · exact inv_setProc _ _ _ h (.inl rfl)
    · exact h
  | closePid p ok =>
    simp only [step]
    split
    · next d i hd =>
      split
      · exact inv_setProc _ _ _ h (.inr (by rw [hd]; rfl))
      · exact inv_setProc _ _ _ h (.inl rfl)
    · exact h
  | serve p =>
    simp only [step]
    split
    · next i hd => exact inv_setProc _ _ _ h (.inr (by rw [hd]; rfl))
    · exact h
  | fork1 p c =>
    simp only [step]
    split
    · next i hd =>
      split
      · exact inv_pass w p c _ h (by rw [hd]; rfl)
      · exact h
    · exact h
  | fork2 c g =>
    simp only [step]
    split
    · next i hd =>
      split
      · exact inv_pass w c g _ h (by rw [hd]; rfl)
      · exact h
    · exact h
  | reload p =>
    simp only [step]
    split
    · exact inv_setProc _ _ _ h (.inl rfl)
    · exact inv_setProc _ _ _ h (.inl rfl)
    · exact h
  | exit p => exact inv_setProc _ _ _ h (.inl rfl)
  | rm => exact ⟨h.old, fun i hi => by simp [step] at hi, h.one⟩

theorem run_cons (w : World) (e : Ev) (evs : List Ev) : run w (e :: evs) = run (step w e) evs := rfl

theorem run_append (w : World) (a b : List Ev) : run w (a ++ b) = run (run w a) b := by
  simp [run, List.foldl_append]

theorem inv_run (evs : List Ev) : ∀ (w : World), Inv w → Inv (run w evs) := by
  induction evs with
  | nil => intro w h; exact h
  | cons e evs ih => intro w h; rw [run_cons]; exact ih _ (inv_step w e h)

/-- While nobody deletes it, the file at the path stays. -/
theorem path_step (w : World) (e : Ev) (i : Nat) (h : w.path = some i) (he : e ≠ .rm) : (step w e).path = some i := by
  cases e <;> simp only [step] <;> (repeat' split) <;> first | exact h | (simp_all [World.setProc]) 

theorem path_run (evs : List Ev) : ∀ (w : World) (i : Nat), w.path = some i → Untouched evs → (run w evs).path = some i := by
  induction evs with
  | nil => intro w i h _; exact h
  | cons e evs ih =>
    intro w i h hu
    rw [run_cons]
    exact ih _ i (path_step w e i h (fun c => hu (by simp [c]))) (fun c => hu (by simp [c]))

/-- While nobody deletes it, whoever owns a file owns the one at the path. -/
theorem owner_step (w : World) (e : Ev) (h : ∀ p i, (w.procs p).ino = some i → w.path = some i) (he : e ≠ .rm) :
    ∀ p i, ((step w e).procs p).ino = some i → (step w e).path = some i := by
  intro q j hq
  cases e with
  | launch p d =>
    simp only [step] at hq ⊢
    split at hq
    · next hg =>
      rw [if_pos hg]
      simp only [World.setProc] at hq ⊢
      split at hq
      · simp [Phase.ino] at hq
      · exact h q j hq
    · next hg => rw [if_neg hg]; exact h q j hq
  | openPid p =>
    simp only [step] at hq ⊢
    split
    · next d hd =>
      rw [hd] at hq
      dsimp only at hq
      split
      · next k hk =>
        rw [hk] at hq
        simp only [World.setProc] at hq ⊢
        split at hq
        · simp [Phase.ino] at hq
        · exact h q j hq
      · next hn =>
        rw [hn] at hq
        simp only [World.setProc] at hq ⊢
        split at hq
        · simpa [Phase.ino] using hq
        · have := h q j hq; rw [hn] at this; cases this
    · next hd =>
      split at hq
      · next d hd' => exact absurd hd' (hd d)
      · exact h q j hq
  | write p n =>
    simp only [step] at hq ⊢
    split
    · next d i hd =>
      rw [hd] at hq
      dsimp only at hq
      split
      · next hl =>
        rw [if_pos hl] at hq
        simp only [World.setProc] at hq ⊢
        split at hq
        · simp [Phase.ino] at hq
        · exact h q j hq
      · next hl =>
        rw [if_neg hl] at hq
        simp only [World.setProc] at hq ⊢
        split at hq
        · next e => subst e; exact h q j (by rw [hd]; exact hq)
        · exact h q j hq
    · next hd =>
      split at hq
      · next d i hd' => exact absurd hd' (hd d i)
      · exact h q j hq
  | rm => exact absurd rfl he
  | openFails p => simp only [step] at hq ⊢; grind [Phase.ino, World.setProc]
  | writeFails p => simp only [step] at hq ⊢; grind [Phase.ino, World.setProc]
  | closePid p ok => simp only [step] at hq ⊢; grind [Phase.ino, World.setProc]
  | serve p => simp only [step] at hq ⊢; grind [Phase.ino, World.setProc]
  | fork1 p c =>
    simp only [step] at hq ⊢
    split
    · next i hd =>
      rw [hd] at hq
      dsimp only at hq
      by_cases hg : w.procs c = .gone
      · rw [if_pos hg] at hq ⊢
        simp only [World.setProc] at hq ⊢
        by_cases e : q = c
        · rw [if_pos e] at hq; exact h p j (by rw [hd]; exact hq)
        · rw [if_neg e] at hq
          split at hq
          · simp [Phase.ino] at hq
          · exact h q j hq
      · rw [if_neg hg] at hq ⊢; exact h q j hq
    · next hd =>
      split at hq
      · next i hd' => exact absurd hd' (hd i)
      · exact h q j hq
  | fork2 p c =>
    simp only [step] at hq ⊢
    split
    · next i hd =>
      rw [hd] at hq
      dsimp only at hq
      by_cases hg : w.procs c = .gone
      · rw [if_pos hg] at hq ⊢
        simp only [World.setProc] at hq ⊢
        by_cases e : q = c
        · rw [if_pos e] at hq; exact h p j (by rw [hd]; exact hq)
        · rw [if_neg e] at hq
          split at hq
          · simp [Phase.ino] at hq
          · exact h q j hq
      · rw [if_neg hg] at hq ⊢; exact h q j hq
    · next hd =>
      split at hq
      · next i hd' => exact absurd hd' (hd i)
      · exact h q j hq
  | reload p => simp only [step] at hq ⊢; grind [Phase.ino, World.setProc]
  | exit p => simp only [step] at hq ⊢; grind [Phase.ino, World.setProc]

theorem owner_run (evs : List Ev) : ∀ (w : World), (∀ p i, (w.procs p).ino = some i → w.path = some i) → Untouched evs →
    ∀ p i, ((run w evs).procs p).ino = some i → (run w evs).path = some i := by
  induction evs with
  | nil => intro w h _; exact h
  | cons e evs ih =>
    intro w h hu
    rw [run_cons]
    exact ih _ (owner_step w e h (fun c => hu (by simp [c]))) (fun c => hu (by simp [c]))

/-- While there is a file at the path, nobody gets a new one. -/
theorem ino_from (w : World) (e : Ev) (k : Nat) (hk : w.path = some k) (q j : Nat)
    (hq : ((step w e).procs q).ino = some j) : ∃ p, (w.procs p).ino = some j := by
  cases e with
  | launch p d =>
    simp only [step] at hq
    split at hq
    · simp only [World.setProc] at hq
      split at hq
      · simp [Phase.ino] at hq
      · exact ⟨q, hq⟩
    · exact ⟨q, hq⟩
  | openPid p =>
    simp only [step, hk] at hq
    split at hq
    · simp only [World.setProc] at hq
      split at hq
      · simp [Phase.ino] at hq
      · exact ⟨q, hq⟩
    · exact ⟨q, hq⟩
  | write p n =>
    simp only [step] at hq
    split at hq
    · next d i hd =>
      split at hq
      · simp only [World.setProc] at hq
        split at hq
        · simp [Phase.ino] at hq
        · exact ⟨q, hq⟩
      · simp only [World.setProc] at hq
        split at hq
        · exact ⟨p, by rw [hd]; exact hq⟩
        · exact ⟨q, hq⟩
    · exact ⟨q, hq⟩
  | closePid p ok =>
    simp only [step] at hq
    split at hq
    · next d i hd =>
      split at hq <;> simp only [World.setProc] at hq <;> split at hq
      · exact ⟨p, by rw [hd]; exact hq⟩
      · exact ⟨q, hq⟩
      · simp [Phase.ino] at hq
      · exact ⟨q, hq⟩
    · exact ⟨q, hq⟩
  | serve p =>
    simp only [step] at hq
    split at hq
    · next i hd =>
      simp only [World.setProc] at hq
      split at hq
      · exact ⟨p, by rw [hd]; exact hq⟩
      · exact ⟨q, hq⟩
    · exact ⟨q, hq⟩
  | fork1 p c =>
    simp only [step] at hq
    split at hq
    · next i hd =>
      split at hq
      · simp only [World.setProc] at hq
        split at hq
        · exact ⟨p, by rw [hd]; exact hq⟩
        · split at hq
          · simp [Phase.ino] at hq
          · exact ⟨q, hq⟩
      · exact ⟨q, hq⟩
    · exact ⟨q, hq⟩
  | fork2 p c =>
    simp only [step] at hq
    split at hq
    · next i hd =>
      split at hq
      · simp only [World.setProc] at hq
        split at hq
        · exact ⟨p, by rw [hd]; exact hq⟩
        · split at hq
          · simp [Phase.ino] at hq
          · exact ⟨q, hq⟩
      · exact ⟨q, hq⟩
    · exact ⟨q, hq⟩
  | rm => exact ⟨q, hq⟩
  | _ =>
    simp only [step] at hq
    repeat' split at hq
    all_goals try simp only [World.setProc] at hq
    all_goals repeat' split at hq
    all_goals first
      | (simp [Phase.ino] at hq; done)
      | exact ⟨q, hq⟩

theorem nobody_run (evs : List Ev) : ∀ (w : World) (k : Nat), w.path = some k → (∀ p j, (w.procs p).ino ≠ some j) → Untouched evs →
    ∀ p j, ((run w evs).procs p).ino ≠ some j := by
  induction evs with
  | nil => intro w _ _ h _; exact h
  | cons e evs ih =>
    intro w k hk h hu
    rw [run_cons]
    refine ih _ k (path_step w e k hk (fun c => hu (by simp [c]))) ?_ (fun c => hu (by simp [c]))
    intro p j hp
    obtain ⟨q, hq⟩ := ino_from w e k hk p j hp
    exact h q j hq

/-- The text a process has written, while it is the process that wrote it. -/
def Wrote (w : World) : Prop := ∀ p i,
  (∃ d, w.procs p = .written d i ∨ w.procs p = .configured d i) ∨ w.procs p = .serving false i → w.data i = decimal p

theorem wrote_setProc (w : World) (p : Nat) (ph : Phase) (h : Wrote w)
    (hp : ∀ i, (∃ d, ph = .written d i ∨ ph = .configured d i) ∨ ph = .serving false i → w.data i = decimal p) :
    Wrote (w.setProc p ph) := by
  intro q i hq
  simp only [World.setProc] at hq ⊢
  by_cases e : q = p
  · subst e
    simp only [if_true] at hq
    exact hp i hq
  · simp only [if_neg e] at hq
    exact h q i hq

theorem ino_of_wrote {w : World} {p i : Nat}
    (h : (∃ d, w.procs p = .written d i ∨ w.procs p = .configured d i) ∨ w.procs p = .serving false i) :
    (w.procs p).ino = some i := by
  rcases h with ⟨d, h | h⟩ | h <;> rw [h] <;> rfl

theorem wrote_step (w : World) (e : Ev) (hi : Inv w) (h : Wrote w) (he : ∀ p n, e = .write p n → (decimal p).length ≤ n) :
    Wrote (step w e) := by
  cases e with
  | launch p d =>
    simp only [step]
    split
    · exact wrote_setProc _ _ _ h (by simp)
    · exact h
  | openPid p =>
    simp only [step]
    split
    · next d hd =>
      split
      · exact wrote_setProc _ _ _ h (by simp)
      · next hn =>
        intro q i hq
        have hq' : (∃ d, w.procs q = .written d i ∨ w.procs q = .configured d i) ∨ w.procs q = .serving false i := by
          simp only [World.setProc] at hq
          by_cases e : q = p
          · simp [e] at hq
          · simpa only [if_neg e] using hq
        have hlt := hi.old q i (ino_of_wrote hq')
        show (if i = w.nextIno then [] else w.data i) = decimal q
        rw [if_neg (by omega)]
        exact h q i hq'
    · exact h
  | openFails p =>
    simp only [step]
    split
    · exact wrote_setProc _ _ _ h (by simp)
    · exact h
  | write p n =>
    simp only [step]
    split
    · next d i hd =>
      split
      · exact wrote_setProc _ _ _ h (by simp)
      · intro q j hq
        simp only [World.setProc] at hq
        show (if j = i then (decimal p).take n else w.data j) = decimal q
        by_cases e : q = p
        · simp only [if_pos e] at hq
          have : j = i := by
            rcases hq with ⟨d', hq | hq⟩ | hq
            · injection hq with _ e; exact e.symm
            · cases hq
            · cases hq
          rw [if_pos this, e, List.take_of_length_le (he p n rfl)]
        · simp only [if_neg e] at hq
          rw [if_neg (fun c => e (hi.one q p j (ino_of_wrote hq) (by rw [hd, c]; rfl)))]
          exact h q j hq
    · exact h
  | writeFails p =>
    simp only [step]
    split
    · exact wrote_setProc _ _ _ h (by simp)
    · exact h
  | closePid p ok =>
    simp only [step]
    split
    · next d i hd =>
      split
      · refine wrote_setProc _ _ _ h (fun j hj => ?_)
        have : j = i := by
          rcases hj with ⟨d', hj | hj⟩ | hj
          · cases hj
          · injection hj with _ e; exact e.symm
          · cases hj
        rw [this]
        exact h p i (.inl ⟨d, .inl hd⟩)
      · exact wrote_setProc _ _ _ h (by simp)
    · exact h
  | serve p =>
    simp only [step]
    split
    · next i hd =>
      refine wrote_setProc _ _ _ h (fun j hj => ?_)
      have : j = i := by
        rcases hj with ⟨d', hj | hj⟩ | hj
        · cases hj
        · cases hj
        · injection hj with _ e; exact e.symm
      rw [this]
      exact h p i (.inl ⟨false, .inr hd⟩)
    · exact h
  | fork1 p c =>
    simp only [step]
    split
    · next i hd =>
      split
      · exact wrote_setProc _ _ _ (wrote_setProc _ _ _ h (by simp)) (by simp)
      · exact h
    · exact h
  | fork2 p c =>
    simp only [step]
    split
    · next i hd =>
      split
      · exact wrote_setProc _ _ _ (wrote_setProc _ _ _ h (by simp)) (by simp)
      · exact h
    · exact h
  | reload p =>
    simp only [step]
    split
    · exact wrote_setProc _ _ _ h (by simp)
    · exact wrote_setProc _ _ _ h (by simp)
    · exact h
  | exit p => exact wrote_setProc _ _ _ h (by simp)
  | rm => exact h

theorem wrote_run (evs : List Ev) : ∀ (w : World), Inv w → Wrote w → WholeWrites evs → Wrote (run w evs) := by
  induction evs with
  | nil => intro w _ h _; exact h
  | cons e evs ih =>
    intro w hi h hw
    rw [run_cons]
    exact ih _ (inv_step w e hi) (wrote_step w e hi h (fun p n c => hw p n (by simp [c])))
      (fun p n c => hw p n (by simp [c]))

theorem wrote_fresh : Wrote fresh := by
  intro p i h
  simp [fresh] at h

theorem atoll_decimal (n : Nat) : atoll (decimal n) = n := by
  have := (Response.C53_decimal_reads_back n).2.2.2
  rwa [(Response.C53_digits_reserved_exact n).2] at this

theorem decimal_inj {a b : Nat} (h : decimal a = decimal b) : a = b := by
  have h1 := atoll_decimal a
  rw [h, atoll_decimal b] at h1
  omega

theorem decimal_ne_nil (n : Nat) : decimal n ≠ [] := by
  have := (Response.C53_decimal_reads_back n).2.1
  rwa [(Response.C53_digits_reserved_exact n).2] at this

/-! ## `fly_daemon` -/

theorem closeAll_spec (s : Sys) (k : Keep) (n : Nat) : ∀ (i : Nat) (t t' : Fds), closeAll s k n i t = some t' →
    ∀ j, t' j = if i ≤ j ∧ j < i + n ∧ k.has j = false then none else t j := by
  induction n with
  | zero =>
    intro i t t' h j
    simp only [closeAll, Option.some.injEq] at h
    rw [← h, if_neg (by omega)]
  | succ n ih =>
    intro i t t' h j
    rw [closeAll] at h
    split at h
    · next hk =>
      rw [ih _ _ _ h j]
      by_cases e : j = i
      · subst e; rw [if_neg (by omega), if_neg (by simp [hk])]
      · by_cases c : i + 1 ≤ j ∧ j < i + 1 + n ∧ k.has j = false
        · rw [if_pos c, if_pos ⟨by omega, by omega, c.2.2⟩]
        · rw [if_neg c, if_neg (fun c' => c ⟨by omega, by omega, c'.2.2⟩)]
    · next hk =>
      simp only [Bool.not_eq_true] at hk
      split at h
      · next hn =>
        rw [ih _ _ _ h j]
        by_cases e : j = i
        · subst e; rw [if_neg (by omega), if_pos ⟨by omega, by omega, hk⟩, hn]
        · by_cases c : i + 1 ≤ j ∧ j < i + 1 + n ∧ k.has j = false
          · rw [if_pos c, if_pos ⟨by omega, by omega, c.2.2⟩]
          · rw [if_neg c, if_neg (fun c' => c ⟨by omega, by omega, c'.2.2⟩)]
      · split at h
        · rw [ih _ _ _ h j]
          by_cases e : j = i
          · subst e; rw [if_neg (by omega), if_pos ⟨by omega, by omega, hk⟩]; simp [Fds.set]
          · by_cases c : i + 1 ≤ j ∧ j < i + 1 + n ∧ k.has j = false
            · rw [if_pos c, if_pos ⟨by omega, by omega, c.2.2⟩]
            · rw [if_neg c, if_neg (fun c' => c ⟨by omega, by omega, c'.2.2⟩)]; simp [Fds.set, e]
        · cases h

theorem closeAll_ok (s : Sys) (k : Keep) (hc : ∀ i, s.close i = true) (n : Nat) : ∀ (i : Nat) (t : Fds),
    ∃ t', closeAll s k n i t = some t' := by
  induction n with
  | zero => intro i t; exact ⟨t, rfl⟩
  | succ n ih =>
    intro i t
    rw [closeAll]
    split
    · exact ih _ _
    · split
      · exact ih _ _
      · rw [if_pos (hc i)]; exact ih _ _

/-- What success means, call by call. -/
theorem daemon_zero (s : Sys) (k : Keep) (t : Fds) (h : (daemon s k t).1 = 0) :
    ∃ t1, closeAll s k s.limit 0 t = some t1 ∧ lowest t1 s.limit = some 0 ∧
      (daemon s k t).2 = ((t1.set 0 (some .null)).set 1 (some .null)).set 2 (some .null) := by
  unfold daemon at h ⊢
  split at h
  · cases h
  · next h1 =>
    rw [if_neg h1]
    split at h
    · cases h
    · next h2 =>
      rw [if_neg h2]
      split at h
      · cases h
      · next h3 =>
        rw [if_neg h3]
        split at h
        · cases h
        · next h4 =>
          rw [if_neg h4]
          split at h
          · cases h
          · next h5 =>
            rw [if_neg h5]
            split at h
            · cases h
            · next t1 ht1 =>
              split at h
              · cases h
              · next fd hfd =>
                dsimp only at h ⊢
                split at h
                · cases h
                · next h6 =>
                  rw [if_neg h6]
                  split at h
                  · cases h
                  · next h7 =>
                    rw [if_neg h7]
                    split at h
                    · cases h
                    · next h8 =>
                      rw [if_neg h8]
                      have e0 : fd = 0 := by omega
                      rw [e0] at hfd ⊢
                      split at hfd
                      · exact ⟨t1, ht1, hfd, by simp [*]⟩
                      · cases hfd

/-! ## `fly_socket_init` -/

theorem bindLoop_clean (rs : List Addr) : ∀ (a fd : Nat), (∀ r ∈ rs, r.nonblocking = true ∧ r.reuse = true) →
    (∃ i r, rs[i]? = some r ∧ r.usable = true ∧ (∀ j r', j < i → rs[j]? = some r' → r'.usable = false) ∧
      ∃ f, bindLoop rs a fd [] = .bound f (a + i) [f]) ∨
    ((∀ r ∈ rs, r.usable = false) ∧ bindLoop rs a fd [] = .nobody []) := by
  induction rs with
  | nil => intro a fd _; exact .inr ⟨by simp, rfl⟩
  | cons r rs ih =>
    intro a fd h
    obtain ⟨h1, h2⟩ := h r (by simp)
    have next : ∀ fd', r.usable = false → bindLoop (r :: rs) a fd [] = bindLoop rs (a + 1) fd' [] →
        (∃ i r', (r :: rs)[i]? = some r' ∧ r'.usable = true ∧ (∀ j r'', j < i → (r :: rs)[j]? = some r'' → r''.usable = false) ∧
          ∃ f, bindLoop (r :: rs) a fd [] = .bound f (a + i) [f]) ∨
        ((∀ r' ∈ r :: rs, r'.usable = false) ∧ bindLoop (r :: rs) a fd [] = .nobody []) := by
      intro fd' hu he
      rcases ih (a + 1) fd' (fun x hx => h x (by simp [hx])) with ⟨i, x, e1, e2, e3, f, e4⟩ | ⟨e1, e2⟩
      · refine .inl ⟨i + 1, x, by simpa using e1, e2, ?_, f, ?_⟩
        · intro j y hj hy
          cases j with
          | zero => simp at hy; rw [← hy]; exact hu
          | succ j => exact e3 j y (by omega) (by simpa using hy)
        · rw [he, e4]; congr 1; omega
      · exact .inr ⟨fun x hx => by rcases List.mem_cons.1 hx with e | e; (· rw [e]; exact hu); exact e1 x e, by rw [he, e2]⟩
    cases hs : r.socket with
    | false => exact next fd (by simp [Addr.usable, hs]) (by rw [bindLoop]; simp [hs])
    | true =>
      cases hb : r.bind with
      | false => exact next (fd + 1) (by simp [Addr.usable, hb]) (by rw [bindLoop]; simp [hs, h1, h2, hb])
      | true =>
        refine .inl ⟨0, r, rfl, by simp [Addr.usable, hs, h1, h2, hb], fun j _ hj => by omega, fd, ?_⟩
        rw [bindLoop]; simp [hs, h1, h2, hb]

/-- An address that is passed over without trace. -/
def Skipped (r : Addr) : Prop := r.socket = false ∨ (r.nonblocking = true ∧ r.reuse = true ∧ r.bind = false)

theorem bindLoop_skip (pre : List Addr) : ∀ (rs : List Addr) (a fd : Nat) (o : List Nat), (∀ r ∈ pre, Skipped r) →
    ∃ fd', fd ≤ fd' ∧ bindLoop (pre ++ rs) a fd o = bindLoop rs (a + pre.length) fd' o := by
  induction pre with
  | nil => intro rs a fd o _; exact ⟨fd, by omega, rfl⟩
  | cons r pre ih =>
    intro rs a fd o h
    rw [List.cons_append, bindLoop]
    rcases h r (by simp) with h1 | ⟨h1, h2, h3⟩
    · obtain ⟨fd', e1, e2⟩ := ih rs (a + 1) fd o (fun x hx => h x (by simp [hx]))
      refine ⟨fd', e1, ?_⟩
      simp only [h1, Bool.not_false, if_true, e2, List.length_cons]
      congr 1; omega
    · cases hs : r.socket with
      | false =>
        obtain ⟨fd', e1, e2⟩ := ih rs (a + 1) fd o (fun x hx => h x (by simp [hx]))
        refine ⟨fd', e1, ?_⟩
        simp only [Bool.not_false, if_true, e2, List.length_cons]
        congr 1; omega
      | true =>
        obtain ⟨fd', e1, e2⟩ := ih rs (a + 1) (fd + 1) o (fun x hx => h x (by simp [hx]))
        refine ⟨fd', by omega, ?_⟩
        simp only [h1, h2, h3, Bool.not_true, if_false, Bool.false_eq_true, e2, List.length_cons]
        congr 1; omega

/-- The descriptors open after the loop. -/
def Bound.opened : Bound → List Nat
  | .nobody o => o
  | .noReuse o => o
  | .bound _ _ o => o

/-- Descriptors below the next one that are open stay open, and are not the one returned. -/
theorem bindLoop_keeps (rs : List Addr) : ∀ (a fd : Nat) (o : List Nat) (x : Nat), x < fd → x ∈ o →
    x ∈ (bindLoop rs a fd o).opened ∧ ∀ f b o', bindLoop rs a fd o = .bound f b o' → x < f := by
  induction rs with
  | nil => intro a fd o x _ h; exact ⟨h, fun f b o' e => by cases e⟩
  | cons r rs ih =>
    intro a fd o x hx h
    rw [bindLoop]
    split
    · exact ih _ _ _ _ hx h
    · split
      · exact ih _ _ _ _ (by omega) (by simp [h])
      · split
        · exact ⟨h, fun f b o' e => by cases e⟩
        · split
          · refine ⟨by simp [Bound.opened, h], fun f b o' e => ?_⟩
            injection e with e; omega
          · exact ih _ _ _ _ (by omega) h

/-! ## `fly_sendfile` -/

theorem writeLoop_whole (buf : Bytes) : writeLoop buf buf.length 0 [] = (buf, [], true) := by
  cases buf with
  | nil => rfl
  | cons b t =>
    rw [List.length_cons, writeLoop]
    simp

/-- Whole blocks, nothing else. -/
theorem sendLoop_blocks (file : Bytes) (o : Nat) (count : Nat) (k : Nat) : ∀ (pos total fuel : Nat) (out : Bytes),
    pos + k * block ≤ file.length → k * block + total < count + block → (0 < k → (k - 1) * block + total < count) →
    count ≤ k * block + total → k < fuel →
    sendLoop file count (some o) fuel pos total [] out = .done (out ++ (file.drop pos).take (k * block)) (o + count) := by
  induction k with
  | zero =>
    intro pos total fuel out h1 h2 h3 h4 h5
    match fuel, h5 with
    | fuel + 1, _ =>
      rw [sendLoop, if_neg (by omega)]
      simp
  | succ k ih =>
    intro pos total fuel out h1 h2 h3 h4 h5
    match fuel, h5 with
    | fuel + 1, h5 =>
      have h3 := h3 (by omega)
      simp only [Nat.add_sub_cancel] at h3
      have hb : (k + 1) * block = k * block + block := by rw [Nat.add_mul]; simp
      rw [hb] at h1 h2 h4
      have hl : ((file.drop pos).take block).length = block := by
        rw [List.length_take, List.length_drop]; omega
      rw [sendLoop, if_pos (by omega)]
      simp only [writeLoop_whole, if_true]
      rw [hl]
      have hb0 : 0 < block := by decide
      rw [ih _ _ _ _ (by omega) (by omega) ?_ (by omega) (by omega)]
      · congr 1
        rw [List.append_assoc]
        congr 1
        rw [hb, Nat.add_comm (k * block), List.take_add, List.drop_drop]
      · intro hk
        obtain ⟨m, rfl⟩ : ∃ m, k = m + 1 := ⟨k - 1, by omega⟩
        have : (m + 1) * block = m * block + block := by rw [Nat.add_mul]; simp
        simp only [Nat.add_sub_cancel]
        omega

theorem sendLoop_short (file : Bytes) (offset : Option Nat) (count : Nat) (fuel : Nat) : ∀ (pos total : Nat) (out : Bytes),
    total + (file.length - pos) < count → ∃ out', sendLoop file count offset fuel pos total [] out = .running out' := by
  induction fuel with
  | zero => intro pos total out _; exact ⟨out, rfl⟩
  | succ fuel ih =>
    intro pos total out h
    rw [sendLoop.eq_def]
    dsimp only
    rw [if_pos (by omega)]
    simp only [writeLoop_whole, if_true]
    apply ih
    rw [List.length_take, List.length_drop]
    omega

end Fly.Start
