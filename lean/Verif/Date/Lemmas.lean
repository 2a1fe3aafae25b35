import Verif.Date.Model
import Verif.Date.Spec

/-! # The calendar -/

namespace Fly.Date
open Spec

theorem leap_iff (y : Nat) : leap y = true ↔ isLeap y := by
  unfold leap isLeap
  simp only [Bool.or_eq_true, Bool.and_eq_true, beq_iff_eq, bne_iff_ne]
  constructor
  · rintro (h | h)
    · exact Or.inr h
    · exact Or.inl h
  · rintro (h | h)
    · exact Or.inr h
    · exact Or.inl h

theorem years (y : Nat) : (daysOfYears y : Int) = yearDays y + 719528 := by
  induction y with
  | zero => rfl
  | succ y ih =>
    rw [daysOfYears, Int.natCast_add, ih]
    unfold yearDays yearLength
    by_cases h : isLeap y
    · rw [if_pos h]
      unfold isLeap at h
      omega
    · rw [if_neg h]
      unfold isLeap at h
      omega

theorem months (y m : Nat) (h : m ≤ 12) : daysOfMonths y m = before y m := by
  by_cases hl : isLeap y
  · have e : leap y = true := (leap_iff y).2 hl
    match m, h with
    | 0, _ => simp [daysOfMonths, before]
    | 1, _ => simp [daysOfMonths, before, monthLength]
    | 2, _ => simp [daysOfMonths, before, monthLength, hl, e]
    | 3, _ => simp [daysOfMonths, before, monthLength, hl, e]
    | 4, _ => simp [daysOfMonths, before, monthLength, hl, e]
    | 5, _ => simp [daysOfMonths, before, monthLength, hl, e]
    | 6, _ => simp [daysOfMonths, before, monthLength, hl, e]
    | 7, _ => simp [daysOfMonths, before, monthLength, hl, e]
    | 8, _ => simp [daysOfMonths, before, monthLength, hl, e]
    | 9, _ => simp [daysOfMonths, before, monthLength, hl, e]
    | 10, _ => simp [daysOfMonths, before, monthLength, hl, e]
    | 11, _ => simp [daysOfMonths, before, monthLength, hl, e]
    | 12, _ => simp [daysOfMonths, before, monthLength, hl, e]
    | n + 13, h => omega
  · have e : leap y = false := by
      cases h : leap y with
      | false => rfl
      | true => exact absurd ((leap_iff y).1 h) hl
    match m, h with
    | 0, _ => simp [daysOfMonths, before]
    | 1, _ => simp [daysOfMonths, before, monthLength]
    | 2, _ => simp [daysOfMonths, before, monthLength, hl, e]
    | 3, _ => simp [daysOfMonths, before, monthLength, hl, e]
    | 4, _ => simp [daysOfMonths, before, monthLength, hl, e]
    | 5, _ => simp [daysOfMonths, before, monthLength, hl, e]
    | 6, _ => simp [daysOfMonths, before, monthLength, hl, e]
    | 7, _ => simp [daysOfMonths, before, monthLength, hl, e]
    | 8, _ => simp [daysOfMonths, before, monthLength, hl, e]
    | 9, _ => simp [daysOfMonths, before, monthLength, hl, e]
    | 10, _ => simp [daysOfMonths, before, monthLength, hl, e]
    | 11, _ => simp [daysOfMonths, before, monthLength, hl, e]
    | 12, _ => simp [daysOfMonths, before, monthLength, hl, e]
    | n + 13, h => omega

theorem years_mono {a b : Nat} (h : a ≤ b) : daysOfYears a ≤ daysOfYears b := by
  induction b with
  | zero => rw [Nat.le_zero.1 h]; exact Nat.le_refl _
  | succ b ih =>
    rcases Nat.lt_or_ge b a with h1 | h1
    · have : a = b + 1 := by omega
      rw [this]
      exact Nat.le_refl _
    · rw [daysOfYears]
      have := ih h1
      omega

theorem months_mono {y a b : Nat} (h : a ≤ b) : daysOfMonths y a ≤ daysOfMonths y b := by
  induction b with
  | zero => rw [Nat.le_zero.1 h]; exact Nat.le_refl _
  | succ b ih =>
    rcases Nat.lt_or_ge b a with h1 | h1
    · have : a = b + 1 := by omega
      rw [this]
      exact Nat.le_refl _
    · rw [daysOfMonths]
      have := ih h1
      omega

theorem year_months (y : Nat) : daysOfMonths y 12 = yearLength y := by
  unfold yearLength
  by_cases hl : isLeap y <;> simp [daysOfMonths, monthLength, hl]

theorem monthLength_pos (y m : Nat) : 0 < monthLength y m := by
  unfold monthLength
  split
  · split <;> omega
  · split <;> omega

/-- The moment of a broken-down time. -/
def moment (g : Tm) : Moment := ⟨g.year, g.mon + 1, g.mday, g.hour, g.min, g.sec⟩

theorem broken_number {t : Int} {g : Tm} (b : Broken t g) :
    ((moment g).dayNumber : Int) = g.yday + yearDays g.year + 719528 := by
  show ((daysOfYears g.year + daysOfMonths g.year (g.mon + 1 - 1) + (g.mday - 1) : Nat) : Int) = _
  rw [Nat.add_sub_cancel, months _ _ (by have := b.mon; omega)]
  have h1 := years g.year
  have h2 := b.yday
  have h3 := b.mday
  omega

theorem broken_time {t : Int} {g : Tm} (b : Broken t g) : (moment g).time = t := by
  unfold Moment.time
  rw [broken_number b, b.seconds]
  show _ + (g.hour : Int) * 3600 + (g.min : Int) * 60 + (g.sec : Int) = _
  omega

theorem inRange_years {t : Int} {g : Tm} (b : Broken t g) (h : InRange t) : 1000 ≤ g.year ∧ g.year < 10000 := by
  have hs := b.seconds
  have h1 := b.sec
  have h2 := b.min
  have h3 := b.hour
  have hy := years g.year
  have hlen : g.yday < yearLength g.year := by
    have := b.month
    rw [← months _ _ (by have := b.mon; omega), ] at this
    have l := months_mono (y := g.year) (show g.mon + 1 ≤ 12 by have := b.mon; omega)
    rw [year_months] at l
    omega
  unfold InRange at h
  constructor
  · refine Decidable.byContradiction fun hc => ?_
    have l := years_mono (show g.year + 1 ≤ 1000 by omega)
    have e := years 1000
    have e' : yearDays 1000 = -354285 := by decide
    rw [daysOfYears] at l
    omega
  · refine Decidable.byContradiction fun hc => ?_
    have l := years_mono (show 10000 ≤ g.year by omega)
    have e := years 10000
    have e' : yearDays 10000 = 2932897 := by decide
    omega

theorem broken_valid {t : Int} {g : Tm} (b : Broken t g) (h : InRange t) : (moment g).Valid := by
  refine ⟨(inRange_years b h).2, ⟨by simp [moment], by have := b.mon; simp only [moment]; omega⟩, ⟨b.mday, ?_⟩, b.hour, b.min, b.sec⟩
  show g.mday ≤ monthLength g.year (g.mon + 1)
  have h1 := b.month
  have h2 := b.yday
  have h3 := b.mon
  rw [← months _ _ (by omega), daysOfMonths, months _ _ (by omega)] at h1
  have := b.mday
  omega

theorem two_eq (n : Nat) : two n = digits 2 n := rfl

theorem four_eq (n : Nat) : four n = digits 4 n := by
  unfold four
  simp only [digits, List.nil_append, List.cons_append]
  simp only [Nat.div_div_eq_div_mul]

theorem day_eq {t : Int} {g : Tm} (b : Broken t g) : localeC.day g.wday = (moment g).dayName := by
  have h1 := broken_number b
  have h2 := b.wday
  unfold Moment.dayName
  generalize (moment g).dayNumber = n at *
  generalize (g.yday : Int) + yearDays g.year = d at *
  generalize g.wday = w at *
  have h3 : w = (n + 6) % 7 := by omega
  subst h3
  have h4 : (n + 2) % 7 < 7 := Nat.mod_lt _ (by decide)
  have h5 : (n + 6) % 7 = ((n + 2) % 7 + 4) % 7 := by omega
  rw [h5]
  generalize (n + 2) % 7 = k at *
  match k, h4 with
  | 0, _ => rfl
  | 1, _ => rfl
  | 2, _ => rfl
  | 3, _ => rfl
  | 4, _ => rfl
  | 5, _ => rfl
  | 6, _ => rfl
  | n + 7, h => omega

theorem mon_eq (m : Nat) (h : m < 12) : localeC.mon m = monthName (m + 1) := by
  match m, h with
  | 0, _ => rfl
  | 1, _ => rfl
  | 2, _ => rfl
  | 3, _ => rfl
  | 4, _ => rfl
  | 5, _ => rfl
  | 6, _ => rfl
  | 7, _ => rfl
  | 8, _ => rfl
  | 9, _ => rfl
  | 10, _ => rfl
  | 11, _ => rfl
  | n + 12, h => omega

/-! ## A time has one date -/

theorem months_unique {y m m' d d' : Nat} (h : daysOfMonths y m + d = daysOfMonths y m' + d')
    (hd : d < monthLength y (m + 1)) (hd' : d' < monthLength y (m' + 1)) : m = m' ∧ d = d' := by
  have key : m = m' := by
    rcases Nat.lt_trichotomy m m' with l | l | l
    · have := months_mono (y := y) (show m + 1 ≤ m' from l)
      rw [daysOfMonths] at this
      omega
    · exact l
    · have := months_mono (y := y) (show m' + 1 ≤ m from l)
      rw [daysOfMonths] at this
      omega
  subst key
  exact ⟨rfl, by omega⟩

theorem years_unique {y y' d d' : Nat} (h : daysOfYears y + d = daysOfYears y' + d')
    (hd : d < yearLength y) (hd' : d' < yearLength y') : y = y' ∧ d = d' := by
  have key : y = y' := by
    rcases Nat.lt_trichotomy y y' with l | l | l
    · have := years_mono (show y + 1 ≤ y' from l)
      rw [daysOfYears] at this
      omega
    · exact l
    · have := years_mono (show y' + 1 ≤ y from l)
      rw [daysOfYears] at this
      omega
  subst key
  exact ⟨rfl, by omega⟩

theorem in_year {x : Moment} (h : x.Valid) : daysOfMonths x.year (x.month - 1) + (x.day - 1) < yearLength x.year := by
  have h1 := h.month
  have h2 := h.day
  have l := months_mono (y := x.year) h1.2
  rw [year_months] at l
  obtain ⟨m, hm⟩ : ∃ m, x.month = m + 1 := ⟨x.month - 1, by omega⟩
  rw [hm] at h2 l ⊢
  rw [daysOfMonths] at l
  rw [Nat.add_sub_cancel]
  omega

theorem moment_unique {x y : Moment} (hx : x.Valid) (hy : y.Valid) (h : x.time = y.time) : x = y := by
  have a := hx.hour
  have a1 := hx.minute
  have a2 := hx.second
  have b := hy.hour
  have b1 := hy.minute
  have b2 := hy.second
  unfold Moment.time at h
  have hn : x.dayNumber = y.dayNumber := by omega
  have hh : x.hour = y.hour ∧ x.minute = y.minute ∧ x.second = y.second := by omega
  unfold Moment.dayNumber at hn
  rw [Nat.add_assoc, Nat.add_assoc] at hn
  obtain ⟨e1, e2⟩ := years_unique hn (in_year hx) (in_year hy)
  have c := hx.month
  have c' := hy.month
  have d := hx.day
  have d' := hy.day
  have i : x.month - 1 + 1 = x.month := by omega
  have i' : y.month - 1 + 1 = y.month := by omega
  rw [← e1] at e2 d'
  obtain ⟨e3, e4⟩ := months_unique e2 (by rw [i]; omega) (by rw [i']; omega)
  obtain ⟨xy, xm, xd, xh, xi, xs⟩ := x
  obtain ⟨yy, ym, yd, yh, yi, ys⟩ := y
  simp only at *
  simp only [Moment.mk.injEq]
  omega

/-! ## A `gmtime_r` -/

/-- The year a day lies in, and its number in that year. -/
def findYear : Nat → Nat → Nat → Nat × Nat
  | 0, y, d => (y, d)
  | fuel + 1, y, d => if d < yearLength y then (y, d) else findYear fuel (y + 1) (d - yearLength y)

/-- The month a day of the year lies in (from 0), and its number in that month. -/
def findMonth (y : Nat) : Nat → Nat → Nat → Nat × Nat
  | 0, m, d => (m, d)
  | fuel + 1, m, d => if d < monthLength y (m + 1) then (m, d) else findMonth y fuel (m + 1) (d - monthLength y (m + 1))

theorem findYear_spec (fuel y d : Nat) (h : d < 365 * fuel) :
    daysOfYears (findYear fuel y d).1 + (findYear fuel y d).2 = daysOfYears y + d ∧
    (findYear fuel y d).2 < yearLength (findYear fuel y d).1 := by
  induction fuel generalizing y d with
  | zero => omega
  | succ fuel ih =>
    rw [findYear]
    by_cases hd : d < yearLength y
    · rw [if_pos hd]
      exact ⟨rfl, hd⟩
    · rw [if_neg hd]
      have hl : 365 ≤ yearLength y := by
        unfold yearLength
        split <;> omega
      obtain ⟨i1, i2⟩ := ih (y + 1) (d - yearLength y) (by omega)
      refine ⟨?_, i2⟩
      rw [i1, daysOfYears]
      omega

theorem findMonth_spec (y fuel m d : Nat) (h : daysOfMonths y m + d < daysOfMonths y (m + fuel)) :
    daysOfMonths y (findMonth y fuel m d).1 + (findMonth y fuel m d).2 = daysOfMonths y m + d ∧
    (findMonth y fuel m d).2 < monthLength y ((findMonth y fuel m d).1 + 1) ∧ (findMonth y fuel m d).1 < m + fuel := by
  induction fuel generalizing m d with
  | zero =>
    rw [Nat.add_zero] at h
    omega
  | succ fuel ih =>
    rw [findMonth]
    by_cases hd : d < monthLength y (m + 1)
    · rw [if_pos hd]
      exact ⟨rfl, hd, by omega⟩
    · rw [if_neg hd]
      have e : daysOfMonths y (m + 1) + (d - monthLength y (m + 1)) = daysOfMonths y m + d := by
        rw [daysOfMonths]
        omega
      obtain ⟨i1, i2, i3⟩ := ih (m + 1) (d - monthLength y (m + 1)) (by
        rw [e, show m + 1 + fuel = m + (fuel + 1) by omega]
        exact h)
      exact ⟨by rw [i1, e], i2, by omega⟩

/-- The days since 0000-01-01. -/
def dayOf (t : Int) : Nat := (t / 86400 + 719528).toNat

/-- One `gmtime_r` that does what POSIX says. -/
def gmtime0 (t : Int) : Option Tm :=
  some
    { sec := (t % 86400).toNat % 60, min := (t % 86400).toNat / 60 % 60, hour := (t % 86400).toNat / 3600
      year := (findYear 10008 0 (dayOf t)).1
      yday := (findYear 10008 0 (dayOf t)).2
      mon := (findMonth (findYear 10008 0 (dayOf t)).1 12 0 (findYear 10008 0 (dayOf t)).2).1
      mday := (findMonth (findYear 10008 0 (dayOf t)).1 12 0 (findYear 10008 0 (dayOf t)).2).2 + 1
      wday := (dayOf t + 6) % 7 }

theorem gmtime0_posix : Posix gmtime0 := by
  intro t ht
  refine ⟨_, rfl, ?_⟩
  unfold InRange at ht
  have hd : ((dayOf t : Nat) : Int) = t / 86400 + 719528 := by
    unfold dayOf
    omega
  obtain ⟨y1, y2⟩ := findYear_spec 10008 0 (dayOf t) (by omega)
  generalize hY : (findYear 10008 0 (dayOf t)).1 = Y at *
  generalize hD : (findYear 10008 0 (dayOf t)).2 = D at *
  obtain ⟨m1, m2, m3⟩ := findMonth_spec Y 12 0 D (by
    rw [show daysOfMonths Y 0 = 0 from rfl, show (0 + 12) = 12 from rfl, year_months]
    omega)
  generalize (findMonth Y 12 0 D).1 = M at *
  generalize (findMonth Y 12 0 D).2 = E at *
  have hy := years Y
  rw [show daysOfYears 0 = 0 from rfl] at y1
  rw [show daysOfMonths Y 0 = 0 from rfl] at m1
  have hb := months Y M (by omega)
  have hb1 := months Y (M + 1) (by omega)
  rw [daysOfMonths] at hb1
  constructor
  · show (t % 86400).toNat % 60 < 60
    omega
  · show (t % 86400).toNat / 60 % 60 < 60
    omega
  · show (t % 86400).toNat / 3600 < 24
    omega
  · show M < 12
    omega
  · show 1 ≤ E + 1
    omega
  · show D = before Y M + (E + 1) - 1
    omega
  · show D < before Y (M + 1)
    omega
  · show t = ((t % 86400).toNat % 60 : Nat) + 60 * ((t % 86400).toNat / 60 % 60 : Nat) + 3600 * ((t % 86400).toNat / 3600 : Nat) +
      86400 * ((D : Int) + yearDays Y)
    omega
  · show (((dayOf t + 6) % 7 : Nat) : Int) = ((D : Int) + yearDays Y + 4) % 7
    omega

end Fly.Date
