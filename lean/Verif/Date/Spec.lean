import Verif.Basic

/-! # HTTP dates (RFC 9110, section 5.6.7, IMF-fixdate), by counting days

Independent of the model. -/

namespace Fly.Date.Spec

def isLeap (y : Nat) : Prop := y % 400 = 0 ∨ (y % 4 = 0 ∧ y % 100 ≠ 0)

instance (y : Nat) : Decidable (isLeap y) := by unfold isLeap; infer_instance

def yearLength (y : Nat) : Nat := if isLeap y then 366 else 365

/-- The months are numbered from 1. -/
def monthLength (y m : Nat) : Nat :=
  if m = 2 then (if isLeap y then 29 else 28) else if m = 4 ∨ m = 6 ∨ m = 9 ∨ m = 11 then 30 else 31

/-- The days of all years before. -/
def daysOfYears : Nat → Nat
  | 0 => 0
  | y + 1 => daysOfYears y + yearLength y

/-- The days of the months 1 to m. -/
def daysOfMonths (y : Nat) : Nat → Nat
  | 0 => 0
  | m + 1 => daysOfMonths y m + monthLength y (m + 1)

/-- A date and a time of day. -/
structure Moment where
  year : Nat
  month : Nat
  day : Nat
  hour : Nat
  minute : Nat
  second : Nat
  deriving DecidableEq, Repr

structure Moment.Valid (x : Moment) : Prop where
  year : x.year < 10000
  month : 1 ≤ x.month ∧ x.month ≤ 12
  day : 1 ≤ x.day ∧ x.day ≤ monthLength x.year x.month
  hour : x.hour < 24
  minute : x.minute < 60
  second : x.second < 60

/-- How many days after 0000-01-01. -/
def Moment.dayNumber (x : Moment) : Nat := daysOfYears x.year + daysOfMonths x.year (x.month - 1) + (x.day - 1)

/-- Seconds since 1970-01-01 00:00:00, which is day 719528. -/
def Moment.time (x : Moment) : Int := ((x.dayNumber : Int) - 719528) * 86400 + x.hour * 3600 + x.minute * 60 + x.second

/-- 1970-01-01 was a Thursday. -/
def Moment.dayName (x : Moment) : Bytes :=
  match (x.dayNumber + 2) % 7 with
  | 0 => b!"Thu"
  | 1 => b!"Fri"
  | 2 => b!"Sat"
  | 3 => b!"Sun"
  | 4 => b!"Mon"
  | 5 => b!"Tue"
  | _ => b!"Wed"

def monthName : Nat → Bytes
  | 1 => b!"Jan"
  | 2 => b!"Feb"
  | 3 => b!"Mar"
  | 4 => b!"Apr"
  | 5 => b!"May"
  | 6 => b!"Jun"
  | 7 => b!"Jul"
  | 8 => b!"Aug"
  | 9 => b!"Sep"
  | 10 => b!"Oct"
  | 11 => b!"Nov"
  | _ => b!"Dec"

/-- `k` decimal digits. -/
def digits : Nat → Nat → Bytes
  | 0, _ => []
  | k + 1, n => digits k (n / 10) ++ [48 + n % 10]

/-- `Sun, 06 Nov 1994 08:49:37 GMT`. -/
def Moment.text (x : Moment) : Bytes :=
  x.dayName ++ b!", " ++ digits 2 x.day ++ b!" " ++ monthName x.month ++ b!" " ++ digits 4 x.year ++ b!" " ++
    digits 2 x.hour ++ b!":" ++ digits 2 x.minute ++ b!":" ++ digits 2 x.second ++ b!" GMT"

/-- The text is the HTTP date of the time `t`. -/
def HttpDate (s : Bytes) (t : Int) : Prop := ∃ x : Moment, x.Valid ∧ x.time = t ∧ x.text = s

end Fly.Date.Spec
