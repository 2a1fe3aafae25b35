import Verif.Header.Model

/-! # The dates of responses: src/ftime.c, src/header.c, src/worker.c

`gmtime_r` and `strftime` belong to the C library.  `gmtime_r` is any function that does what POSIX says of it
(`Posix`); `strftime` is modelled for the one format that is used.  Times are those of the years 1000 to 9999. -/

namespace Fly.Date
open Fly.Header (HList)

/-- `struct tm`; `year` is `tm_year + 1900`. -/
structure Tm where
  sec : Nat
  min : Nat
  hour : Nat
  mday : Nat
  mon : Nat
  year : Nat
  wday : Nat
  yday : Nat
  deriving DecidableEq, Repr

/-- `%a` and `%b` of the locale (category LC_TIME) of the process. -/
structure Locale where
  day : Nat → Bytes
  mon : Nat → Bytes

/-- The locale "C", in which a process is that has not called `setlocale`. -/
def localeC : Locale where
  day := fun n => [b!"Sun", b!"Mon", b!"Tue", b!"Wed", b!"Thu", b!"Fri", b!"Sat"].getD n []
  mon := fun n => [b!"Jan", b!"Feb", b!"Mar", b!"Apr", b!"May", b!"Jun", b!"Jul", b!"Aug", b!"Sep", b!"Oct", b!"Nov", b!"Dec"].getD n []

/-- `%d`, `%H`, `%M`, `%S`. -/
def two (n : Nat) : Bytes := [48 + n / 10 % 10, 48 + n % 10]

/-- `%Y` for years of four digits. -/
def four (n : Nat) : Bytes := [48 + n / 1000 % 10, 48 + n / 100 % 10, 48 + n / 10 % 10, 48 + n % 10]

/-- `FLY_IMT_FIXDATE_FORMAT`, src/ftime.h:20: `%a, %d %b %Y %H:%M:%S GMT`. -/
def format (loc : Locale) (g : Tm) : Bytes :=
  loc.day g.wday ++ b!", " ++ two g.mday ++ b!" " ++ loc.mon g.mon ++ b!" " ++ four g.year ++ b!" " ++ two g.hour ++ b!":" ++
    two g.min ++ b!":" ++ two g.sec ++ b!" GMT"

/-- `strftime(buf, buflen, FLY_IMT_FIXDATE_FORMAT, &gmtm)`, src/ftime.c:76; `none` is the result 0: the text and its NUL
do not fit. -/
def strftime (loc : Locale) (buflen : Nat) (g : Tm) : Option Bytes :=
  if (format loc g).length + 1 ≤ buflen then some (format loc g) else none

/-- `fly_imt_fixdate`, src/ftime.c:67-80; `none` is -1. -/
def fixdate (loc : Locale) (gmtime : Int → Option Tm) (buflen : Nat) (t : Int) : Option Bytes :=
  match gmtime t with
  | none => none
  | some g => strftime loc buflen g

/-- `FLY_DATE_LENGTH`, src/header.h:20, src/mount.h:25. -/
def dateLength : Nat := 50

/-- The text of `Date`: `fly_add_date`, src/header.c:406-415; `now` is `time(NULL)`. -/
def dateText (loc : Locale) (gmtime : Int → Option Tm) (now : Int) : Option Bytes := fixdate loc gmtime dateLength now

/-- `fly_add_date` over HTTP/1, src/header.c:406-421: without a text nothing is added. -/
def addDate (loc : Locale) (gmtime : Int → Option Tm) (now : Int) (h : HList) : Option HList :=
  match dateText loc gmtime now with
  | none => some h
  | some s => Header.addIfNo h b!"Date" s

/-- The same over HTTP/2. -/
def addDateV2 (loc : Locale) (gmtime : Int → Option Tm) (now : Int) (h : HList) : HList :=
  match dateText loc gmtime now with
  | none => h
  | some s => Header.addVerIfNo h b!"date" s

/-- The text of `Last-Modified`: `last_modified`, src/worker.c:269, 920; `none` is the failure of the worker. -/
def lastModified (loc : Locale) (gmtime : Int → Option Tm) (mtime : Int) : Option Bytes := fixdate loc gmtime dateLength mtime

/-- `fly_add_last_modified`, src/header.c:483-489. -/
def addLastModified (h : HList) (text : Bytes) (v2 : Bool) : HList :=
  if v2 then Header.add h b!"last-modified" text false else Header.add h b!"Last-Modified" text false

/-! ## What POSIX says of `gmtime_r` -/

/-- Leap years. -/
def leap (y : Nat) : Bool := (y % 4 == 0 && y % 100 != 0) || y % 400 == 0

/-- The days of the year before each month. -/
def before (y m : Nat) : Nat := [0, 31, 59, 90, 120, 151, 181, 212, 243, 273, 304, 334, 365].getD m 0 + (if leap y && decide (2 ≤ m) then 1 else 0)

/-- Days from 1970-01-01 to the first day of a year, as in POSIX, Base Definitions, 4.19 "Seconds Since the Epoch". -/
def yearDays (y : Nat) : Int := 365 * (y - 1970) + ((y : Int) - 1969) / 4 - ((y : Int) - 1901) / 100 + ((y : Int) - 1601) / 400

/-- The broken-down time of `t`. -/
structure Broken (t : Int) (g : Tm) : Prop where
  sec : g.sec < 60
  min : g.min < 60
  hour : g.hour < 24
  mon : g.mon < 12
  mday : 1 ≤ g.mday
  yday : g.yday = before g.year g.mon + g.mday - 1
  month : g.yday < before g.year (g.mon + 1)
  seconds : t = g.sec + 60 * g.min + 3600 * g.hour + 86400 * (g.yday + yearDays g.year)
  wday : (g.wday : Int) = (g.yday + yearDays g.year + 4) % 7

/-- The times of the years 1000 to 9999. -/
def InRange (t : Int) : Prop := -30610224000 ≤ t ∧ t < 253402300800

/-- `gmtime_r` gives the broken-down time. -/
def Posix (gmtime : Int → Option Tm) : Prop := ∀ t, InRange t → ∃ g, gmtime t = some g ∧ Broken t g

end Fly.Date
