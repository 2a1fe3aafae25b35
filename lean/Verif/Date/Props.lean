import Verif.Date.Lemmas
import Verif.Header.Props

/-! # C183, C184: the dates of responses -/

namespace Fly.Date
open Spec
open Fly.Header (HList HField)

theorem dayName_length (x : Moment) : x.dayName.length = 3 := by
  unfold Moment.dayName
  split <;> rfl

theorem monthName_length (m : Nat) : (monthName m).length = 3 := by
  unfold monthName
  split <;> rfl

theorem digits_length (k n : Nat) : (digits k n).length = k := by
  induction k generalizing n with
  | zero => rfl
  | succ k ih => rw [digits, List.length_append, ih]; rfl

theorem digits_inj (k a b : Nat) (ha : a < 10 ^ k) (hb : b < 10 ^ k) (h : digits k a = digits k b) : a = b := by
  induction k generalizing a b with
  | zero => omega
  | succ k ih =>
    rw [digits, digits] at h
    obtain ⟨h1, h2⟩ := List.append_inj' h rfl
    rw [Nat.pow_succ] at ha hb
    have e := ih (a / 10) (b / 10) (by omega) (by omega) h1
    have e2 : 48 + a % 10 = 48 + b % 10 := by simpa using h2
    omega

theorem monthName_inj (a b : Nat) (ha : 1 ≤ a ∧ a ≤ 12) (hb : 1 ≤ b ∧ b ≤ 12) (h : monthName a = monthName b) : a = b := by
  have key : ∀ i : Fin 12, ∀ j : Fin 12, monthName (i.val + 1) = monthName (j.val + 1) → i = j := by decide
  have := key ⟨a - 1, by omega⟩ ⟨b - 1, by omega⟩ (by
    show monthName (a - 1 + 1) = monthName (b - 1 + 1)
    rw [Nat.sub_add_cancel ha.1, Nat.sub_add_cancel hb.1]
    exact h)
  have := congrArg Fin.val this
  simp only at this
  omega

theorem text_length (x : Moment) : x.text.length = 29 := by
  unfold Moment.text
  simp only [List.length_append, dayName_length, monthName_length, digits_length]
  rfl

/-- An HTTP date stands for one time … -/
theorem httpDate_time {s : Bytes} {t t' : Int} (h : HttpDate s t) (h' : HttpDate s t') : t = t' := by
  obtain ⟨x, vx, rfl, rfl⟩ := h
  obtain ⟨y, vy, rfl, e⟩ := h'
  have hx := vx.month
  have hy := vy.month
  have dx := vx.day
  have dy := vy.day
  have lx : monthLength x.year x.month ≤ 31 := by
    unfold monthLength
    split
    · split <;> omega
    · split <;> omega
  have ly : monthLength y.year y.month ≤ 31 := by
    unfold monthLength
    split
    · split <;> omega
    · split <;> omega
  have a1 := vx.year
  have a2 := vx.hour
  have a3 := vx.minute
  have a4 := vx.second
  have b1 := vy.year
  have b2 := vy.hour
  have b3 := vy.minute
  have b4 := vy.second
  unfold Moment.text at e
  obtain ⟨e, _⟩ := List.append_inj' e rfl
  obtain ⟨e, q1⟩ := List.append_inj' e (by rw [digits_length, digits_length])
  obtain ⟨e, _⟩ := List.append_inj' e rfl
  obtain ⟨e, q2⟩ := List.append_inj' e (by rw [digits_length, digits_length])
  obtain ⟨e, _⟩ := List.append_inj' e rfl
  obtain ⟨e, q3⟩ := List.append_inj' e (by rw [digits_length, digits_length])
  obtain ⟨e, _⟩ := List.append_inj' e rfl
  obtain ⟨e, q4⟩ := List.append_inj' e (by rw [digits_length, digits_length])
  obtain ⟨e, _⟩ := List.append_inj' e rfl
  obtain ⟨e, q5⟩ := List.append_inj' e (by rw [monthName_length, monthName_length])
  obtain ⟨e, _⟩ := List.append_inj' e rfl
  obtain ⟨e, q6⟩ := List.append_inj' e (by rw [digits_length, digits_length])
  have r1 := digits_inj _ _ _ (by omega) (by omega) q1
  have r2 := digits_inj _ _ _ (by omega) (by omega) q2
  have r3 := digits_inj _ _ _ (by omega) (by omega) q3
  have r4 := digits_inj _ _ _ (by omega) (by omega) q4
  have r5 := monthName_inj _ _ hy hx q5
  have r6 := digits_inj _ _ _ (by omega) (by omega) q6
  obtain ⟨xy, xm, xd, xh, xi, xs⟩ := x
  obtain ⟨yy, ym, yd, yh, yi, ys⟩ := y
  simp only at r1 r2 r3 r4 r5 r6
  rw [r1, r2, r3, r4, r5, r6]

/-- … and a time has one HTTP date. -/
theorem httpDate_text {s s' : Bytes} {t : Int} (h : HttpDate s t) (h' : HttpDate s' t) : s = s' := by
  obtain ⟨x, vx, e1, rfl⟩ := h
  obtain ⟨y, vy, e2, rfl⟩ := h'
  rw [moment_unique vx vy (e1.trans e2.symm)]

theorem strftime_C {t : Int} {g : Tm} (b : Broken t g) :
    format localeC g = (moment g).text ∧ strftime localeC dateLength g = some (moment g).text := by
  have e : format localeC g = (moment g).text := by
    unfold format
    rw [day_eq b, mon_eq _ b.mon, four_eq]
    rfl
  refine ⟨e, ?_⟩
  unfold strftime
  rw [e, if_pos (by rw [text_length]; decide)]

/-- **C183.** In a program that does not set a locale: for every time from the year 1000 to the year 9999 the text the
server makes is the HTTP date of that time, 29 characters long, whatever `gmtime_r` it is that does what POSIX says. -/
theorem C183_http_date (gmtime : Int → Option Tm) (hg : Posix gmtime) (t : Int) (ht : InRange t) :
    ∃ s, fixdate localeC gmtime dateLength t = some s ∧ HttpDate s t ∧ s.length = 29 := by
  obtain ⟨g, h1, b⟩ := hg t ht
  refine ⟨(moment g).text, ?_, ⟨moment g, broken_valid b ht, broken_time b, rfl⟩, text_length _⟩
  unfold fixdate
  rw [h1]
  exact (strftime_C b).2

/-- The `gmtime_r` of the examples does what POSIX says; a date of last week. -/
example : Posix gmtime0 ∧ InRange 1794844800 ∧
    fixdate localeC gmtime0 dateLength 1794844800 = some b!"Mon, 16 Nov 2026 16:00:00 GMT" ∧
    fixdate localeC gmtime0 dateLength 784111777 = some b!"Sun, 06 Nov 1994 08:49:37 GMT" ∧
    fixdate localeC gmtime0 dateLength (-1) = some b!"Wed, 31 Dec 1969 23:59:59 GMT" ∧
    fixdate localeC gmtime0 dateLength 951782400 = some b!"Tue, 29 Feb 2000 00:00:00 GMT" := by
  refine ⟨gmtime0_posix, by unfold InRange; decide, by decide +kernel, by decide +kernel, by decide +kernel, by decide +kernel⟩

/-- **C183 (Date).** Over HTTP/1 every response without a `Date` of the application's own gets one `Date` field, which is
the HTTP date of the time it was made, and nothing else changes; an application's own one is kept. -/
theorem C183_date_field (gmtime : Int → Option Tm) (hg : Posix gmtime) (now : Int) (ht : InRange now) (h : HList) :
    (Header.findStr b!"Date" h.items = some none → ∃ s, HttpDate s now ∧
      addDate localeC gmtime now h = some ⟨h.items ++ [⟨some b!"Date", some s⟩], h.count + 1⟩) ∧
    (∀ i, Header.findStr b!"Date" h.items = some (some i) → addDate localeC gmtime now h = some h) := by
  obtain ⟨s, h1, h2, h3⟩ := C183_http_date gmtime hg now ht
  have hs : s ≠ [] := fun e => by rw [e] at h3; cases h3
  constructor
  · intro hf
    refine ⟨s, h2, ?_⟩
    unfold addDate dateText
    rw [h1]
    simp only [Header.addIfNo, hf, Header.add]
    congr 2
    cases s with
    | nil => exact absurd rfl hs
    | cons x s => rfl
  · intro i hf
    unfold addDate dateText
    rw [h1]
    simp only [Header.addIfNo, hf]

example : addDate localeC gmtime0 784111777 ⟨[⟨some b!"Server", some b!"fly"⟩], 1⟩ =
    some ⟨[⟨some b!"Server", some b!"fly"⟩, ⟨some b!"Date", some b!"Sun, 06 Nov 1994 08:49:37 GMT"⟩], 2⟩ := by
  decide +kernel

/-- **C183 (Date over HTTP/2).** The same for the field `date`. -/
theorem C183_date_field_h2 (gmtime : Int → Option Tm) (hg : Posix gmtime) (now : Int) (ht : InRange now) (h : HList)
    (hf : h.items.any (Header.sameLenName · b!"date") = false) :
    ∃ s, HttpDate s now ∧ addDateV2 localeC gmtime now h = ⟨h.items ++ [⟨some b!"date", some s⟩], h.count + 1⟩ := by
  obtain ⟨s, h1, h2, h3⟩ := C183_http_date gmtime hg now ht
  refine ⟨s, h2, ?_⟩
  unfold addDateV2 dateText
  rw [h1]
  simp only [Header.addVerIfNo, hf, Header.add]
  cases s with
  | nil => cases h3
  | cons x s => rfl

/-- **C183 (Last-Modified).** The field of a file is the HTTP date of its modification time, in both protocols; two
modification times give the same text only if they are the same second. -/
theorem C183_last_modified (gmtime : Int → Option Tm) (hg : Posix gmtime) (mtime : Int) (ht : InRange mtime) :
    ∃ s, lastModified localeC gmtime mtime = some s ∧ HttpDate s mtime ∧
      (∀ h, addLastModified h s false = ⟨h.items ++ [⟨some b!"Last-Modified", some s⟩], h.count + 1⟩) ∧
      (∀ h, addLastModified h s true = ⟨h.items ++ [⟨some b!"last-modified", some s⟩], h.count + 1⟩) ∧
      ∀ m, InRange m → lastModified localeC gmtime m = some s → m = mtime := by
  obtain ⟨s, h1, h2, h3⟩ := C183_http_date gmtime hg mtime ht
  refine ⟨s, h1, h2, fun h => ?_, fun h => ?_, fun m hm he => ?_⟩
  · cases s with
    | nil => cases h3
    | cons x s => rfl
  · cases s with
    | nil => cases h3
    | cons x s => rfl
  · obtain ⟨s', g1, g2, _⟩ := C183_http_date gmtime hg m hm
    unfold lastModified at he
    rw [g1] at he
    cases he
    exact httpDate_time g2 h2

/-! ## Locales -/

theorem cut_unique {c : Nat} {a b a' b' : Bytes} (ha : c ∉ a) (ha' : c ∉ a') (h : a ++ c :: b = a' ++ c :: b') : a = a' ∧ b = b' := by
  induction a generalizing a' with
  | nil =>
    cases a' with
    | nil => exact ⟨rfl, by simpa using h⟩
    | cons x a' =>
      have : c = x := by simpa using (List.cons.inj h).1
      exact absurd (this ▸ List.mem_cons_self) ha'
  | cons y a ih =>
    cases a' with
    | nil =>
      have : y = c := by simpa using (List.cons.inj h).1
      exact absurd (this ▸ List.mem_cons_self) ha
    | cons x a' =>
      obtain ⟨e1, e2⟩ := List.cons.inj h
      obtain ⟨i1, i2⟩ := ih (fun m => ha (List.mem_cons_of_mem _ m)) (fun m => ha' (List.mem_cons_of_mem _ m)) e2
      exact ⟨by rw [e1, i1], i2⟩

/-- The names of a locale are English. -/
def English (loc : Locale) : Prop := (∀ n, n < 7 → loc.day n = localeC.day n) ∧ (∀ n, n < 12 → loc.mon n = localeC.mon n)

/-- **C184** (partial: locales with English names). In such a locale the dates are the HTTP dates. -/
theorem C184_english_partial (loc : Locale) (hl : English loc) (gmtime : Int → Option Tm) (hg : Posix gmtime) (t : Int) (ht : InRange t) :
    ∃ s, fixdate loc gmtime dateLength t = some s ∧ HttpDate s t := by
  obtain ⟨s, h1, h2, _⟩ := C183_http_date gmtime hg t ht
  refine ⟨s, ?_, h2⟩
  obtain ⟨g, e, b⟩ := hg t ht
  have hw : g.wday < 7 := by
    have := b.wday
    omega
  unfold fixdate at h1 ⊢
  rw [e] at h1 ⊢
  simp only [strftime, format, hl.1 _ hw, hl.2 _ b.mon] at h1 ⊢
  exact h1

/-- **C184** is false: in a program that has set a locale (`locale.setlocale(locale.LC_ALL, "")`), on every day whose
name, and in every month whose name, is not the English one, what is sent is not the HTTP date of the time. -/
theorem C184_locale_refuted (loc : Locale) (gmtime : Int → Option Tm) (hg : Posix gmtime) (t : Int) (ht : InRange t) (g : Tm)
    (hgt : gmtime t = some g) (hday : 44 ∉ loc.day g.wday) (hmon : 32 ∉ loc.mon g.mon)
    (hne : loc.day g.wday ≠ localeC.day g.wday ∨ loc.mon g.mon ≠ localeC.mon g.mon) :
    ∀ s, fixdate loc gmtime dateLength t = some s → ¬HttpDate s t := by
  intro s hs hd
  obtain ⟨g', e, b⟩ := hg t ht
  rw [hgt] at e
  cases e
  have hD : HttpDate (moment g).text t := ⟨moment g, broken_valid b ht, broken_time b, rfl⟩
  have he := httpDate_text hd hD
  have hs' : s = format loc g := by
    unfold fixdate at hs
    rw [hgt] at hs
    simp only at hs
    unfold strftime at hs
    split at hs
    · exact (Option.some.inj hs).symm
    · cases hs
  have h : format loc g = format localeC g := by rw [← hs', he, (strftime_C b).1]
  have r : ∀ l : Locale, format l g = l.day g.wday ++ 44 :: (32 :: (two g.mday ++ 32 :: (l.mon g.mon ++ 32 :: (four g.year ++ b!" " ++ two g.hour ++
      b!":" ++ two g.min ++ b!":" ++ two g.sec ++ b!" GMT")))) := by
    intro l
    unfold format
    simp only [List.append_assoc, List.cons_append, List.nil_append]
  rw [r, r] at h
  have c1 : 44 ∉ localeC.day g.wday := by
    rw [day_eq b]
    unfold Moment.dayName
    split <;> decide
  have c2 : 32 ∉ localeC.mon g.mon := by
    rw [mon_eq _ b.mon]
    unfold monthName
    split <;> decide
  obtain ⟨e1, e2⟩ := cut_unique hday c1 h
  have e3 := List.append_cancel_left (List.cons.inj e2).2
  obtain ⟨e4, _⟩ := cut_unique hmon c2 (List.cons.inj e3).2
  rcases hne with h | h
  · exact h e1
  · exact h e4

/-- The German names. -/
def german : Locale where
  day := fun n => [b!"So", b!"Mo", b!"Di", b!"Mi", b!"Do", b!"Fr", b!"Sa"].getD n []
  mon := fun n => [b!"Jan", b!"Feb", b!"Mär", b!"Apr", b!"Mai", b!"Jun", b!"Jul", b!"Aug", b!"Sep", b!"Okt", b!"Nov", b!"Dez"].getD n []

example : fixdate german gmtime0 dateLength 784111777 = some b!"So, 06 Nov 1994 08:49:37 GMT" ∧
    german.day 0 ≠ localeC.day 0 ∧ (∀ n, n < 7 → 44 ∉ german.day n) ∧ (∀ n, n < 12 → 32 ∉ german.mon n) := by
  refine ⟨by decide +kernel, by decide, by decide, by decide⟩

end Fly.Date
