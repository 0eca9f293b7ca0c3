import Verif.Model.DateTime

/-!
# What a decomposed instant must say

`Describes cal ns tp` relates the fields of the output for the instant `ns` nanoseconds after
1970-01-01T00:00:00Z to the calendar `cal`, one field at a time.
-/

namespace Feat

/-- Nanoseconds in a day. -/
def dayNs : Int := 86400 * 1000000000

/-- The days of the week, by day number: day 0 was a Thursday; 0 stands for Sunday. -/
def weekdayOf (n : Int) : Int := (n + 4) % 7

/-- The contract of `gmtime_r` for seconds that 64-bit nanoseconds can reach. -/
structure GmtimeFields (cal : Int → CDate) (t : Int) (tm : Tm) : Prop where
  date : cal (t / 86400) = ⟨tm.year + 1900, tm.mon + 1, tm.mday⟩
  hour : tm.hour = t % 86400 / 3600
  min : tm.min = t % 3600 / 60
  sec : tm.sec = t % 60
  wday : tm.wday = weekdayOf (t / 86400)
  yday : cal (t / 86400 - tm.yday) = ⟨tm.year + 1900, 1, 1⟩
  yday0 : 0 ≤ tm.yday
  yday365 : tm.yday ≤ 365

/-- The C library converts every second that 64-bit nanoseconds can reach. -/
def IsGmtime (cal : Int → CDate) (gmtime : Int → Option Tm) : Prop :=
  ∀ t, -(2 ^ 34) ≤ t → t ≤ 2 ^ 34 → ∃ tm, gmtime t = some tm ∧ GmtimeFields cal t tm

/-- The output `tp` describes the instant `ns` nanoseconds after the epoch. -/
structure TimeParts.Describes (cal : Int → CDate) (ns : Int) (tp : TimeParts) : Prop where
  /-- the calendar date -/
  date : cal (ns / dayNs) = ⟨tp.year, tp.month, tp.day⟩
  /-- the time of the day -/
  minute : 0 ≤ tp.minute ∧ tp.minute ≤ 59
  second : 0 ≤ tp.second ∧ tp.second ≤ 59
  time : tp.hour * 3600 + tp.minute * 60 + tp.second = ns % dayNs / 1000000000
  amPm : tp.amPm = if tp.hour < 12 then 0 else 1
  amPmLabel : tp.amPmLabel = if tp.hour < 12 then "am" else "pm"
  hour12 : 0 ≤ tp.hour12 ∧ tp.hour12 ≤ 12 ∧ (12 : Int) ∣ tp.hour - tp.hour12
  /-- the day of the week, 0 being Sunday -/
  dayOfWeek : tp.dayOfWeek = weekdayOf (ns / dayNs)
  dayOfWeekLabel : tp.dayOfWeekLabel =
    ["Sunday", "Monday", "Tuesday", "Wednesday", "Thursday", "Friday", "Saturday"].getD
      (weekdayOf (ns / dayNs)).toNat ""
  monthLabel : tp.monthLabel =
    ["January", "February", "March", "April", "May", "June", "July", "August", "September",
      "October", "November", "December"].getD (tp.month - 1).toNat ""
  /-- the quarter holds the month; its first day is `dayOfQuarter - 1` days earlier -/
  quarter : 3 * tp.quarterOfYear - 2 ≤ tp.month ∧ tp.month ≤ 3 * tp.quarterOfYear
  quarterRange : 1 ≤ tp.quarterOfYear ∧ tp.quarterOfYear ≤ 4
  dayOfQuarter : cal (ns / dayNs - (tp.dayOfQuarter - 1)) = ⟨tp.year, 3 * tp.quarterOfYear - 2, 1⟩
  dayOfQuarterRange : 1 ≤ tp.dayOfQuarter ∧ tp.dayOfQuarter ≤ 92
  half : tp.halfOfYear = if tp.quarterOfYear ≤ 2 then 1 else 2
  /-- January 1 is `dayOfYear` days earlier -/
  dayOfYear : cal (ns / dayNs - tp.dayOfYear) = ⟨tp.year, 1, 1⟩
  dayOfYearRange : 0 ≤ tp.dayOfYear ∧ tp.dayOfYear ≤ 365
  weekOfMonth : 7 * tp.weekOfMonth + 1 ≤ tp.day ∧ tp.day ≤ 7 * tp.weekOfMonth + 7
  weekOfMonthRange : 0 ≤ tp.weekOfMonth ∧ tp.weekOfMonth ≤ 4

/-- `(year, week)` is the ISO 8601 week of day `n`: weeks run from Monday to Sunday, a week belongs
to the year that its Thursday lies in, and weeks are numbered from 1, the week of the year's first
Thursday. -/
structure IsIsoWeek (cal : Int → CDate) (n year week : Int) : Prop where
  holds : ∃ monday firstThursday : Int,
    weekdayOf monday = 1 ∧ monday ≤ n ∧ n ≤ monday + 6 ∧
    (cal (monday + 3)).y = year ∧
    weekdayOf firstThursday = 4 ∧ (cal firstThursday).y = year ∧ (cal (firstThursday - 7)).y < year ∧
    monday + 3 = firstThursday + 7 * (week - 1) ∧ 1 ≤ week

/-- `quot s` is a correctly rounded `double` quotient of `s` by 86400: exact if the quotient is an
integer, else within a relative error of 2⁻⁵³. -/
structure IsDoubleQuotient (quot : Int → Rat) : Prop where
  exact : ∀ s : Int, -(2 ^ 34) ≤ s → s ≤ 2 ^ 34 → (86400 : Int) ∣ s → quot s = (s / 86400 : Int)
  close : ∀ s : Int, -(2 ^ 34) ≤ s → s ≤ 2 ^ 34 →
    |quot s - (s : Rat) / 86400| * 2 ^ 53 ≤ |(s : Rat) / 86400|

/-- The name recorded for a date: the last one in the table. -/
def recordedHoliday (table : List (Int × Str)) (date : Int) : Option Str :=
  (table.reverse.find? (fun e => e.1 == date)).map (·.2)

end Feat
