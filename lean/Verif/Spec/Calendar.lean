/-!
# The proleptic Gregorian calendar, written independently of any algorithm

A calendar is a numbering of the days by the integers such that day 0 is 1970-01-01 and day `n + 1`
carries the date that follows the date of day `n`.  `IsCalendar` says just that; it is shown in
`Verif/Proofs/Calendar.lean` that exactly one function satisfies it.
-/

namespace Feat

/-- A calendar date. -/
structure CDate where
  y : Int
  m : Int
  d : Int
deriving DecidableEq

/-- The Gregorian leap year rule. -/
def leapYear (y : Int) : Prop := 4 ∣ y ∧ (¬ 100 ∣ y ∨ 400 ∣ y)

instance (y : Int) : Decidable (leapYear y) := by unfold leapYear; infer_instance

/-- The number of days of a month: thirty days hath September, ... -/
def monthLen (y m : Int) : Int :=
  if m = 2 then (if leapYear y then 29 else 28)
  else if m = 4 ∨ m = 6 ∨ m = 9 ∨ m = 11 then 30
  else 31

/-- A date that exists. -/
structure CDate.Valid (x : CDate) : Prop where
  m1 : 1 ≤ x.m
  m12 : x.m ≤ 12
  d1 : 1 ≤ x.d
  dlen : x.d ≤ monthLen x.y x.m

/-- The date that follows a date. -/
def CDate.next (x : CDate) : CDate :=
  if x.d < monthLen x.y x.m then ⟨x.y, x.m, x.d + 1⟩
  else if x.m < 12 then ⟨x.y, x.m + 1, 1⟩
  else ⟨x.y + 1, 1, 1⟩

/-- `f` is the proleptic Gregorian calendar: the date of each day, counted from 1970-01-01. -/
structure IsCalendar (f : Int → CDate) : Prop where
  epoch : f 0 = ⟨1970, 1, 1⟩
  succ : ∀ n, f (n + 1) = (f n).next
  valid : ∀ n, (f n).Valid

end Feat
