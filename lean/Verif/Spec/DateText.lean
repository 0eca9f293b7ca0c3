import Mathlib.Init
import Verif.Spec.Calendar
/-
Date-time texts of ISO 8601, written independently of the reader: four digits of the year, two digits of everything else.
-/
namespace Feat

/-- The last decimal digit of a number. -/
def digitChar (n : Nat) : UInt8 := UInt8.ofNat (48 + n % 10)

/-- A number below 100 in two digits. -/
def twoDigits (n : Nat) : List UInt8 := [digitChar (n / 10), digitChar n]

/-- A number below 10000 in four digits. -/
def fourDigits (n : Nat) : List UInt8 := [digitChar (n / 1000), digitChar (n / 100), digitChar (n / 10), digitChar n]

/-- A number in `k` digits. -/
def digitsOf : Nat → Nat → List UInt8
  | 0, _ => []
  | k + 1, n => digitsOf k (n / 10) ++ [digitChar n]

/-- The time zone of a text: `Z`, or a distance to the east or to the west of Greenwich. -/
inductive IsoZone where
  | utc
  | east (h m : Nat)
  | west (h m : Nat)

/-- Minutes to be subtracted from the local time to get universal time. -/
def IsoZone.minutes : IsoZone → Int
  | .utc => 0
  | .east h m => 60 * h + m
  | .west h m => -(60 * h + m)

/-- Two digits are enough. -/
def IsoZone.Fits : IsoZone → Prop
  | .utc => True
  | .east h m => h < 100 ∧ m < 100
  | .west h m => h < 100 ∧ m < 100

/-- A zone as text, with or without a colon (`Z`, `+01:00`, `+0100`). -/
def IsoZone.text (colon : Bool) : IsoZone → List UInt8
  | .utc => [90]
  | .east h m => [43] ++ twoDigits h ++ (if colon then [58] else []) ++ twoDigits m
  | .west h m => [45] ++ twoDigits h ++ (if colon then [58] else []) ++ twoDigits m

/-- A point in time as a text names it: date, time of day, and a fraction of a second of `places` decimals. -/
structure IsoTime where
  year : Nat
  month : Nat
  day : Nat
  hour : Nat
  minute : Nat
  second : Nat
  places : Nat
  fraction : Nat
  zone : IsoZone

/-- Every number fits the digits it has. -/
structure IsoTime.Fits (t : IsoTime) : Prop where
  year : t.year < 10000
  month : t.month < 100
  day : t.day < 100
  hour : t.hour < 100
  minute : t.minute < 100
  second : t.second < 100
  fraction : t.fraction < 10 ^ t.places
  zone : t.zone.Fits

/-- The separator of date and time. -/
inductive IsoSep where
  | t
  | blanks (n : Nat)

/-- The separator as text. -/
def IsoSep.text : IsoSep → List UInt8
  | .t => [84]
  | .blanks n => List.replicate (n + 1) 32

/-- Seconds, with their fraction if it has any decimals. -/
def IsoTime.seconds (t : IsoTime) : List UInt8 :=
  twoDigits t.second ++ (if t.places = 0 then [] else 46 :: digitsOf t.places t.fraction)

/-- The extended format, as in `2019-11-26T13:05:09.25+01:00`; the colon of the zone is optional. -/
def IsoTime.extended (t : IsoTime) (sep : IsoSep) (colon : Bool) : List UInt8 :=
  fourDigits t.year ++ [45] ++ twoDigits t.month ++ [45] ++ twoDigits t.day ++ sep.text ++
  twoDigits t.hour ++ [58] ++ twoDigits t.minute ++ [58] ++ t.seconds ++ t.zone.text colon

/-- The basic format, as in `20191126T130509.25+0100`. -/
def IsoTime.basic (t : IsoTime) (sep : IsoSep) : List UInt8 :=
  fourDigits t.year ++ twoDigits t.month ++ twoDigits t.day ++ sep.text ++
  twoDigits t.hour ++ twoDigits t.minute ++ t.seconds ++ t.zone.text false

/-- Seconds since 1970-01-01T00:00:00Z of the point in time, if its date is that of day `n` of the calendar. -/
def IsoTime.secondsSince (t : IsoTime) (n : Int) : Int :=
  n * 86400 + t.hour * 3600 + t.minute * 60 + t.second - t.zone.minutes * 60

namespace DateText

/-- The number of ticks of a point in time whose date is that of day `n`. -/
def ticksOf (width : Nat) (t : IsoTime) (n : Int) : Int :=
  t.secondsSince n * 10 ^ width + t.fraction * 10 ^ (width - t.places)

/-- The zone is not a negative one of less than an hour. -/
def ZoneOk (z : IsoZone) : Prop := ∀ m, z = .west 0 m → m = 0

/-- Local midnight and the instant itself lie within the range of the clock (the last tick excepted). -/
def InRange (width : Nat) (t : IsoTime) (n : Int) : Prop :=
  -2 ^ 63 ≤ (n * 86400 - t.zone.minutes * 60) * 10 ^ width ∧ ticksOf width t n < 2 ^ 63 - 1

/-! ### All texts that are accepted as date and time in universal time -/

/-- Decimal digits, from the most significant one, and the number they stand for. -/
inductive Numeral : List UInt8 → Nat → Prop
  | none : Numeral [] 0
  | digit {ds : List UInt8} {n : Nat} (d : Nat) : Numeral ds n → d < 10 → Numeral (ds ++ [UInt8.ofNat (48 + d)]) (10 * n + d)

/-- A number of one to `M` digits. -/
def Unsigned (M : Nat) (ds : List UInt8) (n : Nat) : Prop := Numeral ds n ∧ 1 ≤ ds.length ∧ ds.length ≤ M

/-- The same with an optional sign. -/
inductive Signed (M : Nat) : List UInt8 → Int → Prop
  | plain {ds : List UInt8} {n : Nat} : Unsigned M ds n → Signed M ds n
  | plus {ds : List UInt8} {n : Nat} : Unsigned M ds n → Signed M (43 :: ds) n
  | minus {ds : List UInt8} {n : Nat} : Unsigned M ds n → Signed M (45 :: ds) (-n)

/-- Seconds for a clock with `10 ^ width` ticks per second: digits with at most one decimal point, `width + 3` characters at most.
More decimals than the clock has (there is room for them if the seconds themselves have less than two digits) are rounded to a
nearest tick. -/
inductive Seconds (width : Nat) : List UInt8 → Nat → Prop
  | whole {ds : List UInt8} {n : Nat} : Unsigned (width + 3) ds n → Seconds width ds (n * 10 ^ width)
  | decimals {a b : List UInt8} {n : Nat} : Unsigned (width + 2) (a ++ b) n → b.length ≤ width →
      Seconds width (a ++ 46 :: b) (n * 10 ^ (width - b.length))
  | rounded {a b : List UInt8} {n ticks : Nat} : Unsigned (width + 2) (a ++ b) n → width < b.length →
      2 * n * 10 ^ width ≤ (2 * ticks + 1) * 10 ^ b.length → 2 * ticks * 10 ^ b.length ≤ 2 * n * 10 ^ width + 10 ^ b.length →
      Seconds width (a ++ 46 :: b) ticks

/-- `y-m-dTh:m:sZ`, followed by anything, with numbers of one digit or more and signs in front of the year, the month and the day. -/
structure UtcText (width : Nat) (s : List UInt8) (x : CDate) (hour minute ticks : Nat) : Prop where
  texts : ∃ y m d h mi sec junk, s = y ++ 45 :: (m ++ 45 :: (d ++ 84 :: (h ++ 58 :: (mi ++ 58 :: (sec ++ 90 :: junk))))) ∧
    Signed 4 y x.y ∧ Signed 2 m x.m ∧ Signed 2 d x.d ∧ Unsigned 2 h hour ∧ Unsigned 2 mi minute ∧ Seconds width sec ticks

end DateText
end Feat
