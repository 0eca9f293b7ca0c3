import Verif.Model.Basic
import Verif.Model.Types
import Verif.Model.UMapOps
import Verif.Model.Strings
import Verif.Model.Transformer
import Mathlib.Data.List.Sort
import Mathlib.Data.Rat.Floor
import Verif.Spec.Calendar

/-!
# Model of `DateTimeFeaturizer.cpp` and of the parts of `date.h` and `iso_week.h` it calls

Integers are unbounded here: a `system_clock` time point holds 64-bit nanoseconds, so day numbers
stay below 2^17 in size and years between 1677 and 2262, and no operation below leaves the range of
the C++ type it is done in (`year` in `date.h` is a `short`).  The narrowing casts to `uint8_t` and
`uint16_t` are kept.
-/

namespace Feat

namespace DateH

/-- `year_month_day::to_days` — 3rdParty/date.h 2634–2648 (C++ division truncates, hence `tdiv`). -/
def toDays (x : CDate) : Int :=
  let y := x.y - (if x.m ≤ 2 then 1 else 0)
  let era := (if 0 ≤ y then y else y - 399).tdiv 400
  let yoe := y - era * 400
  let doy := (153 * (if x.m > 2 then x.m - 3 else x.m + 9) + 2) / 5 + x.d - 1
  let doe := yoe * 365 + yoe / 4 - yoe / 100 + doy
  era * 146097 + doe - 719468

/-- `year_month_day::from_days` — 3rdParty/date.h 2746–2762. -/
def fromDays (n : Int) : CDate :=
  let z := n + 719468
  let era := (if 0 ≤ z then z else z - 146096).tdiv 146097
  let doe := z - era * 146097
  let yoe := (doe - doe / 1460 + doe / 36524 - doe / 146096) / 365
  let y := yoe + era * 400
  let doy := doe - (365 * yoe + yoe / 4 - yoe / 100)
  let mp := (5 * doy + 2) / 153
  let d := doy - (153 * mp + 2) / 5 + 1
  let m := if mp < 10 then mp + 3 else mp - 9
  ⟨y + (if m ≤ 2 then 1 else 0), m, d⟩

/-- `year::is_leap` — 3rdParty/date.h 1507–1512. -/
def isLeap (y : Int) : Bool :=
  y.tmod 4 == 0 && (y.tmod 100 != 0 || y.tmod 400 == 0)

/-- `year_month_day_last::day` — 3rdParty/date.h 2417–2430. -/
def lastDay (y m : Int) : Int :=
  if m ≠ 2 ∨ ¬ isLeap y then
    ([31, 28, 31, 30, 31, 30, 31, 31, 30, 31, 30, 31] : List Int).getD (m - 1).toNat 0
  else 29

/-- `weekday::weekday_from_days` — 3rdParty/date.h 1638–1644: 0 is Sunday. -/
def weekdayFromDays (z : Int) : Int :=
  if z ≥ -4 then (z + 4).tmod 7 else (z + 5).tmod 7 + 6

/-- `operator-(weekday, weekday)` — 3rdParty/date.h 1713–1719 and iso_week.h 523–529: the difference
is taken in `unsigned`, so a negative one is above 6 and gets 7 added (modulo 2^32). -/
def weekdayDiff (x y : Int) : Int :=
  let diff := x - y
  if 0 ≤ diff ∧ diff ≤ 6 then diff else diff + 7

/-- `year_month_weekday_last::to_days` — 3rdParty/date.h 3111–3117, of `y/dec/thu[last]`; in
`date.h` Thursday is encoded 4. -/
def lastThursdayOfDecember (y : Int) : Int :=
  let d := toDays ⟨y, 12, lastDay y 12⟩
  d - weekdayDiff (weekdayFromDays d) 4

end DateH

namespace IsoWeek

/-- `year_weeknum_weekday::from_days` — 3rdParty/iso_week.h 1495–1511: the ISO year and week number
of a day (the weekday is not used by the featurizer).  In `iso_week.h` Monday is encoded 1 and
Thursday 4. -/
def fromDays (dp : Int) : Int × Int :=
  let y := (DateH.fromDays (dp + 3)).y
  let start := DateH.lastThursdayOfDecember (y - 1) + DateH.weekdayDiff 1 4
  if dp < start then
    let y := y - 1
    let start := DateH.lastThursdayOfDecember (y - 1) + DateH.weekdayDiff 1 4
    (y, (dp - start).tdiv 7 + 1)
  else
    (y, (dp - start).tdiv 7 + 1)

end IsoWeek

/-- The members of `std::tm` that the code reads. -/
structure Tm where
  year : Int
  mon : Int
  mday : Int
  hour : Int
  min : Int
  sec : Int
  wday : Int
  yday : Int
deriving DecidableEq

/-- `static_cast<std::uint8_t>`. -/
def toU8 (x : Int) : Int := x % 256

/-- `static_cast<std::uint16_t>`. -/
def toU16 (x : Int) : Int := x % 65536

/-- `struct TimePoint` — Featurizers/DateTimeFeaturizer.h 69–91. -/
structure TimeParts where
  year : Int
  month : Int
  day : Int
  hour : Int
  minute : Int
  second : Int
  amPm : Int
  hour12 : Int
  dayOfWeek : Int
  dayOfQuarter : Int
  dayOfYear : Int
  weekOfMonth : Int
  quarterOfYear : Int
  halfOfYear : Int
  weekIso : Int
  yearIso : Int
  monthLabel : String
  amPmLabel : String
  dayOfWeekLabel : String
  holidayName : Str
  isPaidTimeOff : Int
deriving DecidableEq

/-- `TimePoint::_weekDays` — Featurizers/DateTimeFeaturizer.h 111–114. -/
def weekDayNames : List String :=
  ["Sunday", "Monday", "Tuesday", "Wednesday", "Thursday", "Friday", "Saturday"]

/-- `TimePoint::_months` — Featurizers/DateTimeFeaturizer.h 116–119. -/
def monthNames : List String :=
  ["January", "February", "March", "April", "May", "June",
   "July", "August", "September", "October", "November", "December"]

/-- `std::chrono::system_clock::to_time_t` of a time point of `ns` nanoseconds: libstdc++ does a
`duration_cast` to seconds, which truncates toward zero. -/
def toTimeT (ns : Int) : Int := ns.tdiv 1000000000

/-- The constructor of `TimePoint` — Featurizers/DateTimeFeaturizer.cpp 254–315.  `gmtime` is
`gmtime_r` of the C library (its result, or `none` for the null pointer). -/
def TimeParts.ofTime (gmtime : Int → Option Tm) (ns : Int) : Except Err TimeParts :=
  let tt := toTimeT ns
  match gmtime tt with
  | none => .error .invalidArgument
  | some tm =>
    let year := tm.year + 1900
    let month := toU8 (toU8 tm.mon + 1)
    let day := toU8 tm.mday
    let hour := toU8 tm.hour
    let minute := toU8 tm.min
    let second := toU8 tm.sec
    let amPm : Int := if hour < 12 then 0 else 1
    let hour12 := if hour ≤ 12 then hour else toU8 (hour - 12)
    let dayOfWeek := toU8 tm.wday
    let dayOfYear := toU16 tm.yday
    let weekOfMonth := toU16 ((day - 1).tdiv 7)
    let quarterOfYear := toU8 ((month + 2) / 3)
    let halfOfYear : Int := if month ≤ 6 then 1 else 2
    let days := DateH.toDays ⟨year, month, day⟩
    let iso := IsoWeek.fromDays days
    let dayOfQuarter :=
      if month ≤ 3 then toU8 (days - DateH.toDays ⟨year, 1, 1⟩ + 1)
      else if month ≤ 6 then toU8 (days - DateH.toDays ⟨year, 4, 1⟩ + 1)
      else if month ≤ 9 then toU8 (days - DateH.toDays ⟨year, 7, 1⟩ + 1)
      else toU8 (days - DateH.toDays ⟨year, 10, 1⟩ + 1)
    .ok {
      year := year, month := month, day := day, hour := hour, minute := minute, second := second,
      amPm := amPm, hour12 := hour12, dayOfWeek := dayOfWeek, dayOfQuarter := dayOfQuarter,
      dayOfYear := dayOfYear, weekOfMonth := weekOfMonth, quarterOfYear := quarterOfYear,
      halfOfYear := halfOfYear, weekIso := toU8 iso.2, yearIso := iso.1,
      monthLabel := monthNames.getD (month - 1).toNat "",
      amPmLabel := if amPm ≠ 0 then "pm" else "am",
      dayOfWeekLabel := weekDayNames.getD dayOfWeek.toNat "",
      holidayName := ⟨[]⟩, isPaidTimeOff := 0 }

/-! ### Countries and holidays -/

/-- `RemoveCountryExtension` — Featurizers/DateTimeFeaturizer.cpp 216–223: everything before the last
dot, or the whole name if there is none. -/
def removeExtension (s : List UInt8) : List UInt8 :=
  if (46 : UInt8) ∈ s then ((s.reverse.dropWhile (· ≠ 46)).drop 1).reverse else s

/-- `DoesCountryMatch` — Featurizers/DateTimeFeaturizer.cpp 225–245.  `query` is a file name. -/
def doesCountryMatch (country query : List UInt8) : Bool :=
  if query = country then true
  else
    let query := removeExtension query
    if query = country then true
    else
      let query := toLower query
      if query = country then true
      else
        let query := query.filter (fun c => ! isSpace c)
        if query = country then true else false

/-- `EnumCountries` — Featurizers/DateTimeFeaturizer.cpp 168–193, called with a callback that stops at
the first name satisfying `p`: the name it stopped at, if any.  `files` are the names of the entries
of the data directory that are not directories, in the order of `readdir`; a data directory that
cannot be opened is one without files. -/
def enumCountries (files : List (List UInt8)) (p : List UInt8 → Bool) : Option (List UInt8) :=
  files.find? p

/-- `DateTimeEstimator::IsValidCountry` — Featurizers/DateTimeFeaturizer.cpp 432–443. -/
def isValidCountry (files : List (List UInt8)) (value : List UInt8) : Bool :=
  (enumCountries files (doesCountryMatch value)).isSome

/-- The order on strings: by unsigned characters, shorter first (`std::string::operator<`). -/
def strLe (a b : List UInt8) : Bool := Str.mk a ≤ Str.mk b

/-- `DateTimeEstimator::GetSupportedCountries` — Featurizers/DateTimeFeaturizer.cpp 445–459. -/
def getSupportedCountries (files : List (List UInt8)) : List (List UInt8) :=
  (files.map removeExtension).insertionSort (fun a b => strLe a b = true)

/-- `holidays[date] = name`. -/
def setHoliday (m : UMap Int Str) (date : Int) (name : Str) : UMap Int Str :=
  if (m.find? date).isSome then m.update date (fun _ => name) else m.emplace date name

/-- The construction of the holiday map from the two vectors of the file —
Featurizers/DateTimeFeaturizer.cpp 372–383 (the vectors have the same length, as the `assert`
says). -/
def holidayMap (table : List (Int × Str)) : UMap Int Str :=
  table.foldl (fun m e => setHoliday m e.1 e.2) UMap.empty

/-- The data directory: the files in it and the table each one holds. -/
structure HolidayData where
  files : List (List UInt8)
  table : List UInt8 → List (Int × Str)

/-- The constructor of `DateTimeTransformer` — Featurizers/DateTimeFeaturizer.cpp 341–387; the result
is the country name and the holiday map. -/
def DateTimeTransformer.make (data : HolidayData) (country : List UInt8) :
    Except Err (List UInt8 × UMap Int Str) :=
  if country = [] then .ok (country, UMap.empty)
  else
    match enumCountries data.files (doesCountryMatch country) with
    | none => .error .invalidArgument
    | some filename => .ok (country, holidayMap (data.table filename))

/-- The constructor of `DateTimeEstimator` — Featurizers/DateTimeFeaturizer.cpp 461–475. -/
def DateTimeEstimator.make (data : HolidayData) (country : Option (List UInt8)) :
    Except Err (Option (List UInt8)) :=
  match country with
  | none => .ok none
  | some c => if isValidCountry data.files c then .ok (some c) else .error .invalidArgument

/-- `DateTimeEstimator::create_transformer_impl` — Featurizers/DateTimeFeaturizer.cpp 491–496. -/
def DateTimeEstimator.createTransformer (data : HolidayData) (country : Option (List UInt8)) :
    Except Err (List UInt8 × UMap Int Str) :=
  DateTimeTransformer.make data (country.getD [])

/-- The conversion of a `double` to an integer: truncation toward zero. -/
def truncRat (q : Rat) : Int := if 0 ≤ q then ⌊q⌋ else ⌈q⌉

/-- The key of the holiday lookup — Featurizers/DateTimeFeaturizer.cpp 413–414.  `quot s` is the
`double` quotient of `s` by 86400. -/
def holidayKey (quot : Int → Rat) (ns : Int) : Int :=
  let totalSeconds := ns.tdiv 1000000000
  truncRat (quot totalSeconds) * 86400

/-- `DateTimeTransformer::execute_impl` — Featurizers/DateTimeFeaturizer.cpp 405–422. -/
def DateTimeTransformer.execute (gmtime : Int → Option Tm) (quot : Int → Rat)
    (holidays : UMap Int Str) (ns : Int) : Except Err TimeParts :=
  match TimeParts.ofTime gmtime ns with
  | .error e => .error e
  | .ok result =>
    if holidays.size ≠ 0 then
      match holidays.find? (holidayKey quot ns) with
      | some name => .ok { result with holidayName := name }
      | none => .ok result
    else .ok result

end Feat
