import Verif.Model.Chrono
import Verif.Model.DateTime
import Verif.Model.Text
/-
Model of `Traits<std::chrono::system_clock::time_point>::ToString` and `FromString` (Traits.h 1402–1453), of the parts of
3rdParty/date.h they call, and of `CreateDateTime` (SharedLibrary_Common.cpp 88–97).

The clock has `q` ticks per second, 10^`width` = `q`.  Seconds are read into a `long double`; its arithmetic is exact here.
Calendar arithmetic uses unbounded integers: years read have at most four digits, and on a 64-bit nanosecond clock years
written are between 1677 and 2262.
-/
namespace Feat
namespace DateText

/-! ### Writing -/

/-- `os.width(w)` with fill `'0'` and adjustment to the right. -/
def pad (w : Nat) (s : List UInt8) : List UInt8 := List.replicate (w - s.length) 48 ++ s

/-- `ToString` (Traits.h 1402–1404): `date::format("%FT%TZ", date::floor<seconds>(tp))` (date.h 4807–4818, 5125–5130,
4059–4071). -/
def toIso (q : Nat) (t : TimePoint q) : List UInt8 :=
  let secs := t.ticks.toInt / q
  let days := secs / 86400
  let tod := secs - days * 86400
  let ymd := DateH.fromDays days
  pad 4 (intText ymd.y) ++ [45] ++ pad 2 (intText ymd.m) ++ [45] ++ pad 2 (intText ymd.d) ++ [84] ++
  pad 2 (intText (tod / 3600)) ++ [58] ++ pad 2 (intText (tod / 60 % 60)) ++ [58] ++ pad 2 (intText (tod % 60)) ++ [90]

/-! ### Reading -/

/-- An input stream that has not failed: what is left, and whether the end has been met (`eofbit`). -/
structure Stream where
  rest : List UInt8
  eof : Bool
  deriving DecidableEq

/-- The loop of `read_unsigned` (date.h 5714–5727): at most `M` digits. -/
def takeDigits : Nat → List UInt8 → List UInt8 × Stream
  | 0, cs => ([], ⟨cs, false⟩)
  | _ + 1, [] => ([], ⟨[], true⟩)
  | M + 1, c :: cs =>
    if isDigit c then (c :: (takeDigits M cs).1, (takeDigits M cs).2) else ([], ⟨c :: cs, false⟩)

/-- `read_unsigned` (date.h 5710–5731); `none` when the stream fails. -/
def readUnsigned (m M : Nat) (s : List UInt8) : Option (Int × Stream) :=
  let r := takeDigits M s
  if r.1.length < m then none else some (digitsVal r.1, r.2)

/-- `read_signed` (date.h 5735–5758), for `m ≥ 1`. -/
def readSigned (m M : Nat) (s : List UInt8) : Option (Int × Stream) :=
  match s with
  | [] => none
  | c :: cs =>
    if isDigit c then readUnsigned m M (c :: cs)
    else if c = 45 then (readUnsigned m M cs).map fun r => (-r.1, r.2)
    else if c = 43 then readUnsigned m M cs
    else none

/-- `read` of a character (date.h 5846–5866). -/
def readChar (a : UInt8) (s : List UInt8) : Option Stream :=
  match s with
  | [] => none
  | c :: cs => if c = a then some ⟨cs, false⟩ else none

/-- `std::ws`. -/
def readBlank (s : List UInt8) : Stream := ⟨s.dropWhile isSpace, (s.dropWhile isSpace).isEmpty⟩

/-- The loop of `read_long_double` (date.h 5769–5791): at most `M` characters, digits and (while `point` holds) a decimal
point. -/
def takeDecimal : Bool → Nat → List UInt8 → List UInt8 × Stream
  | _, 0, cs => ([], ⟨cs, false⟩)
  | _, _ + 1, [] => ([], ⟨[], true⟩)
  | point, M + 1, c :: cs =>
    if point = true ∧ c = 46 then (c :: (takeDecimal false M cs).1, (takeDecimal false M cs).2)
    else if isDigit c then (c :: (takeDecimal point M cs).1, (takeDecimal point M cs).2)
    else ([], ⟨c :: cs, false⟩)

/-- The nearest natural number to `n / d`, the even one of two: `date::round` (date.h 1162–1179).  The code does this with the
`long double` next to the decimal fraction, so which of two is chosen in a tie is not modelled faithfully; no theorem depends on
it. -/
def roundDiv (n d : Nat) : Nat :=
  let f := n / d
  if 2 * (n % d) < d then f
  else if 2 * (n % d) > d then f + 1
  else if f % 2 = 0 then f else f + 1

/-- `std::stold` and `round<Duration>` (date.h 5797, 6522) of digits with at most one decimal point, in ticks; without a
digit `stold` throws. -/
def decimalTicks (q : Nat) (buf : List UInt8) : Except Err Nat :=
  let whole := buf.takeWhile (· ≠ 46)
  let frac := (buf.dropWhile (· ≠ 46)).drop 1
  if whole ++ frac = [] then .error .invalidArgument
  else .ok (roundDiv (digitsVal (whole ++ frac) * q) (10 ^ frac.length))

/-- What has been read; the offset is in minutes. -/
structure Fields where
  y : Int
  m : Int
  d : Int
  hour : Int
  min : Int
  ticks : Nat
  offset : Int

/-- The pieces of the template that `FromString` builds (Traits.h 1443–1444). -/
inductive Item where
  | year | month | day | hour | minute | second | zone | char (c : UInt8) | blank
  deriving DecidableEq

/-- Reading the time zone `%z` (date.h 6766–6786). -/
def readZone (s : List UInt8) : Option (Int × Stream) :=
  match readSigned 2 2 s with
  | none => none
  | some (h, ⟨rest, eof⟩) =>
    if eof then some (60 * h, ⟨rest, eof⟩)
    else
      match rest with
      | [] => some (60 * h, ⟨[], true⟩)
      | c :: cs =>
        if isDigit c then
          match readUnsigned 2 2 (c :: cs) with
          | none => none
          | some (m, s') => some (60 * h + (if h < 0 then -m else m), s')
        else some (60 * h, ⟨c :: cs, false⟩)

/-- The number of characters that seconds may have (date.h 6516): two, or three and the decimals of the clock. -/
def secondsWidth (width : Nat) : Nat := if width = 0 then 2 else 3 + width

/-- One piece of the template (date.h 6204–6262, 6306–6365, 6509–6531, 6571–6580, 6763–6790, 6846–6852).  The stream fails
with `invalid_argument`, which is what `FromString` throws then (Traits.h 1450–1452). -/
def readItem (q width : Nat) (it : Item) (s : List UInt8) (f : Fields) : Except Err (Fields × Stream) :=
  let num (r : Option (Int × Stream)) (g : Int → Fields) : Except Err (Fields × Stream) :=
    match r with
    | none => .error .invalidArgument
    | some (x, s') => .ok (g x, s')
  match it with
  | .year => num (readSigned 1 4 s) fun x => { f with y := x }
  | .month => num (readSigned 1 2 s) fun x => { f with m := x }
  | .day => num (readSigned 1 2 s) fun x => { f with d := x }
  | .hour => num (readUnsigned 1 2 s) fun x => { f with hour := x }
  | .minute => num (readUnsigned 1 2 s) fun x => { f with min := x }
  | .zone => num (readZone s) fun x => { f with offset := x }
  | .second =>
    let r := takeDecimal true (secondsWidth width) s
    if r.1.length < 1 then .error .invalidArgument
    else
      match decimalTicks q r.1 with
      | .error e => .error e
      | .ok t => .ok ({ f with ticks := t }, r.2)
  | .char c =>
    match readChar c s with
    | none => .error .invalidArgument
    | some s' => .ok (f, s')
  | .blank => .ok (f, readBlank s)

/-- The loop over the template (date.h 5970–6864): the end of the stream before the end of the template is a failure. -/
def readItems (q width : Nat) : List Item → Stream → Fields → Except Err Fields
  | [], _, f => .ok f
  | it :: its, s, f =>
    if s.eof then .error .invalidArgument
    else
      match readItem q width it s.rest f with
      | .error e => .error e
      | .ok (f', s') => readItems q width its s' f'

/-- `year_month_day::ok` (date.h 2666–2672); months and days outside the range of `unsigned char` are not `ok` either. -/
def dateOk (f : Fields) : Bool :=
  decide (1 ≤ f.m ∧ f.m ≤ 12 ∧ 1 ≤ f.d ∧ f.d ≤ DateH.lastDay f.y f.m)

/-- `time_of_day::in_conventional_range` (date.h 4050–4054, 3633–3637). -/
def timeOk (q : Nat) (f : Fields) : Bool := decide (f.hour < 24 ∧ f.min < 60 ∧ f.ticks < 60 * q)

/-- `sys_days(ymd) - offset + tod`, rounded (date.h 7197, 1162–1179): in 64-bit ticks, undefined on overflow (rounding adds
one tick first). -/
def instant (q : Nat) (f : Fields) : Except Err (TimePoint q) :=
  let a : Int := (DateH.toDays ⟨f.y, f.m, f.d⟩ * 1440 - f.offset) * 60 * q
  let r : Int := a + (f.hour * 3600 + f.min * 60) * q + f.ticks
  if -2 ^ 63 ≤ a ∧ r < 2 ^ 63 - 1 then .ok ⟨Int64.ofInt r⟩ else .error .ub

/-- `date::from_stream` of a time point (date.h 7181–7199). -/
def fromStream (q width : Nat) (its : List Item) (s : List UInt8) : Except Err (TimePoint q) :=
  match readItems q width its ⟨s, false⟩ ⟨0, 0, 0, 0, 0, 0, 0⟩ with
  | .error e => .error e
  | .ok f => if dateOk f && timeOk q f then instant q f else .error .invalidArgument

/-- `find_last_of`: the position of the last occurrence. -/
def lastIndex (a : UInt8) (s : List UInt8) : Option Nat :=
  if a ∈ s then some (s.length - 1 - s.reverse.findIdx (· = a)) else none

/-- The removal of a colon three characters before the end (Traits.h 1419–1427).  In a text of two characters without colon
`npos` equals `size() - 3`, and `erase` throws. -/
def dropZoneColon (s : List UInt8) : Except Err (List UInt8) :=
  if 90 ∈ s then .ok s
  else
    match lastIndex 58 s with
    | some i => if i + 3 = s.length then .ok (s.eraseIdx i) else .ok s
    | none => if s.length = 2 then .error .outOfRange else .ok s

/-- `FromString` (Traits.h 1406–1454). -/
def fromIso (q width : Nat) (s : List UInt8) : Except Err (TimePoint q) :=
  let dash : List Item := if 45 ∈ s then [.char 45] else []
  let colon : List Item := if 58 ∈ s then [.char 58] else []
  let sep : Item := if 84 ∈ s then .char 84 else .blank
  let zone : Item := if 90 ∈ s then .char 90 else .zone
  match dropZoneColon s with
  | .error e => .error e
  | .ok t =>
    fromStream q width
      ([.year] ++ dash ++ [.month] ++ dash ++ [.day, sep, .hour] ++ colon ++ [.minute] ++ colon ++ [.second, zone]) t

/-- `DateTimeParameter` (SharedLibrary_Common.h 55–82): the type and the data it announces. -/
inductive Param where
  | posix (seconds : Int64)
  | text (bytes : List UInt8)
  | other

/-- `CreateDateTime` (SharedLibrary_Common.cpp 88–97): the text is read up to its first null character, whatever length is
given; `from_time_t` multiplies by the ticks per second. -/
def createDateTime (q width : Nat) (p : Param) : Except Err (TimePoint q) :=
  match p with
  | .posix n =>
    match castUp q n with
    | .error e => .error e
    | .ok t => .ok ⟨t⟩
  | .text s => fromIso q width (cString s)
  | .other => .error .runtimeError

end DateText
end Feat
