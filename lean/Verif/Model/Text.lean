import Verif.Model.CInt
import Verif.Model.Types
import Verif.Model.Strings
/-
Model of the text conversions of Traits.h, and of StringFeaturizer.h and FromStringFeaturizer.h (execution).  Conversions of
floating point numbers are in Model/FloatText, those of time points in Model/DateText; those of containers in Model/ContainerText.
-/
namespace Feat

/-! ### `std::to_string` and the `std::stoi` family -/

/-- The decimal digits of a natural number, as `std::to_string` writes them. -/
def natText (n : Nat) : List UInt8 :=
  if n < 10 then [48 + UInt8.ofNat n] else natText (n / 10) ++ [48 + UInt8.ofNat (n % 10)]
termination_by n

/-- `std::to_string` of an integer. -/
def intText (z : Int) : List UInt8 := if z < 0 then 45 :: natText z.natAbs else natText z.natAbs

/-- A decimal digit. -/
def isDigit (c : UInt8) : Bool := 48 ≤ c ∧ c ≤ 57

/-- The number written by digits. -/
def digitsVal (ds : List UInt8) : Nat := ds.foldl (fun n d => 10 * n + (d.toNat - 48)) 0

/-- What `strtol`, `strtoll`, `strtoul` and `strtoull` in base 10 read from a string: white space, an optional sign, and as
many digits as there are.  `none` if there is no digit, otherwise whether there is a minus sign, and the number. -/
def scanInt (s : List UInt8) : Option (Bool × Nat) :=
  let s := s.dropWhile isSpace
  let (neg, s) := match s with
    | 45 :: cs => (true, cs)
    | 43 :: cs => (false, cs)
    | _ => (false, s)
  let ds := s.takeWhile isDigit
  if ds = [] then none else some (neg, digitsVal ds)

/-- `value.c_str()` passed as a string: it ends at the first null character. -/
def cString (s : List UInt8) : List UInt8 := s.takeWhile (· ≠ 0)

/-- `std::stoi` (`lo`, `hi` the bounds of `int`) and `std::stoll`: no number is an invalid argument, a number outside the
range is an error. -/
def stoSigned (lo hi : Int) (s : List UInt8) : Except Err Int :=
  match scanInt s with
  | none => .error .invalidArgument
  | some (neg, n) =>
    let z : Int := if neg then -n else n
    if z < lo ∨ hi < z then .error .outOfRange else .ok z

/-- `std::stoul` and `std::stoull` (64 bits): a number that does not fit is an error; with a minus sign the result is negated
modulo 2⁶⁴. -/
def stoUnsigned (s : List UInt8) : Except Err Nat :=
  match scanInt s with
  | none => .error .invalidArgument
  | some (neg, n) =>
    if 2 ^ 64 ≤ n then .error .outOfRange else .ok (if neg then (2 ^ 64 - n) % 2 ^ 64 else n)

/-! ### `Traits<T>::ToString` and `FromString` -/

/-- `Traits<T>`: `ToString` and `FromString`. -/
class TextTraits (T : Type) where
  toText : T → List UInt8
  fromText : List UInt8 → Except Err T

/-- `Traits<bool>` (Traits.h 346–365): "True", "False"; every other text is false. -/
instance : TextTraits Bool where
  toText b := if b then [84, 114, 117, 101] else [70, 97, 108, 115, 101]
  fromText s := .ok (s == [84, 114, 117, 101])

/-- The conversion after `std::stoi` (Traits.h 384–391, 414–421): outside the range of the smaller type. -/
def narrowSigned (T : Type) [CInt T] (r : Except Err Int) : Except Err T :=
  match r with
  | .error e => .error e
  | .ok z => if z < CInt.lo T ∨ CInt.hi T < z then .error .invalidArgument else .ok (CInt.ofInt z)

/-- The conversion after `std::stoul` (Traits.h 518–525, 548–555, 578–602, 626–650). -/
def narrowUnsigned (T : Type) [CInt T] (r : Except Err Nat) : Except Err T :=
  match r with
  | .error e => .error e
  | .ok n => if CInt.hi T < n then .error .invalidArgument else .ok (CInt.ofInt n)

/-- `Traits<std::int8_t>` (Traits.h 380–391). -/
instance : TextTraits Int8 where
  toText x := intText x.toInt
  fromText s := narrowSigned Int8 (stoSigned (-2147483648) 2147483647 (cString s))

/-- `Traits<std::int16_t>` (Traits.h 410–421). -/
instance : TextTraits Int16 where
  toText x := intText x.toInt
  fromText s := narrowSigned Int16 (stoSigned (-2147483648) 2147483647 (cString s))

/-- `Traits<std::int32_t>` (Traits.h 440–447): no check is needed. -/
instance : TextTraits Int32 where
  toText x := intText x.toInt
  fromText s := (stoSigned (-2147483648) 2147483647 (cString s)).map Int32.ofInt

/-- `Traits<std::int64_t>` (Traits.h 466–496): `long long` has 64 bits, so the check is not compiled. -/
instance : TextTraits Int64 where
  toText x := intText x.toInt
  fromText s := (stoSigned (-9223372036854775808) 9223372036854775807 (cString s)).map Int64.ofInt

/-- `Traits<std::uint8_t>` (Traits.h 514–525). -/
instance : TextTraits UInt8 where
  toText x := intText x.toNat
  fromText s := narrowUnsigned UInt8 (stoUnsigned (cString s))

/-- `Traits<std::uint16_t>` (Traits.h 544–555). -/
instance : TextTraits UInt16 where
  toText x := intText x.toNat
  fromText s := narrowUnsigned UInt16 (stoUnsigned (cString s))

/-- `Traits<std::uint32_t>` (Traits.h 574–602), with a `long` of 64 bits. -/
instance : TextTraits UInt32 where
  toText x := intText x.toNat
  fromText s := narrowUnsigned UInt32 (stoUnsigned (cString s))

/-- `Traits<std::uint64_t>` (Traits.h 622–650): the check is not compiled. -/
instance : TextTraits UInt64 where
  toText x := intText x.toNat
  fromText s := (stoUnsigned (cString s)).map UInt64.ofNat

/-- `Traits<std::string>` (Traits.h 826–832). -/
instance : TextTraits Str where
  toText s := s.chars
  fromText s := .ok ⟨s⟩

/-- `Traits<nonstd::optional<T>>` (Traits.h 1531–1543): "NULL". -/
instance {T : Type} [TextTraits T] : TextTraits (Option T) where
  toText
    | some x => TextTraits.toText x
    | none => [78, 85, 76, 76]
  fromText s := if s = [78, 85, 76, 76] then .ok none else (TextTraits.fromText s).map some

/-! ### The two transformers -/

/-- `StringTransformer<nonstd::optional<T>>` (StringFeaturizer.h 141–218): `empty` is `_useEmptyStringsForNullValues`. -/
def stringTransform {T : Type} [TextTraits T] (empty : Bool) (x : Option T) : List UInt8 :=
  if empty ∧ x.isNone then [] else TextTraits.toText x

/-- `FromStringTransformer<nonstd::optional<T>>` (FromStringFeaturizer.h 141–218). -/
def fromStringTransform {T : Type} [TextTraits T] (empty : Bool) (s : List UInt8) : Except Err (Option T) :=
  if empty ∧ s = [] then .ok none else TextTraits.fromText s

end Feat
