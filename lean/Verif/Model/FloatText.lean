import Verif.Model.Text
/-
Model of `Traits<float>` and `Traits<double>`: `ToString` and `FromString` (Traits.h 668–826), which are `std::to_string`
(`printf` with "%f") and `std::stof`/`std::stod` (`strtof`/`strtod`).  Modelled: IEEE 754 numbers of 32 and 64 bits, the
default rounding mode, the "C" locale, and the C library of GNU on x86 (conversions are correctly rounded; `ERANGE` for
results that overflow, and for inexact ones that are tiny after rounding).  Not modelled: the payload of a NaN that is read.
-/
namespace Feat.FloatText

/-! ### Formats -/

/-- A binary format: the number of bits of the fraction and of the exponent. -/
structure Fmt where
  frac : Nat
  exp : Nat

/-- `float`. -/
def single : Fmt := ⟨23, 8⟩

/-- `double`. -/
def double : Fmt := ⟨52, 11⟩

namespace Fmt
variable (F : Fmt)

/-- All finite numbers are multiples of 2^-scale. -/
def scale : Nat := 2 ^ (F.exp - 1) - 2 + F.frac

/-- The weight of the sign bit. -/
def signBit : Nat := 2 ^ (F.exp + F.frac)

/-- The pattern of infinity. -/
def inf : Nat := (2 ^ F.exp - 1) * 2 ^ F.frac

/-- The number, in units of 2^-scale, with the pattern `m` (without sign): subnormal, or normal with a hidden bit. -/
def mag (m : Nat) : Nat :=
  if m / 2 ^ F.frac = 0 then m else (2 ^ F.frac + m % 2 ^ F.frac) * 2 ^ (m / 2 ^ F.frac - 1)

end Fmt

/-- The integer nearest to `n / d`, the even one in the middle between two. -/
def roundEven (n d : Nat) : Nat :=
  if 2 * (n % d) < d then n / d
  else if d < 2 * (n % d) then n / d + 1
  else if n / d % 2 = 0 then n / d
  else n / d + 1

/-! ### `std::to_string` -/

/-- A decimal digit. -/
def digitByte (n : Nat) : UInt8 := 48 + UInt8.ofNat (n % 10)

/-- Six digits. -/
def sixDigits (n : Nat) : List UInt8 :=
  [digitByte (n / 100000), digitByte (n / 10000), digitByte (n / 1000), digitByte (n / 100), digitByte (n / 10), digitByte n]

/-- `printf` with "%f" for the number `n / d`. -/
def fixedText (n d : Nat) : List UInt8 :=
  natText (roundEven (n * 1000000) d / 1000000) ++ 46 :: sixDigits (roundEven (n * 1000000) d % 1000000)

/-- `ToString` (Traits.h 715–722, 793–800), on the bits of the number. -/
def Fmt.toText (F : Fmt) (b : Nat) : List UInt8 :=
  if F.inf < b % F.signBit then [78, 97, 78]
  else (if F.signBit ≤ b then [45] else []) ++
    if b % F.signBit = F.inf then [105, 110, 102] else fixedText (F.mag (b % F.signBit)) (2 ^ F.scale)

/-! ### `strtod` -/

/-- `tolower` in the "C" locale. -/
def lowerByte (c : UInt8) : UInt8 := if 65 ≤ c ∧ c ≤ 90 then c + 32 else c

/-- A hexadecimal digit. -/
def isHexDigit (c : UInt8) : Bool := isDigit c || (decide (97 ≤ lowerByte c) && decide (lowerByte c ≤ 102))

/-- Its value. -/
def hexDigitVal (c : UInt8) : Nat := if isDigit c then c.toNat - 48 else (lowerByte c).toNat - 87

/-- The sign and digits of an exponent; without digits it is not one. -/
def scanSigned (s : List UInt8) : Int :=
  match s with
  | 45 :: ds => -(digitsVal (ds.takeWhile isDigit) : Int)
  | 43 :: ds => digitsVal (ds.takeWhile isDigit)
  | ds => digitsVal (ds.takeWhile isDigit)

/-- The exponent after the letter `mark`. -/
def scanExponent (mark : UInt8) (s : List UInt8) : Int :=
  match s with
  | [] => 0
  | c :: cs => if lowerByte c = mark then scanSigned cs else 0

/-- The digits before and after a point, and what follows. -/
def scanDigits (isD : UInt8 → Bool) (s : List UInt8) : List UInt8 × List UInt8 × List UInt8 :=
  match s.dropWhile isD with
  | 46 :: cs => (s.takeWhile isD, cs.takeWhile isD, cs.dropWhile isD)
  | rest => (s.takeWhile isD, [], rest)

/-- What `strtod` recognizes. -/
inductive Scanned where
  | nothing
  | infinity (neg : Bool)
  | nan (neg : Bool)
  | number (neg : Bool) (n d : Nat)
  deriving DecidableEq, Repr

/-- `n · base ^ e` as a fraction. -/
def scaled (neg : Bool) (n base : Nat) (e : Int) : Scanned :=
  .number neg (n * base ^ e.toNat) (base ^ (-e).toNat)

/-- A decimal number. -/
def scanDecimal (neg : Bool) (s : List UInt8) : Scanned :=
  let p := scanDigits isDigit s
  if p.1 ++ p.2.1 = [] then .nothing
  else scaled neg (digitsVal (p.1 ++ p.2.1)) 10 (scanExponent 101 p.2.2 - p.2.1.length)

/-- A hexadecimal number, after "0x"; `none` if there is no digit. -/
def scanHex (neg : Bool) (s : List UInt8) : Option Scanned :=
  let p := scanDigits isHexDigit s
  if p.1 ++ p.2.1 = [] then none
  else some (scaled neg ((p.1 ++ p.2.1).foldl (fun n d => 16 * n + hexDigitVal d) 0) 2
    (scanExponent 112 p.2.2 - 4 * p.2.1.length))

/-- After white space and sign. -/
def scanUnsigned (neg : Bool) (s : List UInt8) : Scanned :=
  if (s.take 3).map lowerByte = [105, 110, 102] then .infinity neg
  else if (s.take 3).map lowerByte = [110, 97, 110] then .nan neg
  else if (s.take 2).map lowerByte = [48, 120] then (scanHex neg (s.drop 2)).getD (scanDecimal neg s)
  else scanDecimal neg s

/-- White space, sign, number. -/
def scanFloat (s : List UInt8) : Scanned :=
  match s.dropWhile isSpace with
  | 45 :: cs => scanUnsigned true cs
  | 43 :: cs => scanUnsigned false cs
  | cs => scanUnsigned false cs

namespace Fmt
variable (F : Fmt)

/-- The pattern of the number nearest to `n / d`, the even one in the middle between two.  (From `F.inf` on it is too
large.) -/
def nearest (n d : Nat) : Nat :=
  (Nat.log2 (n * 2 ^ F.scale / d) - F.frac) * 2 ^ F.frac +
    roundEven (n * 2 ^ F.scale) (d * 2 ^ (Nat.log2 (n * 2 ^ F.scale / d) - F.frac))

/-- `n / d` is below the normal numbers, also after rounding it to their precision. -/
def tiny (n d : Nat) : Prop := 4 * (n * 2 ^ F.scale) < (4 * 2 ^ F.frac - 1) * d

instance (n d : Nat) : Decidable (F.tiny n d) := by unfold tiny; infer_instance

/-- The result of `strtod` for a number, or `ERANGE`, which is an exception. -/
def convert (neg : Bool) (n d : Nat) : Except Err Nat :=
  if F.inf ≤ F.nearest n d then .error .outOfRange
  else if F.tiny n d ∧ F.mag (F.nearest n d) * d ≠ n * 2 ^ F.scale then .error .outOfRange
  else .ok ((if neg then F.signBit else 0) + F.nearest n d)

/-- `std::numeric_limits::quiet_NaN()`. -/
def quietNaN : Nat := F.inf + 2 ^ (F.frac - 1)

/-- `FromString` (Traits.h 724–729, 802–807): the bits of the number. -/
def fromText (s : List UInt8) : Except Err Nat :=
  if s = [78, 97, 78] then .ok F.quietNaN
  else match scanFloat (cString s) with
    | .nothing => .error .invalidArgument
    | .infinity neg => .ok ((if neg then F.signBit else 0) + F.inf)
    | .nan neg => .ok ((if neg then F.signBit else 0) + F.quietNaN)
    | .number neg n d => F.convert neg n d

end Fmt

/-- `Traits<std::float_t>` (Traits.h 668–742). -/
instance : TextTraits F32 where
  toText x := single.toText x.bits.toNat
  fromText s := (single.fromText s).map fun n => ⟨UInt32.ofNat n⟩

/-- `Traits<std::double_t>` (Traits.h 744–818). -/
instance : TextTraits F64 where
  toText x := double.toText x.bits.toNat
  fromText s := (double.fromText s).map fun n => ⟨UInt64.ofNat n⟩

end Feat.FloatText
