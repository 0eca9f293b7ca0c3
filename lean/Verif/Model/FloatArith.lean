import Verif.Model.FloatText
import Verif.Spec.FloatText
/-
Model of the floating point arithmetic that the code of Featurizers/ is compiled to: IEEE 754 with the default rounding mode
(to nearest, ties to even) on `float`, `double` (SSE: no excess precision) and the 80-bit `long double` of x86.  Subnormal
numbers, infinities and signed zeros are modelled; not modelled: the sign and payload of the NaN that an operation yields,
and floating point exceptions (which are not trapped).
-/
namespace Feat.FloatArith
open FloatText

/-- `long double` on x86: 63 bits of fraction (with the explicit integer bit, which is that of the exponent, left out), 15 of
exponent, and the sign. -/
structure F80 where
  bits : Fin (2 ^ 79)
  deriving DecidableEq

instance : Binary F80 := ⟨63, 15, fun x => x.bits.val⟩

/-- A floating point type: all bit patterns are numbers. -/
class FloType (T : Type) extends Binary T where
  of : Nat → T
  bits_lt : ∀ x : T, Binary.bits x < 2 ^ (Binary.exp T + Binary.frac T + 1)
  bits_of : ∀ n, n < 2 ^ (Binary.exp T + Binary.frac T + 1) → Binary.bits (of n) = n
  of_bits : ∀ x : T, of (Binary.bits x) = x

instance : FloType F32 where
  of n := ⟨UInt32.ofNat n⟩
  bits_lt x := x.bits.toNat_lt
  bits_of _ h := UInt32.toNat_ofNat_of_lt' h
  of_bits x := by
    show (⟨UInt32.ofNat x.bits.toNat⟩ : F32) = x
    rw [UInt32.ofNat_toNat]

instance : FloType F64 where
  of n := ⟨UInt64.ofNat n⟩
  bits_lt x := x.bits.toNat_lt
  bits_of _ h := UInt64.toNat_ofNat_of_lt' h
  of_bits x := by
    show (⟨UInt64.ofNat x.bits.toNat⟩ : F64) = x
    rw [UInt64.ofNat_toNat]

instance : FloType F80 where
  of n := ⟨Fin.ofNat _ n⟩
  bits_lt x := x.bits.isLt
  bits_of _ h := Nat.mod_eq_of_lt h
  of_bits x := by
    obtain ⟨b⟩ := x
    exact congrArg F80.mk (Fin.ext (Nat.mod_eq_of_lt b.isLt))

/-- The format of a type. -/
def fmt (T : Type) [Binary T] : Fmt := ⟨Binary.frac T, Binary.exp T⟩

section
variable {T S : Type} [FloType T] [FloType S]

/-- The sign. -/
def neg? (x : T) : Bool := decide ((fmt T).signBit ≤ Binary.bits x)

/-- The bits without the sign. -/
def pat (x : T) : Nat := Binary.bits x % (fmt T).signBit

/-- `std::isnan`. -/
def isNaN (x : T) : Bool := decide ((fmt T).inf < pat x)

/-- `std::isinf`. -/
def isInf (x : T) : Bool := decide (pat x = (fmt T).inf)

/-- The number with the sign and the pattern. -/
def make (neg : Bool) (m : Nat) : T := FloType.of ((if neg then (fmt T).signBit else 0) + m)

/-- `std::numeric_limits<T>::quiet_NaN()`, and the result of an invalid operation. -/
def nan : T := make false (fmt T).quietNaN

/-- Infinity. -/
def infinity (neg : Bool) : T := make neg (fmt T).inf

/-- `std::numeric_limits<T>::max()`. -/
def largest : T := make false ((fmt T).inf - 1)

/-- `std::numeric_limits<T>::lowest()`. -/
def lowest : T := make true ((fmt T).inf - 1)

/-- Zero. -/
def zero (neg : Bool) : T := make neg 0

/-- `±n / d`, rounded; infinity if it is too large. -/
def roundTo (neg : Bool) (n d : Nat) : T := make neg (min ((fmt T).nearest n d) (fmt T).inf)

/-- The size of a finite number, in units of `2^-scale`. -/
def units (x : T) : Nat := (fmt T).mag (pat x)

/-- The number in these units. -/
def signedUnits (x : T) : Int := if neg? x then -(units x : Int) else units x

/-- `-x`. -/
def negate (x : T) : T := make (!neg? x) (pat x)

/-- `std::abs(x)`. -/
def absolute (x : T) : T := make false (pat x)

/-- `x + y`. -/
def add (x y : T) : T :=
  if isNaN x || isNaN y then nan
  else if isInf x then (if isInf y && (neg? x != neg? y) then nan else x)
  else if isInf y then y
  else if signedUnits x + signedUnits y = 0 then zero (neg? x && neg? y)
  else roundTo (decide (signedUnits x + signedUnits y < 0)) (signedUnits x + signedUnits y).natAbs (2 ^ (fmt T).scale)

/-- `x - y`. -/
def sub (x y : T) : T := add x (negate y)

/-- `x * y`. -/
def mul (x y : T) : T :=
  if isNaN x || isNaN y then nan
  else if isInf x then (if units y = 0 then nan else infinity (neg? x != neg? y))
  else if isInf y then (if units x = 0 then nan else infinity (neg? x != neg? y))
  else roundTo (neg? x != neg? y) (units x * units y) (2 ^ (fmt T).scale * 2 ^ (fmt T).scale)

/-- `x / y`. -/
def div (x y : T) : T :=
  if isNaN x || isNaN y then nan
  else if isInf x then (if isInf y then nan else infinity (neg? x != neg? y))
  else if isInf y then zero (neg? x != neg? y)
  else if units y = 0 then (if units x = 0 then nan else infinity (neg? x != neg? y))
  else roundTo (neg? x != neg? y) (units x) (units y)

/-- The numbers from minus infinity to infinity in their order; both zeros are at 0. -/
def key (x : T) : Int := if neg? x then -(pat x : Int) else pat x

/-- `x < y`: false if one is NaN. -/
def lt (x y : T) : Bool := !isNaN x && !isNaN y && decide (key x < key y)

/-- `x == y`: false if one is NaN. -/
def eq (x y : T) : Bool := !isNaN x && !isNaN y && decide (key x = key y)

/-- `static_cast<S>(x)` between floating point types. -/
def cast (x : T) : S :=
  if isNaN x then nan
  else if isInf x then infinity (neg? x)
  else roundTo (neg? x) (units x) (2 ^ (fmt T).scale)

/-- `static_cast<T>(z)` of an integer. -/
def ofInt (z : Int) : T := roundTo (decide (z < 0)) z.natAbs 1

end
end Feat.FloatArith
