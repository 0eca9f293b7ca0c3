import Verif.Model.Text
import Mathlib.Algebra.Order.Ring.Rat
import Mathlib.Algebra.Field.Rat
import Mathlib.Algebra.Order.Ring.Abs
/-
What the bits of a floating point number mean (IEEE 754), what it means that a number is nearest to another one, and what
number a text denotes.
-/
namespace Feat.FloatText

/-! ### Floating point numbers -/

/-- A binary interchange format of IEEE 754: the number of bits of the fraction and of the exponent; the bits of a number,
as a natural number. -/
class Binary (T : Type) where
  frac : Nat
  exp : Nat
  bits : T → Nat

instance : Binary F32 := ⟨23, 8, fun x => x.bits.toNat⟩
instance : Binary F64 := ⟨52, 11, fun x => x.bits.toNat⟩

section
variable {T : Type} [Binary T]

/-- The bits of the fraction. -/
def fraction (x : T) : Nat := Binary.bits x % 2 ^ Binary.frac T

/-- The bits of the exponent. -/
def exponent (x : T) : Nat := Binary.bits x / 2 ^ Binary.frac T % 2 ^ Binary.exp T

/-- The sign bit. -/
def negative (x : T) : Bool := decide (2 ^ (Binary.exp T + Binary.frac T) ≤ Binary.bits x)

/-- The bias of the exponent. -/
def bias (T : Type) [Binary T] : Nat := 2 ^ (Binary.exp T - 1) - 1

/-- Not infinite and not NaN. -/
def Finite (x : T) : Prop := exponent x ≠ 2 ^ Binary.exp T - 1

/-- Infinity. -/
def IsInf (x : T) : Prop := exponent x = 2 ^ Binary.exp T - 1 ∧ fraction x = 0

/-- Not a number. -/
def IsNaN (x : T) : Prop := exponent x = 2 ^ Binary.exp T - 1 ∧ fraction x ≠ 0

/-- The number that a finite pattern stands for: `± 0.f · 2^(1 - bias)` or `± 1.f · 2^(e - bias)`. -/
def value (x : T) : ℚ :=
  (if negative x then -1 else 1) *
    if exponent x = 0 then (fraction x : ℚ) / 2 ^ Binary.frac T * 2 ^ (1 - (bias T : ℤ))
    else (1 + (fraction x : ℚ) / 2 ^ Binary.frac T) * 2 ^ ((exponent x : ℤ) - bias T)

/-- `x` is a floating point number nearest to `q`: no finite one is nearer, and if another one is as near, then the last bit
of `x` is zero. -/
structure IsNearest (q : ℚ) (x : T) : Prop where
  finite : Finite x
  least : ∀ y : T, Finite y → |value x - q| ≤ |value y - q|
  even : ∀ y : T, Finite y → |value y - q| = |value x - q| → value y ≠ value x → Binary.bits x % 2 = 0

/-- From here on a number is too large: the middle between the largest finite number and the next power of two. -/
def tooLarge (T : Type) [Binary T] : ℚ := (4 * 2 ^ Binary.frac T - 1) * 2 ^ ((bias T : ℤ) - Binary.frac T - 1)

/-- Below this a number stays below the smallest normal number `2^(1 - bias)` when it is rounded to `frac + 1` significant
bits. -/
def tooSmall (T : Type) [Binary T] : ℚ := (4 * 2 ^ Binary.frac T - 1) * 2 ^ (1 - (bias T : ℤ) - Binary.frac T - 2)

end

/-! ### Texts -/

/-- The text `s` starts with a decimal number that denotes `q`; `neg`: it has a minus sign.  White space, a sign, digits
(`ip`), a point and digits (`fp`), an exponent; then something (`rest`) that does not continue the number. -/
structure Numeral (s : List UInt8) (neg : Bool) (q : ℚ) : Prop where
  parts : ∃ (ws sign ip point fp expo rest : List UInt8) (e : ℤ),
    s = ws ++ sign ++ ip ++ point ++ fp ++ expo ++ rest ∧
    (∀ c ∈ ws, isSpace c = true) ∧
    (neg = true ∧ sign = [45] ∨ neg = false ∧ (sign = [] ∨ sign = [43])) ∧
    (∀ c ∈ ip ++ fp, isDigit c = true) ∧ ip ++ fp ≠ [] ∧
    (point = [46] ∨ point = [] ∧ fp = []) ∧
    (expo = [] ∧ e = 0 ∨
      ∃ letter esign ds, expo = letter :: (esign ++ ds) ∧ (letter = 101 ∨ letter = 69) ∧ (∀ c ∈ ds, isDigit c = true) ∧ ds ≠ [] ∧
        (esign = [45] ∧ e = -(digitsVal ds : ℤ) ∨ (esign = [] ∨ esign = [43]) ∧ e = digitsVal ds)) ∧
    (∀ c, rest.head? = some c → isDigit c = false ∧ c ≠ 46 ∧ c ≠ 101 ∧ c ≠ 69 ∧ c ≠ 120 ∧ c ≠ 88) ∧
    q = (if neg then -1 else 1) * ((digitsVal ip : ℚ) + (digitsVal fp : ℚ) / 10 ^ fp.length) * (10 : ℚ) ^ e

/-- "inf" in small or capital letters. -/
def SpellsInf (w : List UInt8) : Prop :=
  ∃ i n f, w = [i, n, f] ∧ (i = 105 ∨ i = 73) ∧ (n = 110 ∨ n = 78) ∧ (f = 102 ∨ f = 70)

/-- "nan" in small or capital letters. -/
def SpellsNaN (w : List UInt8) : Prop :=
  ∃ n a m, w = [n, a, m] ∧ (n = 110 ∨ n = 78) ∧ (a = 97 ∨ a = 65) ∧ (m = 110 ∨ m = 78)

/-- The text is white space, a sign (`neg`: minus), and `body`. -/
def After (s : List UInt8) (neg : Bool) (body : List UInt8) : Prop :=
  ∃ ws sign, s = ws ++ sign ++ body ∧ (∀ c ∈ ws, isSpace c = true) ∧
    (neg = true ∧ sign = [45] ∨ neg = false ∧ (sign = [] ∨ sign = [43]))

/-- After white space and sign the text goes on with a digit, a point and a digit, or one of the two words. -/
def StartsNumber (s : List UInt8) : Prop :=
  ∃ neg body, After s neg body ∧
    ((∃ d rest, body = d :: rest ∧ isDigit d = true) ∨ (∃ d rest, body = 46 :: d :: rest ∧ isDigit d = true) ∨
      ∃ w rest, body = w ++ rest ∧ (SpellsInf w ∨ SpellsNaN w))

/-- A number of millionths, as a text with six decimals. -/
def sixDecimals (neg : Bool) (k : Nat) : List UInt8 :=
  (if neg then [45] else []) ++ natText (k / 1000000) ++ [46] ++
    [48 + UInt8.ofNat (k / 100000 % 10), 48 + UInt8.ofNat (k / 10000 % 10), 48 + UInt8.ofNat (k / 1000 % 10),
      48 + UInt8.ofNat (k / 100 % 10), 48 + UInt8.ofNat (k / 10 % 10), 48 + UInt8.ofNat (k % 10)]

end Feat.FloatText
