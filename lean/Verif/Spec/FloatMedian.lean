import Verif.Spec.FloatStats
/-
What the median of a column means when it is a floating point number, and what scaling by it means.
-/
namespace Feat.FloatMedian
open FloatText

/-- With the numbers in increasing order, `lo` and `hi` are those in the middle: the same one if their number is odd. -/
def Middles (l : List ℚ) (lo hi : ℚ) : Prop :=
  ∃ s : List ℚ, s.Perm l ∧ s.Pairwise (· ≤ ·) ∧ s[(s.length - 1) / 2]? = some lo ∧ s[s.length / 2]? = some hi

/-- `m` is the median of the numbers: the one in the middle, or, if there are two, the nearest number to the nearest `double` to their
mean, and between them. -/
def IsMedian {T : Type} [Binary T] (l : List ℚ) (m : T) : Prop :=
  ∃ lo hi, Middles l lo hi ∧ Finite m ∧ lo ≤ value m ∧ value m ≤ hi ∧
    ∃ d : F64, IsNearest ((lo + hi) / 2) d ∧ IsNearest (value d) m


/-- The smallest positive number. -/
def smallest (T : Type) [Binary T] : ℚ := 1 / 2 ^ (bias T + Binary.frac T - 1)

/-- `f` subtracts `m` and divides by `s`, up to the rounding of the two operations; nulls become NaN. -/
structure Centred {ι T : Type} [Binary T] (m s : ℚ) (number : ι → Prop) (val : FloatNorms.Reading ι) (f : ι → T) : Prop where
  null : ∀ x, val x = none → IsNaN (f x)
  near : ∀ x q, number x → val x = some q → |q - m| < tooLarge T → 2 * |(q - m) / s| < tooLarge T →
    Finite (f x) ∧ |value (f x) - (q - m) / s| ≤ 2 * |(q - m) / s| / 2 ^ Binary.frac T + smallest T
  zero : ∀ x, number x → val x = some m → Finite (f x) ∧ value (f x) = 0
  ordered : ∀ x y p q, number x → number y → val x = some p → val y = some q → p ≤ q →
    Finite (f x) → Finite (f y) → value (f x) ≤ value (f y)

/-- What the two quantile arguments say: no range, or one from 0 to 100. -/
def Quantiles (a b : F32) (range : Option (ℚ × ℚ)) : Prop :=
  (IsNaN a ∧ IsNaN b ∧ range = none) ∨
  (Finite a ∧ Finite b ∧ 0 ≤ value a ∧ value a ≤ value b ∧ value b ≤ 100 ∧ range = some (value a, value b))

/-- `S` is the given part of the range of the numbers, nearly; `u` is the unit of the smallest results. -/
def Spread (u : ℚ) (l : List ℚ) (a b S : ℚ) : Prop :=
  ∃ lo ∈ l, ∃ hi ∈ l, (∀ q ∈ l, lo ≤ q ∧ q ≤ hi) ∧ 0 ≤ S ∧
    |S - (hi - lo) * ((b - a) / 100)| ≤ (hi - lo) * ((b - a) / 100) / 2 ^ 21 + (hi - lo) / 2 ^ 149 + u ∧
    (lo = hi ∨ a = b → S = 0)

/-- `m` and `s` are the centre and the scale of the numbers `l`: the median (or 0) and the part of their range (or 1). -/
structure CentreAndSpread (T : Type) [Binary T] (u : ℚ) (centering : Bool) (range : Option (ℚ × ℚ)) (l : List ℚ) (m s : ℚ) : Prop where
  positive : 0 < s
  centre : centering = true → ∃ x : T, IsMedian l x ∧ m = value x
  origin : centering = false → m = 0
  unscaled : range = none → s = 1
  spread : ∀ a b, range = some (a, b) → ∃ S, Spread u l a b S ∧ s = if S = 0 then 1 else S

end Feat.FloatMedian
