import Verif.Spec.FloatNorms
import Verif.Spec.FloatScalers
/-
What the average of a column means when it is a floating point number.
-/
namespace Feat.FloatStats
open FloatText FloatNorms

/-- The mean of the numbers, and that of their absolute values. -/
def mean (l : List ℚ) : ℚ := l.sum / l.length
def meanAbs (l : List ℚ) : ℚ := sumAbs l / l.length

/-- `a` is between the least and the greatest of the numbers. -/
def Within (l : List ℚ) (a : F64) : Prop := (∃ lo ∈ l, lo ≤ value a) ∧ ∃ hi ∈ l, value a ≤ hi

/-- `a` is the mean of `l`, up to `ε` relative to the mean of the absolute values and half a unit of the smallest `double`. -/
def NearMean (ε : ℚ) (l : List ℚ) (a : F64) : Prop := Finite a ∧ |value a - mean l| ≤ ε * meanAbs l + 1 / 2 ^ 1074

/-- The sum of the squared distances from the mean, and the standard deviation. -/
def squares (l : List ℚ) : ℚ := (l.map fun q => (q - mean l) ^ 2).sum
noncomputable def deviation (l : List ℚ) : ℝ := Real.sqrt ((squares l : ℝ) / l.length)

/-- The relative error of the average and of the standard deviation of `n` numbers. -/
def error (n : Nat) : ℚ := n / 2 ^ 63 + 1 / 2 ^ 48

/-- `f` subtracts `m` and divides by `s`, for inputs that are numbers up to `2^1020`; nulls become NaN. -/
structure ScalesBy {ι : Type} (m s : ℚ) (number : ι → Prop) (val : Reading ι) (f : ι → F64) : Prop where
  null : ∀ x, val x = none → IsNaN (f x)
  near : ∀ x q, number x → val x = some q → |q| ≤ 2 ^ 1020 → |(q - m) / s| ≤ 2 ^ 1023 →
    Finite (f x) ∧ |value (f x) - (q - m) / s| ≤ |(q - m) / s| / 2 ^ 51 + 1 / 2 ^ 1074
  zero : ∀ x, number x → val x = some m → Finite (f x) ∧ value (f x) = 0
  ordered : ∀ x y p q, number x → number y → val x = some p → val y = some q → |p| ≤ 2 ^ 1020 → |q| ≤ 2 ^ 1020 → p ≤ q →
    Finite (f x) → Finite (f y) → value (f x) ≤ value (f y)

/-- `m` and `s` are the centre and the scale of the numbers `l`: the mean (or 0) and the standard deviation (or 1), nearly. -/
structure CentreAndScale (withMean withStd : Bool) (l : List ℚ) (m s : ℚ) : Prop where
  positive : 0 < s
  centre : withMean = true → |m - mean l| ≤ error l.length * meanAbs l + 1 / 2 ^ 1074
  within : withMean = true → (∃ lo ∈ l, lo ≤ m) ∧ ∃ hi ∈ l, m ≤ hi
  origin : withMean = false → m = 0
  scale : withStd = true → 1 / 2 ^ 1000 ≤ deviation l →
    |(s : ℝ) - deviation l| ≤ (error l.length : ℚ) * (deviation l + 2 * (meanAbs l : ℚ)) + 1 / 2 ^ 1072
  equal : withStd = true → (∀ p ∈ l, ∀ q ∈ l, p = q) → s = 1
  unscaled : withStd = false → s = 1

/-- The numbers are all equal, or all are at some distance from the mean: so far that no square is negligible beside the sum of the
squares, even with the error of the mean. -/
def Apart (l : List ℚ) : Prop := (∀ p ∈ l, ∀ q ∈ l, p = q) ∨
  ∀ q ∈ l, squares l ≤ 2 ^ 58 * (q - mean l) ^ 2 ∧ 8 * error l.length * meanAbs l ≤ |q - mean l| ∧ 1 / 2 ^ 1000 ≤ |q - mean l|

end Feat.FloatStats
