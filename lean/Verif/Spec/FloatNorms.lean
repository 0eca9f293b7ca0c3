import Verif.Spec.FloatText
import Mathlib.Algebra.BigOperators.Group.List.Basic
import Mathlib.Analysis.Real.Sqrt
/-
What normalizing rows means when the results are floating point numbers.
-/
namespace Feat.FloatNorms
open FloatText
variable {V : Type}

/-- The number that an element of a row is, if it is not null. -/
abbrev Reading (V : Type) := V → Option ℚ

/-- A `float` or `double` is null if it is NaN. -/
def floNumber {T : Type} [Binary T] : Reading T := fun x =>
  if exponent x = 2 ^ Binary.exp T - 1 ∧ fraction x ≠ 0 then none else some (value x)

/-- The numbers of a row. -/
def numbers (val : Reading V) (row : List V) : List ℚ := row.filterMap val

/-- The norms. -/
def sumAbs (l : List ℚ) : ℚ := (l.map fun q => |q|).sum
def sumSq (l : List ℚ) : ℚ := (l.map fun q => q ^ 2).sum
def maxAbs (l : List ℚ) : ℚ := l.foldr (fun q m => max |q| m) 0

/-- Whatever the norm: nulls become NaN where they are; the numbers of a row that are not all zero become numbers from -1 to 1
of the same sign, in the same order; if all are zero all become NaN. -/
structure Normalized (val : Reading V) (row : List V) (out : List F64) : Prop where
  length : out.length = row.length
  null : ∀ (i : Nat) x y, row[i]? = some x → out[i]? = some y → val x = none → IsNaN y
  unit : (∃ q ∈ numbers val row, q ≠ 0) → ∀ (i : Nat) x y q, row[i]? = some x → out[i]? = some y → val x = some q →
    Finite y ∧ |value y| ≤ 1 ∧ 0 ≤ q * value y
  ordered : (∃ q ∈ numbers val row, q ≠ 0) → ∀ (i j : Nat) x x' y y' q q', row[i]? = some x → out[i]? = some y →
    row[j]? = some x' → out[j]? = some y' → val x = some q → val x' = some q' → q ≤ q' → value y ≤ value y'
  zeros : (∀ q ∈ numbers val row, q = 0) → ∀ y ∈ out, IsNaN y

/-- The results are within `ε` of the exact quotients. -/
def Near (S ε : ℝ) (val : Reading V) (row : List V) (out : List F64) : Prop :=
  ∀ (i : Nat) x y q, row[i]? = some x → out[i]? = some y → val x = some q → |(value y : ℝ) - q / S| ≤ ε

/-- No number but zero is negligible beside the sum of all: `q` itself for the sum of absolute values, `q^2` for that of the
squares. -/
def NoneNegligible (l : List ℚ) : Prop := l.length ≤ 2 ^ 60 ∧ ∀ q ∈ l, q = 0 ∨ l.sum < 2 ^ 61 * q

/-- All are natural numbers, and their sum is at most `2^64`. -/
def SmallNaturals (l : List ℚ) : Prop := l.length ≤ 2 ^ 60 ∧ l.sum ≤ 2 ^ 64 ∧ ∀ q ∈ l, ∃ n : Nat, q = n

end Feat.FloatNorms
