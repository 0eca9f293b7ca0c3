import Verif.Spec.FloatText
/-
What scaling a column means when the results are floating point numbers.
-/
namespace Feat.FloatScalers
open FloatText
variable {V : Type}

/-- `x` is the floating point number for `q`: the nearest one, or infinity with its sign if `q` is too large. -/
def Rounded {T : Type} [Binary T] (q : ℚ) (x : T) : Prop :=
  (|q| < tooLarge T → IsNearest q x) ∧ (tooLarge T ≤ |q| → IsInf x ∧ negative x = decide (q < 0))

/-- `val x` lies between values of the column. -/
def Between (val : V → ℚ) (values : List V) (x : V) : Prop := ∃ a ∈ values, ∃ b ∈ values, val a ≤ val x ∧ val x ≤ val b

/-- `a` is a least value of the column. -/
def Least (val : V → ℚ) (values : List V) (a : V) : Prop := a ∈ values ∧ ∀ v ∈ values, val a ≤ val v

/-- `b` is a greatest value of the column. -/
def Greatest (val : V → ℚ) (values : List V) (b : V) : Prop := b ∈ values ∧ ∀ v ∈ values, val v ≤ val b

/-- `f` scales a column to the unit interval: for numbers between the column's values the results are between 0 and 1 and in
order, a least value becomes 0, and a greatest one 1 unless all are equal. -/
structure UnitRange (num : V → Prop) (val : V → ℚ) (values : List V) (f : V → F64) : Prop where
  unit : ∀ x, num x → Between val values x → Finite (f x) ∧ 0 ≤ value (f x) ∧ value (f x) ≤ 1
  ordered : ∀ x y, num x → num y → Between val values x → Between val values y → val x ≤ val y → value (f x) ≤ value (f y)
  least : ∀ a, Least val values a → value (f a) = 0
  greatest : ∀ a b, Least val values a → Greatest val values b → val a < val b → value (f b) = 1

/-- `f` is within `ε` of exact scaling: `(x - least) / (greatest - least)`. -/
def WithinExact (ε : ℚ) (num : V → Prop) (val : V → ℚ) (values : List V) (f : V → F64) : Prop :=
  ∀ x a b, num x → Between val values x → Least val values a → Greatest val values b → val a < val b →
    |value (f x) - (val x - val a) / (val b - val a)| ≤ ε

/-- `f` scales a column almost to the unit interval: as `UnitRange`, but the results may exceed 1, and that of a greatest value
miss it, by `ε`. -/
structure NearlyUnit (ε : ℚ) (num : V → Prop) (val : V → ℚ) (values : List V) (f : V → F64) : Prop where
  unit : ∀ x, num x → Between val values x → Finite (f x) ∧ 0 ≤ value (f x) ∧ value (f x) ≤ 1 + ε
  ordered : ∀ x y, num x → num y → Between val values x → Between val values y → val x ≤ val y → value (f x) ≤ value (f y)
  least : ∀ a, Least val values a → value (f a) = 0
  greatest : ∀ a b, Least val values a → Greatest val values b → val a < val b → |value (f b) - 1| ≤ ε

/-- `f` scales a column by its largest absolute value: for numbers not larger than it the results are between -1 and 1 and in
order, and a number with the largest absolute value becomes 1 or -1, unless all are zero. -/
structure AbsRange {T : Type} [Binary T] (num : V → Prop) (val : V → ℚ) (values : List V) (f : V → T) : Prop where
  unit : ∀ x, num x → (∃ v ∈ values, |val x| ≤ |val v|) → Finite (f x) ∧ |value (f x)| ≤ 1
  ordered : ∀ x y, num x → num y → (∃ v ∈ values, |val x| ≤ |val v|) → (∃ v ∈ values, |val y| ≤ |val v|) → val x ≤ val y →
    value (f x) ≤ value (f y)
  extreme : ∀ x ∈ values, (∀ v ∈ values, |val v| ≤ |val x|) → val x ≠ 0 → value (f x) = if val x < 0 then -1 else 1
  zeros : ∀ x, num x → val x = 0 → value (f x) = 0

end Feat.FloatScalers
