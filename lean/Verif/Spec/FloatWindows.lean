import Verif.Spec.FloatScalers
import Verif.Model.FloatArith
/-
What the statistics of a window of floating point numbers should be.
-/
namespace Feat.FloatWindows
open Feat.FloatText Feat.FloatArith
variable {T : Type} [FloType T]

/-- The exact mean of the numbers of a window. -/
def mean (w : List T) : ℚ := (w.map value).sum / w.length

/-- The mean of the magnitudes of a window. -/
def magnitude (w : List T) : ℚ := (w.map fun x => |value x|).sum / w.length

/-- A mean of `n` numbers computed with rounding: `n + 1` units of the last place of the type of the numbers, relative
to the mean magnitude (and half of the smallest double). -/
def NearMean (w : List T) (v : F64) : Prop :=
  Finite v ∧ |value v - mean w| ≤ (w.length + 1) / 2 ^ (fmt T).frac * magnitude w + 1 / 2 ^ 1075

end Feat.FloatWindows
