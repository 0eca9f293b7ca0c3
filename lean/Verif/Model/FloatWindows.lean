import Verif.Model.FloatArith
import Verif.Model.Windows
/-
The calculators of the rolling window featurizers for `float` and `double`, on bit patterns (Featurizers/Calculators).
The windows themselves are in Model/Windows.
-/
namespace Feat.FloatWindows
open Feat.FloatArith
variable {T : Type} [FloType T]

/-- `std::numeric_limits<T>::min()` of a floating point type: the smallest positive normal number. -/
def smallestNormal : T := make false (2 ^ (fmt T).frac)

/-- `MinCalculator` (MinCalculator.h 25–49) executed on a window (Calculators.h 180–195). -/
def minCalc (l : List T) : Except Err T := .ok (l.foldl (fun m x => if lt x m then x else m) largest)

/-- `MaxCalculator` (MaxCalculator.h 25–49) executed on a window. -/
def maxCalc (l : List T) : Except Err T := .ok (l.foldl (fun m x => if lt m x then x else m) smallestNormal)

/-- `SumCalculator` with the initial value 0 (SumCalculator.h 27–47) executed on a window. -/
def sumCalc (l : List T) : T := add (zero false) (l.foldl add (zero false))

/-- `MeanCalculator` (MeanCalculator.h 24–51) executed on a window: the sum in the type of the values, the quotient in
`double`; the count is converted to `double`. -/
def meanCalc (l : List T) : Except Err F64 :=
  .ok (if l.length = 0 then zero false else div (cast (sumCalc l)) (ofInt l.length))

end Feat.FloatWindows
