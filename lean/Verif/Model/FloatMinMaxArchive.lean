import Verif.Model.Transformers
import Verif.Model.FloatScalers
/-
The archive side of the min-max scaler over floating point numbers.
-/
namespace Feat
open FloatArith FloatScalers

/-- `MinMaxScalerTransformer` over `float` or `double` (MinMaxScalerFeaturizer.h 189–250): archived are the minimum
and `_min + _span`. -/
def floatMinMax (T : Type) [FloType T] [Scalar T] : TClass where
  Params := T × T
  Obj := MinMaxScaler T
  versioned := true
  make p := newMinMax (floInput T) p.1 p.2
  toArchive t := (t.min, FloatArith.add t.min t.span)

end Feat
