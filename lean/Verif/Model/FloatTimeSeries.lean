import Verif.Model.FloatArith
import Verif.Model.FloatText
import Verif.Model.TimeSeriesTraining
/-
The numbers of the median strategy of the time series imputer (TimeSeriesMedianEstimator.h) on bit patterns.  The texts are read
and written with `Traits<std::double_t>` (Model/FloatText).
-/
namespace Feat.FloatTimeSeries
open Feat.FloatArith

/-- `0.0`, `+=` on `double` and `/=` by an `int64_t`, which is converted to `double` (TimeSeriesMedianEstimator.h 153, 161,
180). -/
instance doubles : TsNum F64 where
  zero := zero false
  plus := add
  over a n := div a (ofInt n)

end Feat.FloatTimeSeries
