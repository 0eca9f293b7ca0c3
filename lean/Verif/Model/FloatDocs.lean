import Verif.Model.DocStats
import Verif.Model.FloatArith
/-
The floats of document statistics (DocumentStatisticsEstimator.cpp) on bit patterns.
-/
namespace Feat.FloatDocs
open Feat.FloatArith

/-- `<` on `float`, `0.0f`, `1.0f` and `termFrequencyIter->second / totalNumDocumentsFloat`, where the number of documents was
converted to `float` (DocumentStatisticsEstimator.cpp 145, 155, 184, 233, 236–238 and 354); `std::float_t` is `float`. -/
def documentOps : FloatOps F32 where
  lt := lt
  zero := zero false
  one := ofInt 1
  ratio n total := div (ofInt n.toNat) (ofInt total.toNat)

end Feat.FloatDocs
