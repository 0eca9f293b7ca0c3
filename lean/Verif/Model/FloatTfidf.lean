import Verif.Model.Vectorizer
import Verif.Model.FloatNorms
/-
The arithmetic of the tf-idf vectorizer on bit patterns.
-/
namespace Feat.FloatTfidf
open Feat.FloatArith

/-- The arithmetic of `TfidfVectorizerTransformer::execute_impl` (TfidfVectorizerFeaturizer.cpp 149–220): factors in
`double`, weights, norm and quotients in `float` (`std::float_t`).  `log` is `std::log` of the C library, which is not part
of the model.  `1 + total` is a sum of 32-bit integers.  The unqualified `sqrt` of line 212 may be that of `double`; its
result rounded to `float` is the same. -/
def floatOps (log : F64 → F64) : TfOps F64 F32 where
  ofCount n := ofInt n.toNat
  one := ofInt 1
  sublinear n := add (ofInt 1) (log (ofInt n.toNat))
  smoothIdf total df := add (ofInt 1) (log (div (ofInt (1 + total).toNat) (add (ofInt 1) (ofInt df.toNat))))
  plainIdf total df := add (ofInt 1) (log (div (ofInt (1 + total).toNat) (add (zero false) (ofInt df.toNat))))
  mul := mul
  toFloat := cast
  zeroF := zero false
  oneF := ofInt 1
  addF := add
  mulF := mul
  divF := div
  sqrtF := FloatNorms.sqrt

end Feat.FloatTfidf
