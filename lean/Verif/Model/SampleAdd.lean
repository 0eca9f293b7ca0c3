import Verif.Model.Estimator
/-
Model of SampleAddFeaturizer.h/.cpp.
-/
namespace Feat

/-- The loop of `fit_impl` (SampleAddFeaturizer.cpp 80–89): `_accumulated_delta += *pBuffer`, an `std::uint16_t` added to an
`std::uint32_t`. -/
def addItems : List UInt16 → UInt32 → UInt32
  | [], acc => acc
  | x :: xs, acc => addItems xs (acc + x.toUInt32)

/-- `SampleAddEstimator` (SampleAddFeaturizer.cpp 70–97; Featurizer.h 826–830); its state is `_accumulated_delta`, its
transformer is `Delta`. -/
def sampleAddHooks : Hooks UInt32 UInt16 UInt32 where
  begin := fun s => (.ok true, s)
  fit := fun items s => (.ok .continue, addItems items s)
  onDataCompleted := fun s => (.ok true, s)
  complete := fun s => (.ok (), s)
  create := fun s => (.ok (some s), s)

/-- `SampleAddTransformer::execute_impl` (SampleAddFeaturizer.cpp 61–63). -/
def sampleAddExecute (delta : UInt32) (input : UInt16) : UInt32 := input.toUInt32 + delta

end Feat
