import Verif.Model.Transformers
/-
The archive constructor of the time series imputer with its checks where they stand.
-/
namespace Feat

/-- `TimeSeriesImputerEstimator::Transformer(Archive &)` (Components/TimeSeriesImputerTransformer.h 258–317)
and the constructor it delegates to (238–256): the column types and the strategy are checked as soon as they
are read, before the medians and the flag. -/
def timeSeriesLoad (q : Nat) : M Archive (timeSeriesImputer q).Obj := do
  readVersion
  let d ← (Traits.deserialize : M Archive (Duration q))
  let types ← (Traits.deserialize : M Archive (List UInt32))
  if types.any (fun i => !validTypeId i) then M.throw .runtimeError
  else
    let s ← Scalar.read UInt8
    if ¬ (1 ≤ s.toNat ∧ s.toNat ≤ 4) then M.throw .runtimeError
    else
      let m ← (Traits.deserialize : M Archive (OMap (List Str) (List F64)))
      let b ← Scalar.read Bool
      if types.length = 0 then M.throw .runtimeError
      else if d.ticks.toInt = 2 ^ 63 - 1 then M.throw .runtimeError
      else pure (d, types, s, m, b)

end Feat
