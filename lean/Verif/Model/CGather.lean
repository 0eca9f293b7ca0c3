import Verif.Model.CApi
import Verif.Model.Fills
/-
`Transform` of the featurizers that give any number of items for a row.
-/
namespace Feat.CApi
variable {τ ι O : Type}

/-- `Transform` and `Flush` with a callback that collects the items, which are returned as one array
(SharedLibrary_BackwardFillImputerFeaturizer.cpp 341–397, 399–449; SharedLibrary_ForecastingPivotFeaturizer.cpp 437–445;
SharedLibrary_LagLeadOperatorFeaturizer.cpp 423–431).  The array of `Flush` is one item here. -/
def gathering (X : Xf τ ι O) : Xf τ ι (List O) where
  exec t x := ⟨[(X.exec t x).outs], (X.exec t x).err, (X.exec t x).next⟩
  flush t := ⟨[(X.flush t).outs], (X.flush t).err, (X.flush t).next⟩

end Feat.CApi
