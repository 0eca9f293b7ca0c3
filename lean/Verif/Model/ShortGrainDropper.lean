import Verif.Model.Estimator
import Verif.Model.Transformer
import Verif.Model.UMapOps
/-
Model of ShortGrainDropperFeaturizer.h/.cpp.
-/
namespace Feat
variable {K : Type}

/-- One round of the loop of `fit_impl` (ShortGrainDropperFeaturizer.h 120–127): the count is a `uint32_t`. -/
def countGrain [DecidableEq K] (m : UMap K UInt32) (k : K) : UMap K UInt32 :=
  match m.find? k with
  | some _ => m.update k (· + 1)
  | none => m.emplace k 1

/-- `create_transformer_impl` (ShortGrainDropperFeaturizer.h 137–141): the grains to keep, collected in the iteration order
of the counts. -/
def grainsToKeep [DecidableEq K] (it : IterOrder K UInt32) (minPoints : UInt32) (m : UMap K UInt32) : USet K :=
  (it.order m.entries).foldl (fun s e => if e.2 ≥ minPoints then s.emplace e.1 else s) ⟨[], by simp⟩

/-- `ShortGrainDropperEstimator` (ShortGrainDropperFeaturizer.h 115–147, 189–199); `on_data_completed_impl` is not
overridden.  The limit `MaxNumTrainingItemsV` is not used by the code. -/
def dropperHooks [DecidableEq K] (it : IterOrder K UInt32) (minPoints : UInt32) : Hooks (UMap K UInt32) K (USet K) where
  begin m := (.ok true, m)
  fit items m := (.ok .continue, items.foldl countGrain m)
  onDataCompleted m := (.ok true, m)
  complete m := (.ok (), m)
  create m := (.ok (some (grainsToKeep it minPoints m)), .empty)

/-- The constructor (ShortGrainDropperFeaturizer.h 165–186); `cols` is the number of columns. -/
def newDropper (cols colIndex : Nat) (minPoints : UInt32) : Except Err (Est (UMap K UInt32)) :=
  if colIndex ≥ cols then .error .invalidArgument
  else if minPoints = 0 then .error .invalidArgument
  else .ok (.new .empty)

/-- `execute_impl` (ShortGrainDropperFeaturizer.cpp 53–56): true to drop. -/
def dropperXf [DecidableEq K] : Xf (USet K) K Bool := .ofFun fun keep k => .ok (!decide (k ∈ keep.elems))

end Feat
