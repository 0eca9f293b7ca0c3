import Verif.Model.Numeric
import Verif.Model.Grain
import Verif.Spec.Components
/-
Model of the grained frequency estimator (Components/FrequencyEstimator.h 111–115) and of
Components/GlobalMinimumFrequencyEstimator.h.
-/
namespace Feat
variable {K : Type}

/-- The annotations used here: `FrequencyAnnotation` (FrequencyEstimator.h 24–47), `GrainEstimatorAnnotation`
(GrainFeaturizerImpl.h 27–54; the entries of its map in order) and `GlobalMinimumFrequencyAnnotation`
(GlobalMinimumFrequencyEstimator.h 24–50). -/
inductive FreqAnnot (K : Type) where
  | frequency (f : Int)
  | grains (l : List (K × FreqAnnot K))
  | global (f : Int)

/-- The `dynamic_cast` to `FrequencyAnnotation`. -/
def FreqAnnot.isFrequency : FreqAnnot K → Bool
  | .frequency _ => true
  | _ => false

/-- The `dynamic_cast` to `GrainEstimatorAnnotation`. -/
def FreqAnnot.isGrains : FreqAnnot K → Bool
  | .grains _ => true
  | _ => false

/-- The `dynamic_cast` to `GlobalMinimumFrequencyAnnotation`. -/
def FreqAnnot.isGlobal : FreqAnnot K → Bool
  | .global _ => true
  | _ => false

/-- A training-only estimator holds the shared annotations by a pointer (Featurizer.h 315). -/
def trainingOnlyLens {σ α : Type} : StoreLens (TrainingOnly σ α) α where
  get t := t.maps
  set m t := { t with maps := m }

/-- The virtual functions of `FrequencyEstimator` on column `col` (FrequencyEstimator.h 102–108). -/
def frequencyHooks (col : Nat) : Hooks (TrainingOnly (Int × Option Int) (FreqAnnot K)) Int Unit :=
  trainingOnlyHooks (frequencyPolicy .frequency) (frequencyConfig col FreqAnnot.isFrequency)

/-- `GrainedFrequencyEstimator` (FrequencyEstimator.h 111–115) whose creation function makes frequency estimators on
one column (as the only use does, UnitTests/GlobalMinimumFrequencyEstimator_UnitTest.cpp); `cap` is their
`MaxNumTrainingItemsV`. -/
def grainedFrequency [LinearOrder K] (cap : Nat) : GrainConfig K (TrainingOnly (Int × Option Int) (FreqAnnot K)) (FreqAnnot K) where
  inferenceOnly := false
  fresh := { maps := [], hasAnnotation := false, remaining := cap, policy := (durationMax, none) }
  name := "FrequencyEstimator"
  wrap m := .grains m.entries

/-- The loop of `complete_training` (GlobalMinimumFrequencyEstimator.h 178–183).  `get_annotation_data` of an
annotation asserts that it is a frequency (TrainingOnlyEstimatorImpl.h 320–323); otherwise undefined. -/
def globalLoop : List (K × FreqAnnot K) → Int → Except Err Int
  | [], freq => .ok freq
  | (_, .frequency f) :: rest, freq => globalLoop rest (if f < freq then f else freq)
  | _ :: _, _ => .error .ub

/-- `GlobalMinimumFrequencyTrainingOnlyPolicy` (GlobalMinimumFrequencyEstimator.h 165–185). -/
def globalPolicy (col : Nat) : Policy Unit (K × Int) (FreqAnnot K) where
  begin _ s := (.ok true, s)
  fit _ s := (.error .runtimeError, s)
  complete maps s :=
    match getAnnotationData FreqAnnot.isGrains maps col "GrainFrequencyEstimator" with
    | .error e => (.error e, s)
    | .ok (.grains l) => (match globalLoop l durationMax with | .error e => .error e | .ok f => .ok (.global f), s)
    | .ok _ => (.error .ub, s)

/-- `GlobalMinimumFrequencyEstimator` (GlobalMinimumFrequencyEstimator.h 17, 100–127, 155–158): it needs no
training. -/
def globalConfig (col : Nat) : TrainingOnlyConfig (FreqAnnot K) :=
  ⟨col, "GlobalMinimumFrequencyEstimator", false, FreqAnnot.isGlobal⟩

/-- Training a grained frequency estimator and then a global one on the same annotations, as the users of the two do
(UnitTests/GlobalMinimumFrequencyEstimator_UnitTest.cpp 22–44). -/
def trainGlobal [LinearOrder K] (col cap cap₂ : Nat) (batches : List (List (K × Int))) :
    Op (AnnotationMaps (FreqAnnot K)) Unit := fun maps =>
  match trainOnce (grainHooks (frequencyHooks col) trainingOnlyLens (grainedFrequency cap₂) none) batches
      (GrainEst.new maps cap) with
  | (.error e, g) => (.error e, g.inner.maps)
  | (.ok (), g) => trainEstimator (globalPolicy col) (globalConfig col) cap () batches g.inner.maps

end Feat
