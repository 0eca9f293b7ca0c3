import Verif.Model.Estimator
/-
Model of Components/TrainingOnlyEstimatorImpl.h: an estimator that only publishes an annotation.
-/
namespace Feat

/-- The `EstimatorPolicyT` of a training-only estimator with private state `σ`: `begin_training` (if the
policy has none, `fun _ s => (.ok true, s)`), which is given the annotations of the column, `fit` of one
item, and `complete_training`, which produces the annotation data and may look at all annotations (through
`get_column_annotations`).  (No policy of the library uses the buffer form of `fit`.) -/
structure Policy (σ ι α : Type) where
  begin : List (String × List α) → Op σ Bool
  fit : ι → Op σ Unit
  complete : AnnotationMaps α → Op σ α

/-- The members of a `TrainingOnlyEstimatorImpl` that change (TrainingOnlyEstimatorImpl.h 147–152), the
policy's state, and the shared annotation store. -/
structure TrainingOnly (σ α : Type) where
  maps : AnnotationMaps α
  hasAnnotation : Bool
  remaining : Nat
  policy : σ

/-- The constant members: column, estimator name, `_requiresTraining`, and the kind of annotation
recognised by the `dynamic_cast`. -/
structure TrainingOnlyConfig (α : Type) where
  col : Nat
  name : String
  requiresTraining : Bool
  kind : α → Bool

/-- A new object (TrainingOnlyEstimatorImpl.h 251–282): `none` if the column does not exist. `cap` is
`MaxNumTrainingItems`. -/
def TrainingOnly.new {σ α : Type} (maps : AnnotationMaps α) (c : TrainingOnlyConfig α) (cap : Nat)
    (s : σ) : Except Err (Est (TrainingOnly σ α)) :=
  if c.col ≥ maps.length then .error .invalidArgument
  else .ok (Est.new { maps, hasAnnotation := false, remaining := cap, policy := s })

/-- The loop of `fit_impl(…, false_type)` (TrainingOnlyEstimatorImpl.h 400–409). -/
def Policy.fitAll {σ ι α : Type} (p : Policy σ ι α) : List ι → Op σ Unit
  | [], s => (.ok (), s)
  | x :: xs, s =>
    match p.fit x s with
    | (.ok (), s') => p.fitAll xs s'
    | (.error e, s') => (.error e, s')

/-- The virtual functions of a training-only estimator. -/
def trainingOnlyHooks {σ ι α : Type} (p : Policy σ ι α) (c : TrainingOnlyConfig α) :
    Hooks (TrainingOnly σ α) ι Unit where
  /- `begin_training_impl` (TrainingOnlyEstimatorImpl.h 344–368). -/
  begin := fun t =>
    if c.requiresTraining = false then (.ok false, t)
    else match getAnnotation c.kind t.maps c.col c.name with
      | .error e => (.error e, t)
      | .ok (some _) => (.ok false, { t with hasAnnotation := true })
      | .ok none =>
        let t := { t with hasAnnotation := false }
        match p.begin (t.maps.getD c.col []) t.policy with
        | (.ok b, s) => (.ok b, { t with policy := s })
        | (.error e, s) => (.error e, { t with policy := s })
  /- `fit_impl` (TrainingOnlyEstimatorImpl.h 371–409). -/
  fit := fun items t =>
    let n := min t.remaining items.length
    match p.fitAll (items.take n) t.policy with
    | (.error e, s) => (.error e, { t with policy := s })
    | (.ok (), s) =>
      let t := { t with policy := s, remaining := t.remaining - n }
      (.ok (if t.remaining ≠ 0 then .continue else .complete), t)
  /- Not overridden: the default (Featurizer.h 826–830). -/
  onDataCompleted := fun t => (.ok true, t)
  /- `complete_training_impl` (TrainingOnlyEstimatorImpl.h 412–416). -/
  complete := fun t =>
    if t.hasAnnotation = false then
      match p.complete t.maps t.policy with
      | (.error e, s) => (.error e, { t with policy := s })
      | (.ok a, s) =>
        match addAnnotation (some a) c.col c.name t.maps with
        | (.ok (), m) => (.ok (), { t with policy := s, maps := m })
        | (.error e, m) => (.error e, { t with policy := s, maps := m })
    else (.ok (), t)
  /- Training-only estimators create no transformer. -/
  create := fun t => (.ok none, t)

end Feat
