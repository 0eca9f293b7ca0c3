import Verif.Model.TrainingOnly
import Verif.Spec.Training
/-
How a component estimator is used: constructed on the annotations shared by all estimators, trained on
batches of data, and read through the annotation it published.
-/
namespace Feat
variable {σ ι α : Type}

/-- Construct a training-only estimator (with its policy's initial state `s` and item cap `cap`) on the
shared annotations and train it once over the batches. The state is the shared annotation store. -/
def trainEstimator (p : Policy σ ι α) (c : TrainingOnlyConfig α) (cap : Nat) (s : σ)
    (batches : List (List ι)) : Op (AnnotationMaps α) Unit := fun maps =>
  match TrainingOnly.new maps c cap s with
  | .error e => (.error e, maps)
  | .ok e =>
    match trainOnce (trainingOnlyHooks p c) batches e with
    | (r, e') => (r, e'.inner.maps)

/-- What every training call has to provide: at least one item per batch. -/
def NoEmptyBatch (batches : List (List ι)) : Prop := ∀ b ∈ batches, b ≠ []

end Feat
