import Verif.Model.ComponentPipeline
import Verif.Spec.Components
import Verif.Spec.PipelineTraining
/-
What training such a featurizer means: train each component on the same data, one after the other, then
create the transformer from the annotations.
-/
namespace Feat
variable {ι α T : Type} {σ : Nat → Type}

/-- Train the components with the given numbers in turn. -/
def trainComponents (comps : (i : Nat) → Component (σ i) ι α) (batches : List (List ι)) :
    List Nat → Op (AnnotationMaps α) Unit
  | [], maps => (.ok (), maps)
  | i :: is, maps =>
    match trainEstimator (comps i).policy (comps i).config (comps i).cap (comps i).init batches maps with
    | (.error e, maps) => (.error e, maps)
    | (.ok (), maps) => trainComponents comps batches is maps

/-- Train the components, then create the transformer. -/
def trainedFeaturizer (comps : (i : Nat) → Component (σ i) ι α) (n : Nat)
    (mk : AnnotationMaps α → Except Err T) (batches : List (List ι)) (maps : AnnotationMaps α) :
    Except Err T :=
  match trainComponents comps batches (List.range n) maps with
  | (.error e, _) => .error e
  | (.ok (), maps) => mk maps

/-- Training the featurizer with the standard training loop over the batches ends, for every sufficiently
large number of iterations, with the result `r`: an exception, or a pipeline transformer whose only
transformer is `t`. -/
def FeaturizerYields (X : Xf T ι ι) (comps : (i : Nat) → Component (σ i) ι α) (n : Nat)
    (mk : AnnotationMaps α → Except Err T) (batches : List (List ι)) (maps : AnnotationMaps α)
    (r : Except Err T) : Prop :=
  ∃ N, ∀ fuel, N ≤ fuel → ∃ e, trainAndCreate (Pipeline.hooks X) batches fuel
      (newFeaturizer comps n mk maps)
    = some (r.map (fun t => List.replicate n none ++ [some t]), e)

end Feat
