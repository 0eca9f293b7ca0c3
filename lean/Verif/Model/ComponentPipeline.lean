import Verif.Model.Pipeline
import Verif.Model.TrainingOnly
/-
Model of the typical featurizer: a pipeline (PipelineExecutionEstimatorImpl) of training-only component
estimators on a shared annotation store, followed by an estimator that needs no data of its own and creates
the transformer from the annotations (the `…EstimatorImpl` classes, e.g. LabelEncoderFeaturizer.h 90–143,
253–299; OneHotEncoderFeaturizer.h 97–151, 270–316; MinMaxScalerFeaturizer.h; CatImputerFeaturizer.h).
-/
namespace Feat

/-- The members of a training-only estimator other than the shared annotations. -/
structure TOPriv (σ : Type) where
  hasAnnotation : Bool
  remaining : Nat
  policy : σ

/-- One component of the featurizer: policy, configuration, cap and initial policy state. -/
structure Component (σ ι α : Type) where
  policy : Policy σ ι α
  config : TrainingOnlyConfig α
  cap : Nat
  init : σ

/-- The state shared by the stages: the annotations, and the private members of stage `i` for each `i`. -/
abbrev CompState (α : Type) (σ : Nat → Type) : Type := AnnotationMaps α × ((i : Nat) → TOPriv (σ i))

variable {ι α T : Type} {σ : Nat → Type}

/-- Assign the private members of stage `i`. -/
def setPriv (i : Nat) (t : TOPriv (σ i)) (p : (i : Nat) → TOPriv (σ i)) : (i : Nat) → TOPriv (σ i) :=
  fun j => if h : j = i then h ▸ t else p j

/-- A call of the training-only estimator of stage `i`. -/
def onStage {β : Type} (i : Nat) (op : Op (TrainingOnly (σ i) α) β) : Op (CompState α σ) β := fun g =>
  match op ⟨g.1, (g.2 i).hasAnnotation, (g.2 i).remaining, (g.2 i).policy⟩ with
  | (r, t) => (r, (t.maps, setPriv i ⟨t.hasAnnotation, t.remaining, t.policy⟩ g.2))

/-- Component estimator number `i` as a pipeline stage. -/
def componentStage (comps : (i : Nat) → Component (σ i) ι α) (i : Nat) :
    Stage (CompState α σ) ι T where
  hooks :=
    let h := trainingOnlyHooks (comps i).policy (comps i).config
    { begin := onStage i h.begin
      fit := fun items => onStage i (h.fit items)
      onDataCompleted := onStage i h.onDataCompleted
      complete := onStage i h.complete
      create := fun g => (.ok none, g) }
  isTransformer := false

/-- The `…EstimatorImpl` at the end: `begin_training_impl` returns false, `fit_impl` throws,
`complete_training_impl` does nothing, `create_transformer_impl` builds the transformer from the annotations
(`mk`). -/
def finalStage (mk : AnnotationMaps α → Except Err T) : Stage (CompState α σ) ι T where
  hooks :=
    { begin := fun g => (.ok false, g)
      fit := fun _ g => (.error .runtimeError, g)
      onDataCompleted := fun g => (.ok true, g)
      complete := fun g => (.ok (), g)
      create := fun g =>
        match mk g.1 with
        | .ok t => (.ok (some t), g)
        | .error e => (.error e, g) }
  isTransformer := true

/-- A new featurizer with the first `n` components, on the given annotations.  (The constructors check the
column index: hypotheses of the theorems.) -/
def newFeaturizer (comps : (i : Nat) → Component (σ i) ι α) (n : Nat)
    (mk : AnnotationMaps α → Except Err T) (maps : AnnotationMaps α) :
    Est (List (Elem (CompState α σ) ι T) × CompState α σ) :=
  Est.new (((List.range n).map (componentStage comps) ++ [finalStage mk]).map Elem.new,
    (maps, fun i => ⟨false, (comps i).cap, (comps i).init⟩))

/-- A featurizer with two components: their states and the components (anything from the second on is the
second). -/
@[reducible] def twoStates (σ₀ σ₁ : Type) : Nat → Type
  | 0 => σ₀
  | _ + 1 => σ₁

/-- See `twoStates`. -/
def twoComponents {σ₀ σ₁ ι : Type} (c₀ : Component σ₀ ι α) (c₁ : Component σ₁ ι α) :
    (i : Nat) → Component (twoStates σ₀ σ₁ i) ι α
  | 0 => c₀
  | _ + 1 => c₁

/-- A featurizer with three components. -/
@[reducible] def threeStates (σ₀ σ₁ σ₂ : Type) : Nat → Type
  | 0 => σ₀
  | 1 => σ₁
  | _ + 2 => σ₂

/-- See `threeStates`. -/
def threeComponents {σ₀ σ₁ σ₂ ι : Type} (c₀ : Component σ₀ ι α) (c₁ : Component σ₁ ι α)
    (c₂ : Component σ₂ ι α) : (i : Nat) → Component (threeStates σ₀ σ₁ σ₂ i) ι α
  | 0 => c₀
  | 1 => c₁
  | _ + 2 => c₂

end Feat
