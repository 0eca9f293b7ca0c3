import Verif.Model.GrainedWindows
import Verif.Model.Pipeline
/-
The pipeline that a grained rolling window estimator is: a grain estimator and an estimator that drops the grain.
-/
namespace Feat
variable {K T I O α : Type}

/-- What flows through the pipeline: a row with its grain, the result with its grain, the result. -/
inductive WindowItem (K I O : Type) where
  | row (x : K × I)
  | grained (x : K × O)
  | result (x : O)

/-- The transformers of its two stages. -/
inductive WindowXf (K T : Type) [LinearOrder K] where
  | grain (g : GrainTransformer K T)
  | decorator

/-- The two transformers (`grainXf`; Components/FilterDecoratorFeaturizer.h 63–65, with the default `flush_impl`).  Items of
the wrong kind do not pass the compiler. -/
def windowXf [LinearOrder K] (X : Xf T I O) : Xf (WindowXf K T) (WindowItem K I O) (WindowItem K I O) where
  exec t x := match t, x with
    | .grain g, .row x =>
      match (grainXf X).exec g x with
      | ⟨outs, e, g'⟩ => ⟨outs.map .grained, e, .grain g'⟩
    | .decorator, .grained x => ⟨[.result x.2], none, .decorator⟩
    | t, _ => ⟨[], some .ub, t⟩
  flush t := match t with
    | .grain g =>
      match (grainXf X).flush g with
      | ⟨outs, e, g'⟩ => ⟨outs.map .grained, e, .grain g'⟩
    | .decorator => ⟨[], none, .decorator⟩

/-- The rows among the items of the first stage. -/
def WindowItem.row? : WindowItem K I O → Option (K × I)
  | .row x => some x
  | _ => none

/-- The first stage (SimpleRollingWindowFeaturizer.h 330–351; AnalyticalRollingWindowFeaturizer.h 320–341). -/
def grainStage [LinearOrder K] (L : StoreLens (AnnotationMaps α) α) (fresh : AnnotationMaps α) (name : String)
    (wrap : OMap K α → α) (make : Except Err T) :
    Stage (GrainEst K (AnnotationMaps α) α) (WindowItem K I O) (WindowXf K T) where
  hooks :=
    let h := grainedHooks (I := I) L fresh name wrap make
    { begin := h.begin
      fit := fun items => h.fit (items.filterMap WindowItem.row?)
      onDataCompleted := h.onDataCompleted
      complete := h.complete
      create := fun g => match h.create g with
        | (.error e, g) => (.error e, g)
        | (.ok t, g) => (.ok (t.map .grain), g) }
  isTransformer := true

/-- The second stage (SimpleRollingWindowFeaturizer.h 352–354; Components/InferenceOnlyFeaturizerImpl.h 92–104, 149–163). -/
def decoratorStage [LinearOrder K] : Stage (GrainEst K (AnnotationMaps α) α) (WindowItem K I O) (WindowXf K T) where
  hooks :=
    { begin := fun g => (.ok false, g)
      fit := fun _ g => (.error .runtimeError, g)
      onDataCompleted := fun g => (.ok true, g)
      complete := fun g => (.ok (), g)
      create := fun g => (.ok (some .decorator), g) }
  isTransformer := true

/-- The constructor of `GrainedSimpleRollingWindowEstimator` and `GrainedAnalyticalRollingWindowEstimator`
(SimpleRollingWindowFeaturizer.h 325–358; AnalyticalRollingWindowFeaturizer.h 315–348): the pipeline makes its estimators, and
the grain estimator one of a series, which checks the arguments. -/
def windowPipeline [LinearOrder K] (L : StoreLens (AnnotationMaps α) α) (fresh : AnnotationMaps α) (name : String)
    (wrap : OMap K α → α) (args : Except Err Unit) (make : Except Err T) (maps : AnnotationMaps α) (cap : Nat) :
    Except Err (Est (List (Elem (GrainEst K (AnnotationMaps α) α) (WindowItem K I O) (WindowXf K T)) ×
      GrainEst K (AnnotationMaps α) α)) :=
  match grainedNew (K := K) (σ := AnnotationMaps α) args maps cap with
  | .error e => .error e
  | .ok e => .ok (Est.new ([grainStage L fresh name wrap make, decoratorStage].map Elem.new, e.inner))

end Feat
