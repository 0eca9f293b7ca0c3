import Verif.Model.Basic
/-
Model of the training life cycle of estimators (Featurizer.h 706–857) and of annotations
(Featurizer.h 640–701).
-/
namespace Feat

/-- `TrainingState` (Featurizer.h 329–334). -/
inductive TrainingState where
  | pending | training | finished | completed
  deriving DecidableEq, Repr

/-- `FitResult` (Featurizer.h 340–344). -/
inductive FitResult where
  | complete | continue | reset
  deriving DecidableEq, Repr

/-- The virtual functions of a concrete estimator with private state `σ`, input items `ι` and produced
transformers `τ`: `begin_training_impl`, `fit_impl`, `on_data_completed_impl`,
`complete_training_impl`, `create_transformer_impl` (`none` is a null pointer). Arbitrary. -/
structure Hooks (σ ι τ : Type) where
  begin : Op σ Bool
  fit : List ι → Op σ FitResult
  onDataCompleted : Op σ Bool
  complete : Op σ Unit
  create : Op σ (Option τ)

/-- An estimator object: `FitEstimator::_state`, `TransformerEstimator::_createdTransformer` and the
concrete estimator's own state. -/
structure Est (σ : Type) where
  state : TrainingState
  created : Bool
  inner : σ
  deriving Repr

/-- A new estimator (Featurizer.h 736–746: `_state(Pending)`; `_createdTransformer` is false). -/
def Est.new {σ : Type} (s : σ) : Est σ := { state := .pending, created := false, inner := s }

namespace Est
variable {σ ι τ : Type}

/-- `FitEstimator::begin_training` (Featurizer.h 753–764). -/
def beginTraining (h : Hooks σ ι τ) : Op (Est σ) Unit := fun e =>
  if e.state ≠ .pending then (.error .runtimeError, e)
  else match h.begin e.inner with
    | (.error x, s) => (.error x, { e with inner := s })
    | (.ok true, s) => (.ok (), { e with inner := s, state := .training })
    | (.ok false, s) => (.ok (), { e with inner := s, state := .finished })

/-- `FitEstimator::fit` (Featurizer.h 778–795). `none` is a null pointer, the list the items. -/
def fit (h : Hooks σ ι τ) (p : Option (List ι)) : Op (Est σ) FitResult := fun e =>
  if e.state ≠ .training then (.error .runtimeError, e)
  else match p with
    | none => (.error .invalidArgument, e)
    | some items =>
      if items.length = 0 then (.error .invalidArgument, e)
      else match h.fit items e.inner with
        | (.error x, s) => (.error x, { e with inner := s })
        | (.ok .complete, s) => (.ok .complete, { e with inner := s, state := .finished })
        | (.ok r, s) => (.ok r, { e with inner := s })

/-- `FitEstimator::on_data_completed` (Featurizer.h 801–810). -/
def onDataCompleted (h : Hooks σ ι τ) : Op (Est σ) Unit := fun e =>
  if e.state ≠ .training ∧ e.state ≠ .finished then (.error .runtimeError, e)
  else if e.state ≠ .finished then
    match h.onDataCompleted e.inner with
    | (.error x, s) => (.error x, { e with inner := s })
    | (.ok true, s) => (.ok (), { e with inner := s, state := .finished })
    | (.ok false, s) => (.ok (), { e with inner := s })
  else (.ok (), e)

/-- `FitEstimator::complete_training` (Featurizer.h 812–821). -/
def completeTraining (h : Hooks σ ι τ) : Op (Est σ) Unit := fun e =>
  if e.state ≠ .training ∧ e.state ≠ .finished then (.error .runtimeError, e)
  else match h.complete e.inner with
    | (.error x, s) => (.error x, { e with inner := s })
    | (.ok (), s) => (.ok (), { e with inner := s, state := .completed })

/-- `TransformerEstimator::create_transformer` (Featurizer.h 842–857). -/
def createTransformer (h : Hooks σ ι τ) : Op (Est σ) τ := fun e =>
  if e.state ≠ .completed then (.error .runtimeError, e)
  else if e.created then (.error .runtimeError, e)
  else match h.create e.inner with
    | (.error x, s) => (.error x, { e with inner := s })
    | (.ok none, s) => (.error .runtimeError, { e with inner := s })
    | (.ok (some t), s) => (.ok t, { e with inner := s, created := true })

end Est

/-- The public calls on an estimator. -/
inductive EstCall (ι : Type) where
  | begin
  | fit (p : Option (List ι))
  | dataCompleted
  | complete
  | create

/-- Results of calls. -/
inductive EstOut (τ : Type) where
  | unit
  | fitResult (r : FitResult)
  | transformer (t : τ)

/-- Perform a call. -/
def EstCall.run {σ ι τ : Type} (h : Hooks σ ι τ) (c : EstCall ι) : Op (Est σ) (EstOut τ) := fun e =>
  match c with
  | .begin => ((Est.beginTraining h e).1.map fun _ => .unit, (Est.beginTraining h e).2)
  | .fit p => ((Est.fit h p e).1.map .fitResult, (Est.fit h p e).2)
  | .dataCompleted => ((Est.onDataCompleted h e).1.map fun _ => .unit, (Est.onDataCompleted h e).2)
  | .complete => ((Est.completeTraining h e).1.map fun _ => .unit, (Est.completeTraining h e).2)
  | .create => ((Est.createTransformer h e).1.map .transformer, (Est.createTransformer h e).2)

/-! ### Annotations -/

/-- `AnnotationMaps` (Featurizer.h 196–209): per column, a map from estimator name to the list of
annotations. An annotation is a value of some kind `α` (the kind tested by `dynamic_cast`). -/
abbrev AnnotationMaps (α : Type) := List (List (String × List α))

/-- `std::unordered_map::find` + `emplace` + `emplace_back` on one column (Featurizer.h 647–670). -/
def addToColumn {α : Type} (name : String) (a : α) : List (String × List α) → List (String × List α)
  | [] => [(name, [a])]
  | (n, as) :: rest =>
    if n = name then (n, as ++ [a]) :: rest else (n, as) :: addToColumn name a rest

/-- `Estimator::add_annotation` (Featurizer.h 640–675); `none` is a null annotation pointer. The name is
the estimator's, which its constructor ensured to be non-empty (Featurizer.h 706–729). -/
def addAnnotation {α : Type} (a : Option α) (col : Nat) (name : String) :
    Op (AnnotationMaps α) Unit := fun maps =>
  match a with
  | none => (.error .invalidArgument, maps)
  | some a =>
    if col ≥ maps.length then (.error .invalidArgument, maps)
    else (.ok (), maps.modify col (addToColumn name a))

/-- `Estimator::get_annotation_impl` (Featurizer.h 677–701): the first annotation under the name for
which the `dynamic_cast` (`kind`) succeeds. -/
def getAnnotation {α : Type} (kind : α → Bool) (maps : AnnotationMaps α) (col : Nat)
    (name : String) : Except Err (Option α) :=
  if col ≥ maps.length then .error .invalidArgument
  else if name = "" then .error .invalidArgument
  else match (maps.getD col []).find? (fun e => e.1 == name) with
    | none => .ok none
    | some e => .ok (e.2.find? kind)

/-- `Estimator::Estimator` (Featurizer.h 706–729): a non-empty name and at least one column. -/
def newEstimatorOk {α : Type} (name : String) (maps : AnnotationMaps α) : Except Err Unit :=
  if name = "" then .error .invalidArgument
  else if maps.isEmpty then .error .invalidArgument
  else .ok ()

end Feat
