import Verif.Model.Pipeline
/-
Specification of C13: training the stages one after the other, without any pipeline.
-/
namespace Feat
variable {G V T σ α : Type}

/-- Do one call, then the next; an exception ends the sequence. -/
def Op.andThen (a : Op σ Unit) (b : Op σ α) : Op σ α := fun s =>
  match a s with
  | (.error x, s) => (.error x, s)
  | (.ok (), s) => b s

/-- A batch as transformed by one stage (`none`: the stage is not a transformer). -/
def viaOne (X : Xf T V V) (t : Option T) (batch : List V) : Except Err (List V) :=
  match t with
  | none => .ok batch
  | some t =>
    match X.execAll t batch with
    | ⟨outs, none, _⟩ => .ok outs
    | ⟨_, some e, _⟩ => .error e

/-- A batch as transformed by all given stages in order. -/
def via (X : Xf T V V) : List (Option T) → List V → Except Err (List V)
  | [], batch => .ok batch
  | t :: ts, batch =>
    match viaOne X t batch with
    | .error e => .error e
    | .ok batch => via X ts batch

/-- Offer every batch, transformed by the earlier stages `ts`, to one estimator, for as long as it is in the
Training state; a batch that becomes empty is skipped. -/
def offerVia (X : Xf T V V) (ts : List (Option T)) (h : Hooks G V T) :
    List (List V) → Op (Est G) Unit
  | [], e => (.ok (), e)
  | b :: bs, e =>
    if e.state = .training then
      match via X ts b with
      | .error x => (.error x, e)
      | .ok [] => offerVia X ts h bs e
      | .ok (v :: vs) =>
        match Est.fit h (some (v :: vs)) e with
        | (.error x, e) => (.error x, e)
        | (.ok _, e) => offerVia X ts h bs e
    else (.ok (), e)

/-- Create the stage's transformer, if it is a transformer estimator. -/
def stageTransformer (s : Stage G V T) : Op (Est G) (Option T) := fun e =>
  if s.isTransformer then
    match Est.createTransformer s.hooks e with
    | (.error x, e) => (.error x, e)
    | (.ok t, e) => (.ok (some t), e)
  else (.ok none, e)

/-- Train one stage completely, on all the data: begin, offer all batches, report the end of the data,
complete, create its transformer. -/
def trainStage (X : Xf T V V) (ts : List (Option T)) (batches : List (List V)) (s : Stage G V T) :
    Op (Est G) (Option T) :=
  Op.andThen (Est.beginTraining s.hooks) <|
  Op.andThen (offerVia X ts s.hooks batches) <|
  Op.andThen (Est.onDataCompleted s.hooks) <|
  Op.andThen (Est.completeTraining s.hooks) (stageTransformer s)

/-- Train the stages strictly one after the other, each on the whole data as transformed by the completed
stages before it. The result is the list of their transformers. -/
def sequential (X : Xf T V V) (batches : List (List V)) :
    List (Option T) → List (Stage G V T) → G → Except Err (List (Option T)) × G
  | ts, [], g => (.ok ts, g)
  | ts, s :: ss, g =>
    match trainStage X ts batches s (Est.new g) with
    | (.error x, e) => (.error x, e.inner)
    | (.ok t, e) => sequential X batches (ts ++ [t]) ss e.inner

/-- An estimator that needs only one pass over the data: its `fit` never asks to start over, and the end of
the data finishes it.  (Every estimator of the library except the pipeline itself.) -/
def OnePass (h : Hooks G V T) : Prop :=
  (∀ items g, (h.fit items g).1 ≠ .ok .reset) ∧ ∀ g, (h.onDataCompleted g).1 ≠ .ok false

/-- A transformer `t` whose outputs depend on the current value only. -/
def Stateless (X : Xf T V V) (t : T) : Prop :=
  (∀ v, (X.exec t v).next = t) ∧ X.flush t = ⟨[], none, t⟩

/-- No estimator of a pipeline but the last one creates a transformer that keeps state. -/
def StatelessButLast (X : Xf T V V) (stages : List (Stage G V T)) : Prop :=
  ∀ s ∈ stages.dropLast, ∀ g t g', s.hooks.create g = (.ok (some t), g') → Stateless X t

end Feat
