import Verif.Model.Estimator
import Verif.Model.Transformer
/-
Model of Components/PipelineExecutionEstimatorImpl.h and
Components/Details/PipelineExecutionEstimatorImpl_details.h ("Details" below).

Simplifications: the template recursion over the estimator types is a recursion over a list; all item types
are one type `V` and all transformer types one type `T` (the C++ compiler has checked that they fit).  The
private data of all stages and the shared annotations are one state `G`, on which every stage's virtual
functions may act arbitrarily.
-/
namespace Feat

/-- One estimator type of the pipeline. -/
structure Stage (G V T : Type) where
  hooks : Hooks G V T
  isTransformer : Bool

/-- One `EstimatorChainElement`: an estimator with its training state, whether it is a
`TransformerEstimator`, and the transformer kept by the `TransformerMixin` (Details 92–146). -/
structure Elem (G V T : Type) extends Stage G V T where
  state : TrainingState := .pending
  created : Bool := false
  xf : Option T := none

namespace Elem
variable {G V T α : Type}

/-- A new element (Details 375–382). -/
def new (s : Stage G V T) : Elem G V T := { toStage := s }

/-- Call a public function of the element's estimator. -/
def call (op : Op (Est G) α) (e : Elem G V T) (g : G) : Except Err α × Elem G V T × G :=
  match op ⟨e.state, e.created, g⟩ with
  | (r, s) => (r, { e with state := s.state, created := s.created }, s.inner)

/-- `create_transformer_if_necessary` (Details 545–550 and 734–739; empty for other estimators). -/
def createIfNecessary (e : Elem G V T) (g : G) : Except Err Unit × Elem G V T × G :=
  if e.isTransformer = false then (.ok (), e, g)
  else if e.created then (.ok (), e, g)
  else match e.call (Est.createTransformer e.hooks) g with
    | (.error x, e, g) => (.error x, e, g)
    | (.ok t, e, g) => (.ok (), { e with xf := some t }, g)

end Elem

namespace Pipeline
variable {G V T : Type}

/-- `has_all_training_finished` (Details 216–223, 315–320): the last estimator is Finished. -/
def hasAllFinished : List (Elem G V T) → Bool
  | [] => false
  | [e] => e.state == .finished
  | _ :: n :: es => hasAllFinished (n :: es)

/-- `complete_chained_estimator` (Details 328–340); `next` is `nextElement.begin_training()`. -/
def completeChained (e : Elem G V T) (rest : List (Elem G V T)) (g : G)
    (next : G → Except Err Bool × List (Elem G V T) × G) :
    Except Err Unit × List (Elem G V T) × G :=
  match e.call (Est.completeTraining e.hooks) g with
  | (.error x, e, g) => (.error x, e :: rest, g)
  | (.ok (), e, g) =>
    match e.createIfNecessary g with
    | (.error x, e, g) => (.error x, e :: rest, g)
    | (.ok (), e, g) =>
      match next g with
      | (.error x, rest, g) => (.error x, e :: rest, g)
      | (.ok _, rest, g) => (.ok (), e :: rest, g)

/-- `begin_training` (Details 168–183 and 248–263).  The empty chain does not exist. -/
def begin : List (Elem G V T) → G → Except Err Bool × List (Elem G V T) × G
  | [], g => (.error .ub, [], g)
  | [e], g =>
    match e.call (Est.beginTraining e.hooks) g with
    | (.error x, e, g) => (.error x, [e], g)
    | (.ok (), e, g) => (.ok (e.state == .training), [e], g)
  | e :: n :: es, g =>
    if e.state = .pending then
      match e.call (Est.beginTraining e.hooks) g with
      | (.error x, e, g) => (.error x, e :: n :: es, g)
      | (.ok (), e, g) =>
        if e.state ≠ .training then
          match completeChained e (n :: es) g (begin (n :: es)) with
          | (.error x, es, g) => (.error x, es, g)
          | (.ok (), es, g) => (.ok (!hasAllFinished es), es, g)
        else (.ok (!hasAllFinished (e :: n :: es)), e :: n :: es, g)
    else
      match begin (n :: es) g with
      | (r, es, g) => (r, e :: es, g)

/-- `fit` (Details 185–191 and 265–282) with `execute_next_fit` (Details 644–648 and 711–738). -/
def fit (X : Xf T V V) : List (Elem G V T) → List V → G →
    Except Err FitResult × List (Elem G V T) × G
  | [], _, g => (.error .ub, [], g)
  | [e], items, g =>
    match e.call (Est.fit e.hooks (some items)) g with
    | (r, e, g) => (r, [e], g)
  | e :: n :: es, items, g =>
    if e.state = .training then
      match e.call (Est.fit e.hooks (some items)) g with
      | (.error x, e, g) => (.error x, e :: n :: es, g)
      | (.ok .continue, e, g) => (.ok .continue, e :: n :: es, g)
      | (.ok _, e, g) =>
        match completeChained e (n :: es) g (begin (n :: es)) with
        | (.error x, es, g) => (.error x, es, g)
        | (.ok (), es, g) => (.ok (if hasAllFinished es then .complete else .reset), es, g)
    else if e.isTransformer then
      match e.xf with
      | none => (.error .ub, e :: n :: es, g)
      | some t =>
        match X.execAll t items with
        | ⟨_, some x, t'⟩ => (.error x, { e with xf := some t' } :: n :: es, g)
        | ⟨outs, none, t'⟩ =>
          if outs.isEmpty then (.ok .continue, { e with xf := some t' } :: n :: es, g)
          else match fit X (n :: es) outs g with
            | (r, es, g) => (r, { e with xf := some t' } :: es, g)
    else
      match fit X (n :: es) items g with
      | (r, es, g) => (r, e :: es, g)

/-- `on_data_completed` (Details 193–206 and 284–300) with `flush_transformer_if_necessary`
(Details 653–654 and 747–764).  The first argument is the number of elements; it only serves as the
measure of the recursion. -/
def dataCompletedN (X : Xf T V V) : Nat → List (Elem G V T) → G →
    Except Err Bool × List (Elem G V T) × G
  | 0, es, g => (.error .ub, es, g)
  | _ + 1, [], g => (.error .ub, [], g)
  | _ + 1, [e], g =>
    match e.call (Est.onDataCompleted e.hooks) g with
    | (.error x, e, g) => (.error x, [e], g)
    | (.ok (), e, g) => (.ok (e.state != .training), [e], g)
  | k + 1, e :: n :: es, g =>
    if e.state = .training then
      match e.call (Est.onDataCompleted e.hooks) g with
      | (.error x, e, g) => (.error x, e :: n :: es, g)
      | (.ok (), e, g) =>
        if e.state ≠ .training then
          match completeChained e (n :: es) g (begin (n :: es)) with
          | (.error x, es, g) => (.error x, es, g)
          | (.ok (), es, g) => (.ok (hasAllFinished es), es, g)
        else (.ok (hasAllFinished (e :: n :: es)), e :: n :: es, g)
    else if e.isTransformer then
      match e.xf with
      | none => (.error .ub, e :: n :: es, g)
      | some t =>
        match X.flush t with
        | ⟨_, some x, t'⟩ => (.error x, { e with xf := some t' } :: n :: es, g)
        | ⟨outs, none, t'⟩ =>
          if outs.isEmpty then
            match dataCompletedN X k (n :: es) g with
            | (r, es, g) => (r, { e with xf := some t' } :: es, g)
          else match fit X (n :: es) outs g with
            | (.error x, es, g) => (.error x, { e with xf := some t' } :: es, g)
            | (.ok _, es, g) =>
              match dataCompletedN X k es g with
              | (r, es, g) => (r, { e with xf := some t' } :: es, g)
    else
      match dataCompletedN X k (n :: es) g with
      | (r, es, g) => (r, e :: es, g)

/-- `on_data_completed` of the chain. -/
def dataCompleted (X : Xf T V V) (es : List (Elem G V T)) (g : G) :
    Except Err Bool × List (Elem G V T) × G :=
  dataCompletedN X es.length es g

/-- `complete_training` (Details 208–214 and 302–313); the first argument as in `dataCompletedN`. -/
def completeN : Nat → List (Elem G V T) → G → Except Err Unit × List (Elem G V T) × G
  | 0, es, g => (.error .ub, es, g)
  | _ + 1, [], g => (.error .ub, [], g)
  | _ + 1, [e], g =>
    match e.call (Est.completeTraining e.hooks) g with
    | (.error x, e, g) => (.error x, [e], g)
    | (.ok (), e, g) =>
      match e.createIfNecessary g with
      | (r, e, g) => (r, [e], g)
  | k + 1, e :: n :: es, g =>
    if e.state ≠ .completed then
      match completeChained e (n :: es) g (begin (n :: es)) with
      | (.error x, es, g) => (.error x, es, g)
      | (.ok (), [], g) => (.error .ub, [], g)
      | (.ok (), e :: es, g) =>
        match completeN k es g with
        | (r, es, g) => (r, e :: es, g)
    else
      match completeN k (n :: es) g with
      | (r, es, g) => (r, e :: es, g)

/-- `complete_training` of the chain. -/
def complete (es : List (Elem G V T)) (g : G) : Except Err Unit × List (Elem G V T) × G :=
  completeN es.length es g

/-- `PipelineExecutionEstimatorImpl` (PipelineExecutionEstimatorImpl.h 186–212, 262–277) as an estimator;
its transformer is the list of the stages' transformers (`none` for an estimator that is not a
`TransformerEstimator`). -/
def hooks (X : Xf T V V) : Hooks (List (Elem G V T) × G) V (List (Option T)) where
  begin := fun s => match Pipeline.begin s.1 s.2 with | (r, es, g) => (r, (es, g))
  fit := fun items s => match Pipeline.fit X s.1 items s.2 with | (r, es, g) => (r, (es, g))
  onDataCompleted := fun s => match dataCompleted X s.1 s.2 with | (r, es, g) => (r, (es, g))
  complete := fun s => match Pipeline.complete s.1 s.2 with | (r, es, g) => (r, (es, g))
  /- `create_transformer_impl`: `move_transformer` from every `TransformerEstimator` (Details 863, 1000). -/
  create := fun s => (.ok (some (s.1.map (·.xf))), s)

end Pipeline

/-! ### The transformer of a pipeline -/

namespace Chain
variable {T V : Type}

/-- The chain of `n` `TransformerChainElement`s as a transformer; its state is the list of the elements,
`none` for an element that is not a transformer.

`execute` (Details 831–833, 883–885, 951–953, 1020–1030): an element that is not a transformer passes the
value on; a transformer is executed with the callback `next.execute(output, callback)`; after the last
element comes the user's callback.  `flush` (Details 836–838, 888–890, 956–958, 1033–1043).
If the next element throws inside the callback, the exception passes through this element's transformer;
that transformer's state is then taken to be the one after the complete call (simplification; `PXf.chain` in
Model/Callbacks has the exact state, and `C79_pipeline` shows that values and exceptions are the same). -/
def xf (X : Xf T V V) : Nat → Xf (List (Option T)) V V
  | 0 => { exec := fun ts v => ⟨[v], none, ts⟩, flush := noFlush }
  | n + 1 =>
    let next := xf X n
    { exec := fun ts v =>
        match ts with
        | [] => ⟨[], some .ub, []⟩
        | none :: ts =>
          match next.exec ts v with
          | ⟨outs, e, ts'⟩ => ⟨outs, e, none :: ts'⟩
        | some t :: ts =>
          match X.exec t v with
          | ⟨outs, err, t'⟩ =>
            match next.execAll ts outs with
            | ⟨outs', some e, ts'⟩ => ⟨outs', some e, some t' :: ts'⟩
            | ⟨outs', none, ts'⟩ => ⟨outs', err, some t' :: ts'⟩
      flush := fun ts =>
        match ts with
        | [] => ⟨[], some .ub, []⟩
        | none :: ts =>
          match next.flush ts with
          | ⟨outs, e, ts'⟩ => ⟨outs, e, none :: ts'⟩
        | some t :: ts =>
          match X.flush t with
          | ⟨outs, err, t'⟩ =>
            match next.execAll ts outs with
            | ⟨outs', some e, ts'⟩ => ⟨outs', some e, some t' :: ts'⟩
            | ⟨outs', none, ts'⟩ =>
              match err with
              | some e => ⟨outs', some e, some t' :: ts'⟩
              | none =>
                match next.flush ts' with
                | ⟨outs'', e, ts''⟩ => ⟨outs' ++ outs'', e, some t' :: ts''⟩ }

end Chain
end Feat
