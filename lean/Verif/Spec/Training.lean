import Verif.Model.Estimator
/-
The standard way to train an estimator, written against its public calls only.
-/
namespace Feat
variable {σ ι τ : Type}

/-- Offer the batches one after the other while the estimator is in the Training state; stop at the first
exception. -/
def offer (h : Hooks σ ι τ) : List (List ι) → Op (Est σ) Unit
  | [], e => (.ok (), e)
  | b :: bs, e =>
    if e.state = .training then
      match Est.fit h (some b) e with
      | (.ok _, e') => offer h bs e'
      | (.error x, e') => (.error x, e')
    else (.ok (), e)

/-- Train once over the batches: begin, offer all batches, report the end of the data, complete. -/
def trainOnce (h : Hooks σ ι τ) (batches : List (List ι)) : Op (Est σ) Unit := fun e =>
  match Est.beginTraining h e with
  | (.error x, e) => (.error x, e)
  | (.ok (), e) =>
    match offer h batches e with
    | (.error x, e) => (.error x, e)
    | (.ok (), e) =>
      match Est.onDataCompleted h e with
      | (.error x, e) => (.error x, e)
      | (.ok (), e) => Est.completeTraining h e

/-- The loop of the standard way to train an estimator that may need several passes over the data
(Featurizers/TestHelpers.h 56–70): offer the batches in turn; start over after `Reset` and after the end of
the data; stop when the estimator is no longer in the Training state.  `none` means that the given number
of iterations did not suffice. `rest` are the batches from the iterator on. -/
def trainLoop (h : Hooks σ ι τ) (batches : List (List ι)) : Nat → List (List ι) → Est σ →
    Option (Except Err Unit × Est σ)
  | 0, _, _ => none
  | fuel + 1, rest, e =>
    if e.state ≠ .training then some (.ok (), e)
    else match rest with
      | [] => some (.error .ub, e)
      | b :: bs =>
        match Est.fit h (some b) e with
        | (.error x, e) => some (.error x, e)
        | (.ok .reset, e) => trainLoop h batches fuel batches e
        | (.ok _, e) =>
          if bs.isEmpty then
            match Est.onDataCompleted h e with
            | (.error x, e) => some (.error x, e)
            | (.ok (), e) => trainLoop h batches fuel batches e
          else trainLoop h batches fuel bs e

/-- `Train` (Featurizers/TestHelpers.h 45–77) followed by `create_transformer`.  (The exception "Nothing was
trained" is unreachable: after a loop that did not run the state is Finished.) -/
def trainAndCreate (h : Hooks σ ι τ) (batches : List (List ι)) (fuel : Nat) (e : Est σ) :
    Option (Except Err τ × Est σ) :=
  match Est.beginTraining h e with
  | (.error x, e) => some (.error x, e)
  | (.ok (), e) =>
    match (if batches.isEmpty then some (.ok (), e) else trainLoop h batches fuel batches e) with
    | none => none
    | some (.error x, e) => some (.error x, e)
    | some (.ok (), e) =>
      match Est.completeTraining h e with
      | (.error x, e) => some (.error x, e)
      | (.ok (), e) => some (Est.createTransformer h e)

end Feat
