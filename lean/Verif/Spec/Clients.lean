import Verif.Spec.Sessions
/-
A client that trains through the C interface and sees only the replies.
-/
namespace Feat.CApi
variable {ι O : Type}

/-- What the client learns from a call on its estimator. -/
inductive Sight (ι : Type) where
  | state (s : TrainingState)
  | fitted (xs : List ι) (r : FitResult)
  | dataCompleted
  | completed
  /-- a call that failed, or one that is not part of the training -/
  | other

/-- What is learnt from one call and its reply about the estimator behind the handle `h`; nothing from calls on other handles
and from calls that leave the estimator as it is (`GetState` apart). -/
def sightOf (h : Nat) : Request ι × Reply O → Option (Sight ι)
  | (.call (.getState i true) true, .returned true (.state s) _) => if i = h then some (.state s) else none
  | (.call (.fit i x true) true, .returned true (.fitResult r) _) => if i = h then some (.fitted [x] r) else none
  | (.call (.fitBuffer i (some (x :: xs)) true) true, .returned true (.fitResult r) _) =>
    if i = h then some (.fitted (x :: xs) r) else none
  | (.call (.onDataCompleted i) true, .returned true _ _) => if i = h then some .dataCompleted else none
  | (.call (.completeTraining i) true, .returned true _ _) => if i = h then some .completed else none
  | (r, _) => (stepOf h r).map fun _ => .other

/-- All the client learns, in order. -/
def sights (h : Nat) (es : List (Request ι × Reply O)) : List (Sight ι) := es.filterMap (sightOf h)

/-- The loop of a client with the batches `bs` (src/SharedLibrary/IntegrationTests/GeneratedCode/
SharedLibraryTests_CatImputerFeaturizer.h 46–73, there with batches of one item): ask for the state; while it is Training, fit
the next batch, start over after Reset, and report the end of the data and start over after the last batch.  `rest` are the
batches from the iterator on. -/
inductive Loop (bs : List (List ι)) : List (List ι) → List (Sight ι) → Prop
  | done {rest : List (List ι)} {s : TrainingState} (hs : s ≠ .training) : Loop bs rest [.state s]
  | reset {b : List ι} {rest : List (List ι)} {l : List (Sight ι)} (h : Loop bs bs l) :
      Loop bs (b :: rest) (.state .training :: .fitted b .reset :: l)
  | next {b : List ι} {rest : List (List ι)} {r : FitResult} {l : List (Sight ι)} (hr : r ≠ .reset) (hn : rest ≠ [])
      (h : Loop bs rest l) : Loop bs (b :: rest) (.state .training :: .fitted b r :: l)
  | last {b : List ι} {r : FitResult} {l : List (Sight ι)} (hr : r ≠ .reset) (h : Loop bs bs l) :
      Loop bs [b] (.state .training :: .fitted b r :: .dataCompleted :: l)

/-- The client trained with the batches `bs` and completed the training, all with success. -/
inductive TrainsWith (bs : List (List ι)) : List (Sight ι) → Prop
  | empty (h : bs = []) : TrainsWith bs [.completed]
  | loop {l : List (Sight ι)} (hn : bs ≠ []) (h : Loop bs bs l) : TrainsWith bs (l ++ [.completed])

end Feat.CApi
