import Verif.Spec.CApi
import Verif.Spec.Training
/-
What the users of one handle see while other handles are used, too.
-/
namespace Feat.CApi
variable {σ ι τ O : Type}

/-- `Session F w es w'`: in the state `w` requests were served one after the other, with the replies in `es` (latest last),
and `w'` is the state now. -/
inductive Session (F : Featurizer σ ι τ O) (w : World σ τ) : List (Request ι × Reply O) → World σ τ → Prop
  | start : Session F w [] w
  | step {es : List (Request ι × Reply O)} {w₁ w' : World σ τ} {r : Request ι} {rep : Reply O} {l : Luck}
      (h : Session F w es w₁) (hl : l.Ok w₁) (hs : serve F r l w₁ = (rep, w')) (hb : rep.cameBack) :
      Session F w (es ++ [(r, rep)]) w'

/-! ### Transformers -/

/-- What is asked of a transformer. -/
inductive Ask (ι : Type) where
  | row (x : ι)
  | flush

/-- What a request asks of the transformer behind the handle `h`; a request without a place for the result or for the error
asks nothing. -/
def askedOf (h : Nat) : Request ι → Option (Ask ι)
  | .call (.transform i x true) true => if i = h then some (.row x) else none
  | .call (.flush i true) true => if i = h then some .flush else none
  | _ => none

/-- The items in a reply; `none` if the call failed. -/
def Reply.items : Reply O → Option (List O)
  | .returned true (.item o) none => some [o]
  | .returned true (.items os) none => some os
  | _ => none

/-- The questions to the handle `h` and the answers, in order. -/
def questions (h : Nat) (es : List (Request ι × Reply O)) : List (Ask ι) := es.filterMap fun e => askedOf h e.1

/-- The answers to them. -/
def answers (h : Nat) (es : List (Request ι × Reply O)) : List (Option (List O)) :=
  es.filterMap fun e => (askedOf h e.1).map fun _ => e.2.items

/-- What a transformer answers in C++ (`none`: an exception). -/
def Ask.run (X : Xf τ ι O) (t : τ) : Ask ι → Run τ O
  | .row x => X.exec t x
  | .flush => X.flush t

/-- The answers of a transformer that nobody else uses, asked directly in C++. -/
def alone (X : Xf τ ι O) : τ → List (Ask ι) → List (Option (List O)) × τ
  | t, [] => ([], t)
  | t, a :: as =>
    ((match (a.run X t).err with | none => some (a.run X t).outs | some _ => none) :: (alone X (a.run X t).next as).1,
      (alone X (a.run X t).next as).2)

/-! ### Estimators -/

/-- What is asked of an estimator in training. -/
inductive Step (ι : Type) where
  | batch (xs : List ι)
  | dataCompleted
  | complete
  | transformer

/-- What a request asks of the estimator behind the handle `h`; a request that is refused for its arguments asks nothing. -/
def stepOf (h : Nat) : Request ι → Option (Step ι)
  | .call (.fit i x true) true => if i = h then some (.batch [x]) else none
  | .call (.fitBuffer i (some (x :: xs)) true) true => if i = h then some (.batch (x :: xs)) else none
  | .call (.onDataCompleted i) true => if i = h then some .dataCompleted else none
  | .call (.completeTraining i) true => if i = h then some .complete else none
  | .call (.createTransformer i true) true => if i = h then some .transformer else none
  | _ => none

/-- The call succeeded. -/
def Reply.succeeded : Reply O → Bool
  | .returned b _ _ => b
  | _ => false

/-- The steps asked of the handle `h`, in order. -/
def steps (h : Nat) (es : List (Request ι × Reply O)) : List (Step ι) := es.filterMap fun e => stepOf h e.1

/-- Whether they succeeded. -/
def successes (h : Nat) (es : List (Request ι × Reply O)) : List Bool :=
  es.filterMap fun e => (stepOf h e.1).map fun _ => e.2.succeeded

/-- A call of a method: whether it succeeds, and the estimator afterwards. -/
def attempt {α : Type} (m : Op (Est σ) α) (e : Est σ) : Bool × Est σ :=
  match m e with
  | (.ok _, e') => (true, e')
  | (.error _, e') => (false, e')

/-- The step as a direct call of the method. -/
def Step.run (H : Hooks σ ι τ) : Step ι → Est σ → Bool × Est σ
  | .batch xs => attempt (Est.fit H (some xs))
  | .dataCompleted => attempt (Est.onDataCompleted H)
  | .complete => attempt (Est.completeTraining H)
  | .transformer => attempt (Est.createTransformer H)

/-- The steps on an estimator that nobody else uses. -/
def stepsAlone (H : Hooks σ ι τ) : Est σ → List (Step ι) → List Bool × Est σ
  | e, [] => ([], e)
  | e, s :: ss => ((s.run H e).1 :: (stepsAlone H (s.run H e).2 ss).1, (stepsAlone H (s.run H e).2 ss).2)

end Feat.CApi
