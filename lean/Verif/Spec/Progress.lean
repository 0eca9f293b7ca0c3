import Verif.Spec.Clients
/-
What a client that trains through the C interface does next.
-/
namespace Feat.CApi
variable {ι O : Type}

/-- What the client has to do next. -/
inductive Todo (ι : Type) where
  /-- ask for the state; these are the batches from the iterator on -/
  | ask (rest : List (List ι))
  /-- fit this batch; these are the batches behind it -/
  | fit (b : List ι) (rest : List (List ι))
  | dataCompleted
  | complete
  /-- create the transformer -/
  | make

/-- The client with the batches `bs` follows the loop of `Loop` (Spec/Clients) and has seen this so far; this is what it has to do
next. -/
inductive Doing (bs : List (List ι)) : List (Sight ι) → Todo ι → Prop
  | nothing (h : bs = []) : Doing bs [] .complete
  | start (h : bs ≠ []) : Doing bs [] (.ask bs)
  | training {l : List (Sight ι)} {b : List ι} {rest : List (List ι)} (h : Doing bs l (.ask (b :: rest))) :
      Doing bs (l ++ [.state .training]) (.fit b rest)
  | trained {l : List (Sight ι)} {rest : List (List ι)} {s : TrainingState} (h : Doing bs l (.ask rest)) (hs : s ≠ .training) :
      Doing bs (l ++ [.state s]) .complete
  | reset {l : List (Sight ι)} {b : List ι} {rest : List (List ι)} (h : Doing bs l (.fit b rest)) :
      Doing bs (l ++ [.fitted b .reset]) (.ask bs)
  | next {l : List (Sight ι)} {b : List ι} {rest : List (List ι)} {r : FitResult} (h : Doing bs l (.fit b rest)) (hr : r ≠ .reset)
      (hn : rest ≠ []) : Doing bs (l ++ [.fitted b r]) (.ask rest)
  | last {l : List (Sight ι)} {b : List ι} {r : FitResult} (h : Doing bs l (.fit b [])) (hr : r ≠ .reset) :
      Doing bs (l ++ [.fitted b r]) .dataCompleted
  | again {l : List (Sight ι)} (h : Doing bs l .dataCompleted) : Doing bs (l ++ [.dataCompleted]) (.ask bs)
  | completed {l : List (Sight ι)} (h : Doing bs l .complete) : Doing bs (l ++ [.completed]) .make

/-- The calls that do it, on the handle `h`; a batch of one item can be fitted with `Fit` or with `FitBuffer`. -/
inductive Todo.By (h : Nat) : Todo ι → Call ι → Prop
  | ask {rest : List (List ι)} : By h (.ask rest) (.getState h true)
  | fit {x : ι} {rest : List (List ι)} : By h (.fit [x] rest) (.fit h x true)
  | fitBuffer {b : List ι} {rest : List (List ι)} : By h (.fit b rest) (.fitBuffer h (some b) true)
  | dataCompleted : By h .dataCompleted (.onDataCompleted h)
  | complete : By h .complete (.completeTraining h)
  | make : By h .make (.createTransformer h true)

end Feat.CApi
