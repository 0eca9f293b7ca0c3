import Verif.Model.Callbacks
/-
Model of the public functions of `Transformer` and `StandardTransformer` (Featurizer.h 559–615) around `execute_impl` and
`flush_impl`, and of FilterDecoratorFeaturizer.h.
-/
namespace Feat
variable {T I O C : Type} {n : Nat}

/-- How `StandardTransformer::execute(input)` ends: it returns a value, passes on an exception, stops the program by a failed
`assert`, or reads memory in which no object was constructed. -/
inductive ValueOutcome (O : Type) where
  | value (o : O)
  | throws (e : Err)
  | aborts
  | undefined
  deriving DecidableEq, Repr

/-- The end of the call, the state of the transformer, and the objects that were constructed and never destroyed (their
memory, for instance of a `std::vector`, is never released). -/
structure Returned (T O : Type) where
  outcome : ValueOutcome O
  state : T
  lost : List O

/-- The callback of `StandardTransformer::execute` (Featurizer.h 586–593) on the values passed to it: each is constructed in
`*pResult`, over the object that is there already.  `checked`: `assert` is enabled; then a second value stops the program (`none`).
The result is the object in `*pResult` and the objects overwritten. -/
def storeAll (checked : Bool) : List O → Option O → List O → Option (Option O × List O)
  | [], slot, lost => some (slot, lost)
  | o :: os, none, lost => storeAll checked os (some o) lost
  | o :: os, some old, lost => if checked then none else storeAll checked os (some o) (lost ++ [old])

/-- `StandardTransformer::execute(InputType &)` (Featurizer.h 580–603); the overload for constant inputs (605–610) copies the
input first.  An exception leaves the object in `*pResult` undestroyed. -/
def executeValue (checked : Bool) (P : PXf T I O) (t : T) (x : I) : Returned T O :=
  match storeAll checked (P.exec t x).run.outs none [] with
  | none => ⟨.aborts, (P.exec t x).run.next, []⟩
  | some (slot, lost) =>
    match (P.exec t x).run.err with
    | some e => ⟨.throws e, (P.exec t x).run.next, lost ++ slot.toList⟩
    | none =>
      match slot with
      | some o => ⟨.value o, (P.exec t x).run.next, lost⟩
      | none => ⟨if checked then .aborts else .undefined, (P.exec t x).run.next, lost⟩

/-- A call of `Transformer::execute` or `Transformer::flush`; the callback may be an empty `std::function`. -/
inductive PublicCall (I O : Type) where
  | execute (x : I) (cb : Option (Callback O))
  | flush (cb : Option (Callback O))

/-- `Transformer::execute` and `Transformer::flush` (Featurizer.h 559–573). -/
def PXf.public (P : PXf T I O) (t : T) : PublicCall I O → Seen T O
  | .execute _ none => ⟨[], .failed .invalidArgument, t⟩
  | .execute x (some cb) => (P.exec t x).runWith cb []
  | .flush none => ⟨[], .failed .invalidArgument, t⟩
  | .flush (some cb) => (P.flush t).runWith cb []

/-- The calls made on one transformer, one after the other. -/
def PXf.history (P : PXf T I O) : T → List (PublicCall I O) → List (Seen T O) × T
  | t, [] => ([], t)
  | t, c :: cs =>
    match P.history (P.public t c).state cs with
    | (l, t') => (P.public t c :: l, t')

/-- `FilterDecoratorTransformer::execute_impl` (Components/FilterDecoratorFeaturizer.h 63–65). -/
def PXf.decorator (idxs : List (Fin n)) : PXf Unit (Vector C n) (Cells C) := PXf.ofFun fun _ row => .ok (toFiltered idxs row)

end Feat
