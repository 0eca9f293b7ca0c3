import Verif.Model.Estimator
import Verif.Model.Transformer
/-
Model of Components/FilterFeaturizerImpl.h and Components/Details/FilterTraits.h: a transformer or estimator
applied to selected columns of a row.  All cells have one type `C` (simplification: the C++ tuples are
heterogeneous); that the selected columns exist is checked by the C++ compiler, here by the type `Fin n`.
-/
namespace Feat
variable {C T σ τ : Type} {n : Nat}

/-- A value that is a tuple of cells or, for one column, a cell itself. -/
inductive Cells (C : Type) where
  | tuple (cs : List C)
  | single (c : C)
  deriving DecidableEq, Repr

/-- `FilterFeaturizerTraits::ToFilteredType` (FilterTraits.h 157–184). -/
def toFiltered (idxs : List (Fin n)) (row : Vector C n) : Cells C :=
  match idxs with
  | [i] => .single row[i]
  | is => .tuple (is.map fun i => row[i])

/-- `FilterTransformerTraits::ToTransformedType` (FilterTraits.h 191–212): `std::tuple_cat`. -/
def toTransformed (row : Vector C n) (value : Cells C) : List C :=
  match value with
  | .tuple cs => row.toList ++ cs
  | .single c => row.toList ++ [c]

/-- `FilterTransformer` (FilterFeaturizerImpl.h 86–107).  `execute_impl`: each output of the wrapped
transformer is appended to the row.  `flush_impl`: any output throws (the state after that exception is simplified, see
`PXf.filter` in Model/Callbacks and `C79_filter`). -/
def filterXf (idxs : List (Fin n)) (W : Xf T (Cells C) (Cells C)) : Xf T (Vector C n) (List C) where
  exec t row :=
    match W.exec t (toFiltered idxs row) with
    | ⟨outs, e, t'⟩ => ⟨outs.map (toTransformed row), e, t'⟩
  flush t :=
    match W.flush t with
    | ⟨[], e, t'⟩ => ⟨[], e, t'⟩
    | ⟨_ :: _, _, t'⟩ => ⟨[], some .runtimeError, t'⟩

/-- The loop of `FilterEstimatorImplBase::fit_impl` (FilterFeaturizerImpl.h 467–484). -/
def filterFit (h : Hooks σ (Cells C) τ) (idxs : List (Fin n)) :
    List (Vector C n) → Op (Est σ) FitResult
  | [], e => (.ok .continue, e)
  | row :: rows, e =>
    match Est.fit h (some [toFiltered idxs row]) e with
    | (.error x, e) => (.error x, e)
    | (.ok .continue, e) => filterFit h idxs rows e
    | (.ok r, e) => (.ok r, e)

/-- `FilterEstimatorImplBase` / `FilterTransformerEstimatorImpl` (FilterFeaturizerImpl.h 314–316, 455–493) as
an estimator whose private state is the wrapped estimator.  There is no `on_data_completed_impl`: the
default (Featurizer.h 826–830) returns true. -/
def filterHooks (h : Hooks σ (Cells C) τ) (idxs : List (Fin n)) : Hooks (Est σ) (Vector C n) τ where
  begin := fun e =>
    match Est.beginTraining h e with
    | (.error x, e) => (.error x, e)
    | (.ok (), e) => (.ok (e.state == .training), e)
  fit := filterFit h idxs
  onDataCompleted := fun e => (.ok true, e)
  complete := Est.completeTraining h
  create := fun e =>
    match Est.createTransformer h e with
    | (.error x, e) => (.error x, e)
    | (.ok t, e) => (.ok (some t), e)

end Feat
