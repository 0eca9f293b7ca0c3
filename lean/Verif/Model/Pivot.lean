import Verif.Model.Transformer
/-
Model of ForecastingPivotFeaturizer.h.
-/
namespace Feat
variable {A : Type}

/-- An Eigen matrix of nullable values: a list of rows, all with `cols` cells. -/
structure PivotMatrix (A : Type) where
  cols : Nat
  rows : List (List (Option A))
  rect : ∀ r ∈ rows, r.length = cols

/-- The loop over the rows of one matrix (ForecastingPivotFeaturizer.h 125–132): `none` when a null was found. A cell
outside the matrix is undefined. -/
def pivotRows (col : Nat) : List (List (Option A)) → List A → Except Err (Option (List A))
  | [], ret => .ok (some ret)
  | r :: rs, ret =>
    match r[col]? with
    | none => .error .ub
    | some none => .ok none
    | some (some a) => pivotRows col rs (ret ++ [a])

/-- The loop over the matrices (ForecastingPivotFeaturizer.h 117–137). -/
def pivotMatrices (cols col : Nat) : List (PivotMatrix A) → List A → Except Err (Option (List A))
  | [], ret => .ok (some ret)
  | m :: ms, ret =>
    if m.cols ≠ cols then .error .invalidArgument
    else match pivotRows col m.rows ret with
      | .error e => .error e
      | .ok none => .ok none
      | .ok (some ret) => pivotMatrices cols col ms ret

/-- The loop over the columns (ForecastingPivotFeaturizer.h 110–142), with the columns still to do. -/
def pivotColumns (ms : List (PivotMatrix A)) (cols : Nat) : List Nat → Run Unit (List A)
  | [] => ⟨[], none, ()⟩
  | c :: cs =>
    match pivotMatrices cols c ms [] with
    | .error e => ⟨[], some e, ()⟩
    | .ok none => pivotColumns ms cols cs
    | .ok (some ret) =>
      let r := pivotColumns ms cols cs
      ⟨ret :: r.outs, r.err, ()⟩

/-- `execute_impl` (ForecastingPivotFeaturizer.h 93–143). -/
def pivotExec (ms : List (PivotMatrix A)) : Run Unit (List A) :=
  match ms with
  | [] => ⟨[], some .invalidArgument, ()⟩
  | m :: _ => pivotColumns ms m.cols (List.range m.cols)

/-- The transformer (which has no state). -/
def pivotXf : Xf Unit (List (PivotMatrix A)) (List A) := ⟨fun _ ms => pivotExec ms, noFlush⟩

end Feat
