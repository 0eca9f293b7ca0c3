import Verif.Model.Filter
/-
What it means for a value to be the selected columns of a row.
-/
namespace Feat
variable {C : Type} {n : Nat}

/-- The cells of a value. -/
def Cells.toList : Cells C → List C
  | .tuple cs => cs
  | .single c => [c]

/-- `v` holds exactly the selected columns, in the selected order; it is a bare cell for one column and a
tuple otherwise. -/
def Selects (idxs : List (Fin n)) (row : Vector C n) (v : Cells C) : Prop :=
  v.toList = idxs.map (fun i => row.toList.getD i.val row[i]) ∧ ((∃ c, v = .single c) ↔ idxs.length = 1)

end Feat
