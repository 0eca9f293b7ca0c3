import Verif.Model.Vectorizer
import Mathlib.Analysis.SpecialFunctions.Log.Basic
import Mathlib.Analysis.Real.Sqrt
/-
What the weights of the tf-idf vectorizer should be, over the real numbers.
-/
namespace Feat

/-- The term frequency factor of a term that occurs `n` times. -/
noncomputable def tfSpec (binary sublinear : Bool) (n : ℕ) : ℝ :=
  if binary then 1 else if sublinear then 1 + Real.log n else n

/-- The inverse document frequency factor of a term that is in `df` of `total` documents. -/
noncomputable def idfSpec (useIdf smooth : Bool) (total df : ℕ) : ℝ :=
  if useIdf then (if smooth then 1 + Real.log ((1 + total) / (1 + df)) else 1 + Real.log ((1 + total) / df)) else 1

/-- What the weights of a document are divided by. -/
noncomputable def normSpec : NormMethod → List ℝ → ℝ
  | .l1, ws => ws.sum
  | .l2, ws => Real.sqrt (ws.map fun w => w ^ 2).sum
  | .none, _ => 1

end Feat
