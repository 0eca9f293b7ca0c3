import Verif.Model.Estimator
import Mathlib.Data.Matrix.Mul
import Mathlib.Analysis.SpecialFunctions.Trigonometric.Basic
import Mathlib.Analysis.SpecialFunctions.Log.Basic
/-
Models of PCAFeaturizer.h and TruncatedSVDFeaturizer.h (src/Featurizers) in exact real arithmetic. The
solvers of the Eigen library are parameters (their contracts are in Spec/MatrixProjections.lean); the
matrices' storage order and sparsity do not matter to the values computed and are not represented.
-/
namespace Feat.MatrixProjections
open Matrix

/-- An Eigen matrix with dynamic dimensions: `rows()`, `cols()` and the coefficients. Simplification:
coefficients are real numbers instead of `float` or `double`. -/
structure DMat where
  rows : Nat
  cols : Nat
  data : Matrix (Fin rows) (Fin cols) ℝ

/-- A default-constructed (or moved-from) Eigen matrix: 0 × 0. -/
def DMat.empty : DMat := ⟨0, 0, fun i => i.elim0⟩

/-- The estimators' hooks, which differ only in what they compute from the training matrix
(PCAFeaturizer.h 139–168 and 285–295; TruncatedSVDFeaturizer.h 261–307 and 402–410). The state is
`_eigenVectors` (`_state`), default-constructed at first.
* `begin_training_impl` returns true, `complete_training_impl` does nothing, and `on_data_completed_impl`
  is inherited and returns false.
* `fit_impl` accepts exactly one matrix. Simplification: an empty training matrix is reported as undefined
  behaviour, because Eigen's reductions (`mean`, `maxCoeff`) are undefined on empty matrices.
* `create_transformer_impl` moves the state to the transformer's constructor, which refuses an empty
  matrix (PCAFeaturizer.h 187–191; TruncatedSVDFeaturizer.h 326–330). -/
def matrixHooks (train : DMat → DMat) : Hooks DMat DMat DMat where
  begin := fun s => (.ok true, s)
  fit := fun items s =>
    match items with
    | [A] => if A.rows = 0 ∨ A.cols = 0 then (.error .ub, s) else (.ok .complete, train A)
    | _ => (.error .runtimeError, s)
  onDataCompleted := fun s => (.ok false, s)
  complete := fun s => (.ok (), s)
  create := fun s =>
    if s.rows * s.cols = 0 then (.error .invalidArgument, DMat.empty) else (.ok (some s), DMat.empty)

/-! ### Principal components -/

/-- `matrix.rowwise() - matrix.colwise().mean()` (PCAFeaturizer.h 148). -/
noncomputable def centred {m n : Nat} (A : Matrix (Fin m) (Fin n) ℝ) : Matrix (Fin m) (Fin n) ℝ :=
  fun i j => A i j - (∑ k, A k j) / m

/-- `centered.adjoint() * centered` (PCAFeaturizer.h 151). -/
noncomputable def covariance {m n : Nat} (A : Matrix (Fin m) (Fin n) ℝ) : Matrix (Fin n) (Fin n) ℝ :=
  (centred A)ᵀ * centred A

/-- `SelfAdjointEigenSolver::eigenvectors()`: any function from square matrices to square matrices. -/
def EigenSolver := ∀ n : Nat, Matrix (Fin n) (Fin n) ℝ → Matrix (Fin n) (Fin n) ℝ

/-- `PCAEstimator::fit_impl` (PCAFeaturizer.h 139–161). -/
noncomputable def pcaTrain (eig : EigenSolver) (A : DMat) : DMat :=
  ⟨A.cols, A.cols, eig A.cols (covariance A.data)⟩

/-- `PCATransformer::execute_impl` (PCAFeaturizer.h 69–80): `input * _eigenvectors.transpose()`. -/
noncomputable def pcaExec (t : DMat) (X : DMat) : Except Err DMat :=
  if X.rows * X.cols = 0 then .error .invalidArgument
  else if h : X.cols = t.cols then
    .ok ⟨X.rows, t.rows, X.data * (t.data.submatrix id (Fin.cast h))ᵀ⟩
  else .error .invalidArgument

/-! ### Truncated singular value decomposition -/

/-- The loop of `svd_flip` that finds the entry of largest magnitude of a column, the first one of equal
magnitudes (TruncatedSVDFeaturizer.h 25–28). -/
noncomputable def largestOf (first : ℝ) : List ℝ → ℝ
  | [] => first
  | x :: xs => largestOf (if |x| > |first| then x else first) xs

/-- One column of `svd_flip` (TruncatedSVDFeaturizer.h 23–33); a column without rows is left alone
(`execute_impl` never calls it with one). -/
noncomputable def flipColumn {m : Nat} (c : Fin m → ℝ) : Fin m → ℝ :=
  match List.ofFn c with
  | [] => c
  | x :: xs => if largestOf x xs < 0 then fun i => - c i else c

/-- `svd_flip` (TruncatedSVDFeaturizer.h 18–36). -/
noncomputable def svdFlip {m n : Nat} (A : Matrix (Fin m) (Fin n) ℝ) : Matrix (Fin m) (Fin n) ℝ :=
  fun i j => flipColumn (fun k => A k j) i

/-- `TruncatedSVDTransformer::execute_impl` (TruncatedSVDFeaturizer.h 91–101). -/
noncomputable def svdExec (t : DMat) (X : DMat) : Except Err DMat :=
  if X.rows * X.cols = 0 then .error .invalidArgument
  else if h : X.cols = t.rows then
    .ok ⟨X.rows, t.cols, svdFlip (X.data * t.data.submatrix (Fin.cast h) id)⟩
  else .error .invalidArgument

/-- `sample_gaussian(Scalar &, Scalar &)` (TruncatedSVDFeaturizer.h 131–154): the pair made from two
results of `std::rand()`. `top` is `RAND_MAX` and `pi` the rounded constant `PI`. -/
noncomputable def gaussianPair (top : Nat) (pi : ℝ) (r₁ r₂ : Nat) : ℝ × ℝ :=
  let v₁ : ℝ := (r₁ + 1) / (top + 2)
  let v₂ : ℝ := (r₂ + 1) / (top + 2)
  let len := Real.sqrt (-2 * Real.log v₁)
  (len * Real.cos (2 * pi * v₂), len * Real.sin (2 * pi * v₂))

/-- `sample_gaussian(MatrixType &)` (TruncatedSVDFeaturizer.h 157–169). Every row consumes a pair of
`rand()` results for every two columns; the last column of an odd number of columns receives the second
number of its pair, which overwrites the first one in the same cell. `rand k` is the result of the `k`-th
call of `std::rand()` from here on. -/
noncomputable def sampleGaussian (top : Nat) (pi : ℝ) (rand : Nat → Nat) (m n : Nat) :
    Matrix (Fin m) (Fin n) ℝ := fun i j =>
  let pair := i.val * ((n + 1) / 2) + j.val / 2
  let g := gaussianPair top pi (rand (2 * pair)) (rand (2 * pair + 1))
  if j.val % 2 = 0 ∧ j.val + 1 < n then g.1 else g.2

/-- The number of calls of `std::rand()` made by `sample_gaussian` on a matrix. -/
def gaussianCalls (m n : Nat) : Nat := 2 * (m * ((n + 1) / 2))

/-- `EPS`: the `float` literal `1E-4f` (TruncatedSVDFeaturizer.h 183). -/
noncomputable def eps : ℝ := 13743895 / 2 ^ 37

/-- The inner loop of `gram_schmidt`: subtract from a column its component along each column before it, one
after the other (TruncatedSVDFeaturizer.h 190–193). -/
noncomputable def reduceBy {m : Nat} (done : List (Fin m → ℝ)) (c : Fin m → ℝ) : Fin m → ℝ :=
  done.foldl (fun c q => c - (c ⬝ᵥ q) • q) c

/-- `mat.col(i).norm()`. -/
noncomputable def columnNorm {m : Nat} (c : Fin m → ℝ) : ℝ := Real.sqrt (c ⬝ᵥ c)

/-- `gram_schmidt` (TruncatedSVDFeaturizer.h 172–203) on the columns: `done` are the columns before the
current one. A column whose remainder is shorter than `EPS` is set to zero with all the columns behind
it. -/
noncomputable def gramSchmidtColumns {m : Nat} :
    List (Fin m → ℝ) → List (Fin m → ℝ) → List (Fin m → ℝ)
  | done, [] => done
  | done, c :: rest =>
    let c' := reduceBy done c
    if columnNorm c' < eps then done ++ List.replicate (rest.length + 1) 0
    else gramSchmidtColumns (done ++ [(columnNorm c')⁻¹ • c']) rest

/-- `gram_schmidt` on a matrix. -/
noncomputable def gramSchmidt {m n : Nat} (A : Matrix (Fin m) (Fin n) ℝ) : Matrix (Fin m) (Fin n) ℝ :=
  fun i j => (gramSchmidtColumns [] (List.ofFn fun k => fun l => A l k)).getD j 0 i

/-- `rank`: the smaller dimension (TruncatedSVDFeaturizer.h 266). -/
def smaller (m n : Nat) : Nat := if m < n then m else n

/-- `Y` of `TruncatedSVDEstimator::fit_impl` (TruncatedSVDFeaturizer.h 268–276): an orthonormalised random
sample of the rows of the training matrix. -/
noncomputable def rowBasis (top : Nat) (pi : ℝ) (rand : Nat → Nat) {m n : Nat}
    (A : Matrix (Fin m) (Fin n) ℝ) : Matrix (Fin n) (Fin (smaller m n)) ℝ :=
  gramSchmidt (Aᵀ * sampleGaussian top pi rand m (smaller m n))

/-- `Z` of `TruncatedSVDEstimator::fit_impl` (TruncatedSVDFeaturizer.h 278–290), for `B = A * Y`; the random
numbers are those drawn after the first sample. -/
noncomputable def columnBasis (top : Nat) (pi : ℝ) (rand : Nat → Nat) {m n : Nat}
    (A : Matrix (Fin m) (Fin n) ℝ) : Matrix (Fin m) (Fin (smaller m n)) ℝ :=
  gramSchmidt (A * rowBasis top pi rand A *
    sampleGaussian top pi (fun k => rand (gaussianCalls m (smaller m n) + k)) (smaller m n) (smaller m n))

/-- `TruncatedSVDEstimator::fit_impl` (TruncatedSVDFeaturizer.h 261–300) with the numbers drawn. The
columns of `svdOfC.matrixV()` are given by the parameter `svd`. -/
noncomputable def svdState (svd : EigenSolver) (top : Nat) (pi : ℝ) (rand : Nat → Nat) {m n : Nat}
    (A : Matrix (Fin m) (Fin n) ℝ) : Matrix (Fin n) (Fin (smaller m n)) ℝ :=
  let Y := rowBasis top pi rand A
  let C := (columnBasis top pi rand A)ᵀ * (A * Y)
  Y * svd (smaller m n) C

/-- The trained state. -/
noncomputable def svdTrain (svd : EigenSolver) (top : Nat) (pi : ℝ) (rand : Nat → Nat) (A : DMat) : DMat :=
  ⟨A.cols, smaller A.rows A.cols, svdState svd top pi rand A.data⟩

end Feat.MatrixProjections
