import Mathlib.Data.Matrix.Mul
import Mathlib.Analysis.SpecialFunctions.Sqrt
/-
Specification of principal components and truncated singular value decompositions, independent of the
library's code: what the linear algebra solvers promise, and what users expect of the projected data.
-/
namespace Feat.MatrixProjections.Spec
open Matrix

/-- What Eigen documents of `SelfAdjointEigenSolver`: the columns of the result are orthonormal
eigenvectors, the eigenvalues in increasing order. -/
def Eigenvectors {n : Nat} (C V : Matrix (Fin n) (Fin n) ℝ) : Prop :=
  Vᵀ * V = 1 ∧ ∃ l : Fin n → ℝ, Monotone l ∧ ∀ j, C *ᵥ (fun i => V i j) = l j • fun i => V i j

/-- What Eigen documents of `JacobiSVD::matrixV()` for a square matrix: its columns are orthonormal right
singular vectors, the singular values (which are not negative) in decreasing order. -/
def RightSingularVectors {n : Nat} (C V : Matrix (Fin n) (Fin n) ℝ) : Prop :=
  Vᵀ * V = 1 ∧ ∃ s : Fin n → ℝ, Antitone s ∧ (∀ j, 0 ≤ s j) ∧
    ∀ j, (Cᵀ * C) *ᵥ (fun i => V i j) = (s j) ^ 2 • fun i => V i j

/-- The mean of a column. -/
noncomputable def mean {m n : Nat} (X : Matrix (Fin m) (Fin n) ℝ) (j : Fin n) : ℝ := (∑ i, X i j) / m

/-- The covariances of the columns of a data set (times the number of rows). -/
noncomputable def scatter {m n : Nat} (X : Matrix (Fin m) (Fin n) ℝ) : Matrix (Fin n) (Fin n) ℝ :=
  fun j k => ∑ i, (X i j - mean X j) * (X i k - mean X k)

/-- The columns of a data set are uncorrelated: their covariances are zero. -/
def Uncorrelated {m n : Nat} (X : Matrix (Fin m) (Fin n) ℝ) : Prop :=
  ∀ j k, j ≠ k → scatter X j k = 0

/-- The Euclidean distance of two rows. -/
noncomputable def distance {n : Nat} (x y : Fin n → ℝ) : ℝ := Real.sqrt (∑ j, (x j - y j) ^ 2)

/-- A vector is a linear combination of the columns of a matrix. -/
def Combination {m n : Nat} (Y : Matrix (Fin m) (Fin n) ℝ) (v : Fin m → ℝ) : Prop :=
  ∃ c : Fin n → ℝ, v = fun i => ∑ j, c j * Y i j

/-- What a truncated singular value decomposition promises: for the singular values `s`, in decreasing
order,
* the projected columns are orthogonal to each other and have lengths `s`;
* every direction is an eigenvector of `AᵀA`, of length one if its singular value is not zero, and zero
  otherwise, and directions are orthogonal to each other;
* nothing is lost: the data are recovered from their projections. -/
structure Decomposition {m n r : Nat} (A : Matrix (Fin m) (Fin n) ℝ) (S : Matrix (Fin n) (Fin r) ℝ)
    (s : Fin r → ℝ) : Prop where
  decreasing : Antitone s
  nonneg : ∀ j, 0 ≤ s j
  projected : ∀ j k, ∑ i, (A * S) i j * (A * S) i k = if j = k then (s j) ^ 2 else 0
  eigenvector : ∀ j, (Aᵀ * A) *ᵥ (fun i => S i j) = (s j) ^ 2 • fun i => S i j
  directions : ∀ j k, ∑ i, S i j * S i k = if j = k ∧ s j ≠ 0 then 1 else 0
  recovered : A * S * Sᵀ = A

end Feat.MatrixProjections.Spec
