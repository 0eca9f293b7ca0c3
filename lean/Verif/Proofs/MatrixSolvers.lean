import Verif.Model.MatrixProjections
import Verif.Spec.MatrixProjections
import Mathlib.Analysis.Matrix.Spectrum
import Mathlib.Analysis.Matrix.PosDef
import Mathlib.Data.Fin.Tuple.Sort
/-
The solvers that C77 and C78 suppose exist: by the spectral theorem, every symmetric matrix has
orthonormal eigenvectors, and every square matrix right singular vectors, in the order promised.
-/
namespace Feat.MatrixProjections
open Matrix

theorem eigenvectors_exist {n : Nat} (C : Matrix (Fin n) (Fin n) ℝ) (hC : Cᵀ = C) :
    ∃ V, Spec.Eigenvectors C V := by
  have hH : C.IsHermitian := by
    rw [Matrix.IsHermitian, conjTranspose_eq_transpose_of_trivial, hC]
  let σ := Tuple.sort hH.eigenvalues
  let U : Matrix (Fin n) (Fin n) ℝ := hH.eigenvectorUnitary
  have hU : Uᵀ * U = 1 := by
    have := (Matrix.mem_unitaryGroup_iff' (A := U)).1 hH.eigenvectorUnitary.2
    rwa [star_eq_conjTranspose, conjTranspose_eq_transpose_of_trivial] at this
  refine ⟨U.submatrix id σ, ?_, hH.eigenvalues ∘ σ, Tuple.monotone_sort _, ?_⟩
  · ext i j
    have := congrFun (congrFun hU (σ i)) (σ j)
    simpa [Matrix.mul_apply, Matrix.one_apply] using this
  · intro j
    have := hH.mulVec_eigenvectorBasis (σ j)
    exact this

theorem singular_vectors_exist {n : Nat} (C : Matrix (Fin n) (Fin n) ℝ) :
    ∃ V, Spec.RightSingularVectors C V := by
  obtain ⟨V, h1, l, h2, h3⟩ := eigenvectors_exist (Cᵀ * C) (by simp [transpose_mul])
  have hpos : ∀ j, 0 ≤ l j := by
    intro j
    have e : (fun i => V i j) ⬝ᵥ ((Cᵀ * C) *ᵥ fun i => V i j) = l j := by
      rw [h3, dotProduct_smul]
      have : (fun i => V i j) ⬝ᵥ (fun i => V i j) = 1 := by
        have := congrFun (congrFun h1 j) j
        rw [Matrix.mul_apply, Matrix.one_apply_eq] at this
        exact this
      rw [this]; simp
    rw [← e, ← Matrix.mulVec_mulVec, dotProduct_mulVec, vecMul_transpose]
    exact Finset.sum_nonneg fun i _ => mul_self_nonneg _
  refine ⟨V.submatrix id Fin.revPerm, ?_, fun j => Real.sqrt (l (Fin.rev j)), ?_, fun j => Real.sqrt_nonneg _, ?_⟩
  · ext i j
    have := congrFun (congrFun h1 (Fin.revPerm i)) (Fin.revPerm j)
    simpa [Matrix.mul_apply, Matrix.one_apply] using this
  · intro a b hab
    exact Real.sqrt_le_sqrt (h2 (Fin.rev_le_rev.2 hab))
  · intro j
    rw [Real.sq_sqrt (hpos _)]
    exact h3 (Fin.rev j)

/-- There is an eigenvector solver that keeps its promise on all symmetric matrices. -/
theorem eigen_solver_exists : ∃ eig : EigenSolver, ∀ (n : Nat) (C : Matrix (Fin n) (Fin n) ℝ), Cᵀ = C →
    Spec.Eigenvectors C (eig n C) := by
  classical
  refine ⟨fun n C => if h : Cᵀ = C then (eigenvectors_exist C h).choose else 0, fun n C h => ?_⟩
  simp only [dif_pos h]
  exact (eigenvectors_exist C h).choose_spec

/-- There is a singular value solver that keeps its promise on all square matrices. -/
theorem svd_solver_exists : ∃ svd : EigenSolver, ∀ (n : Nat) (C : Matrix (Fin n) (Fin n) ℝ),
    Spec.RightSingularVectors C (svd n C) :=
  ⟨fun _ C => (singular_vectors_exist C).choose, fun _ C => (singular_vectors_exist C).choose_spec⟩

end Feat.MatrixProjections
