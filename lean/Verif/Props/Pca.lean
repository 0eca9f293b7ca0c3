import Verif.Proofs.MatrixProjections
import Verif.Proofs.MatrixSolvers
import Mathlib.LinearAlgebra.Matrix.NonsingularInverse
import Mathlib.Tactic.FinCases
import Mathlib.Algebra.BigOperators.Field
import Mathlib.Tactic.NormNum
/-
C77: principal component projection, in exact arithmetic.
-/
namespace Feat.MatrixProjections
open Matrix

private theorem covariance_spec {m n : Nat} (A : Matrix (Fin m) (Fin n) ℝ) :
    covariance A = Spec.scatter A := by
  ext j k
  simp [covariance, centred, Spec.scatter, Spec.mean, Matrix.mul_apply]

/-- **C77** A transformer handed out after any sequence of calls was trained on exactly one matrix, which is
not empty, and holds the orthonormal eigenvectors of its covariances. -/
theorem C77_history (eig : EigenSolver) (calls : List (EstCall DMat)) (t : DMat)
    (heig : ∀ (m n : Nat) (A : Matrix (Fin m) (Fin n) ℝ),
      Spec.Eigenvectors (Spec.scatter A) (eig n (Spec.scatter A)))
    (h : (EstCall.create.run (matrixHooks (pcaTrain eig))
      ((Est.new DMat.empty).after (matrixHooks (pcaTrain eig)) calls)).1 = .ok (.transformer t)) :
    ∃ (A : DMat) (V : Matrix (Fin A.cols) (Fin A.cols) ℝ),
      (Est.new DMat.empty).fitted (matrixHooks (pcaTrain eig)) calls = [[A]] ∧
      0 < A.rows ∧ 0 < A.cols ∧ t = ⟨A.cols, A.cols, V⟩ ∧ Spec.Eigenvectors (Spec.scatter A.data) V := by
  obtain ⟨A, h1, h2, h3, h4⟩ := history _ calls t h
  refine ⟨A, eig A.cols (covariance A.data), h1, h2, h3, h4, ?_⟩
  rw [covariance_spec]
  exact heig _ _ _

/-- Covariances are symmetric, so by the spectral theorem there is a solver as `C77_history` supposes. -/
example : ∃ eig : EigenSolver, ∀ (m n : Nat) (A : Matrix (Fin m) (Fin n) ℝ),
    Spec.Eigenvectors (Spec.scatter A) (eig n (Spec.scatter A)) := by
  obtain ⟨eig, h⟩ := eigen_solver_exists
  refine ⟨eig, fun m n A => h n _ ?_⟩
  ext j k
  simp only [transpose_apply, Spec.scatter]
  exact Finset.sum_congr rfl fun i _ => mul_comm _ _

/-- **C77** Training on one matrix that is not empty succeeds; without a fitted matrix, no transformer is
made. -/
theorem C77_training (eig : EigenSolver) :
    (∀ A : DMat, 0 < A.rows → 0 < A.cols → ∃ t,
      (EstCall.create.run (matrixHooks (pcaTrain eig)) ((Est.new DMat.empty).after
        (matrixHooks (pcaTrain eig)) [.begin, .fit (some [A]), .complete])).1 = .ok (.transformer t)) ∧
    (∀ calls, (Est.new DMat.empty).fitted (matrixHooks (pcaTrain eig)) calls = [] →
      ∃ e : Err, e.isException ∧ (EstCall.create.run (matrixHooks (pcaTrain eig))
        ((Est.new DMat.empty).after (matrixHooks (pcaTrain eig)) calls)).1 = .error e) :=
  ⟨fun A hr hc => ⟨_, trained (pcaTrain eig) A hr hc ⟨hc, hc⟩⟩, fun calls => untrained _ calls⟩

/-- **C77** A transformer accepts exactly the matrices with rows and with the trained number of columns. -/
theorem C77_accepts {n : Nat} (hn : 0 < n) (V : Matrix (Fin n) (Fin n) ℝ) (X : DMat) :
    (0 < X.rows ∧ X.cols = n → ∃ R : Matrix (Fin X.rows) (Fin n) ℝ,
      pcaExec ⟨n, n, V⟩ X = .ok ⟨X.rows, n, R⟩) ∧
    (¬ (0 < X.rows ∧ X.cols = n) → pcaExec ⟨n, n, V⟩ X = .error .invalidArgument) := by
  constructor
  · rintro ⟨h1, h2⟩
    have : ¬ X.rows * X.cols = 0 := by
      rw [h2]; exact Nat.mul_ne_zero (by omega) (by omega)
    exact ⟨_, by rw [pcaExec, if_neg this, dif_pos h2]⟩
  · intro h
    by_cases h0 : X.rows * X.cols = 0
    · rw [pcaExec, if_pos h0]
    · have h1 : 0 < X.rows := by
        rcases Nat.eq_zero_or_pos X.rows with h1 | h1
        · simp [h1] at h0
        · exact h1
      rw [pcaExec, if_neg h0, dif_neg (fun h2 => h ⟨h1, h2⟩)]

private theorem exec_eq {m n : Nat} (hm : 0 < m) (hn : 0 < n) (V : Matrix (Fin n) (Fin n) ℝ)
    (X : Matrix (Fin m) (Fin n) ℝ) :
    pcaExec ⟨n, n, V⟩ ⟨m, n, X⟩ = .ok ⟨m, n, X * Vᵀ⟩ := by
  have : ¬ m * n = 0 := Nat.mul_ne_zero (by omega) (by omega)
  rw [pcaExec]
  simp only [this, if_false, dif_pos]
  rfl

/-- **C77** The projection loses and distorts nothing: scalar products and distances of rows are those of the
input, and the input is recovered from the output. -/
theorem C77_isometry {m n : Nat} (hm : 0 < m) (hn : 0 < n) (C V : Matrix (Fin n) (Fin n) ℝ)
    (hV : Spec.Eigenvectors C V) (X : Matrix (Fin m) (Fin n) ℝ) :
    ∃ R : Matrix (Fin m) (Fin n) ℝ, pcaExec ⟨n, n, V⟩ ⟨m, n, X⟩ = .ok ⟨m, n, R⟩ ∧
      (∀ i k, ∑ j, R i j * R k j = ∑ j, X i j * X k j) ∧
      (∀ i k, Spec.distance (R i) (R k) = Spec.distance (X i) (X k)) ∧
      R * V = X := by
  have key : ∀ i k, ∑ j, (X * Vᵀ) i j * (X * Vᵀ) k j = ∑ j, X i j * X k j := by
    intro i k
    have : (X * Vᵀ) * (X * Vᵀ)ᵀ = X * Xᵀ := by
      rw [transpose_mul, transpose_transpose, Matrix.mul_assoc, ← Matrix.mul_assoc Vᵀ, hV.1,
        Matrix.one_mul]
    have h := congrFun (congrFun this i) k
    rw [Matrix.mul_apply, Matrix.mul_apply] at h
    exact h
  refine ⟨_, exec_eq hm hn V X, key, ?_, ?_⟩
  · intro i k
    have e : ∀ Y : Matrix (Fin m) (Fin n) ℝ, ∑ j, (Y i j - Y k j) ^ 2 =
        ∑ j, Y i j * Y i j - 2 * ∑ j, Y i j * Y k j + ∑ j, Y k j * Y k j := by
      intro Y
      rw [Finset.mul_sum, ← Finset.sum_sub_distrib, ← Finset.sum_add_distrib]
      exact Finset.sum_congr rfl fun j _ => by ring
    rw [Spec.distance, Spec.distance, e, e, key, key, key]
  · rw [Matrix.mul_assoc, hV.1, Matrix.mul_one]

/-- What users expect of principal components: the data multiplied by the eigenvectors are uncorrelated. -/
theorem components_uncorrelated {m n : Nat} (A : Matrix (Fin m) (Fin n) ℝ) (V : Matrix (Fin n) (Fin n) ℝ)
    (hV : Spec.Eigenvectors (Spec.scatter A) V) : Spec.Uncorrelated (A * V) := by
  have hc : centred (A * V) = centred A * V := by
    ext i j
    simp only [centred, Matrix.mul_apply, sub_mul, Finset.sum_sub_distrib]
    congr 1
    rw [Finset.sum_comm, Finset.sum_div]
    refine Finset.sum_congr rfl fun k _ => ?_
    rw [← Finset.sum_mul]; ring
  obtain ⟨l, _, hl⟩ := hV.2
  intro j k hjk
  rw [← covariance_spec, covariance, hc, transpose_mul]
  have : (Vᵀ * (centred A)ᵀ * (centred A * V)) j k =
      (fun i => V i j) ⬝ᵥ (Spec.scatter A *ᵥ fun i => V i k) := by
    rw [Matrix.mul_assoc, ← Matrix.mul_assoc (centred A)ᵀ, ← covariance_spec, Matrix.mul_apply]
    simp only [dotProduct, mulVec, transpose_apply, Matrix.mul_apply]
    rfl
  rw [this, hl, dotProduct_smul]
  have h1 := congrFun (congrFun hV.1 j) k
  rw [Matrix.mul_apply, Matrix.one_apply_ne hjk] at h1
  have h2 : (fun i => V i j) ⬝ᵥ (fun i => V i k) = 0 := h1
  rw [h2, smul_zero]

/-- A data set of three points in a plane. -/
def planar : Matrix (Fin 3) (Fin 3) ℝ := !![1, 1, 0; -1, 0, 0; 0, -1, 0]

private theorem planar_scatter : Spec.scatter planar = !![2, 1, 0; 1, 2, 0; 0, 0, 0] := by
  ext j k
  fin_cases j <;> fin_cases k <;>
    simp [Spec.scatter, Spec.mean, planar, Fin.sum_univ_three] <;> norm_num

private theorem eigen3 {x y z l : ℝ} (h1 : 2 * x + y = l * x) (h2 : x + 2 * y = l * y) (h3 : 0 = l * z)
    (hn : x * x + y * y + z * z = 1) : (l = 0 ∧ x = 0 ∧ y = 0 ∧ z ≠ 0) ∨ (0 < l ∧ x ≠ 0 ∧ z = 0) := by
  rcases eq_or_ne l 0 with h | h
  · subst h
    have hx : x = 0 := by linarith
    have hy : y = 0 := by linarith
    refine Or.inl ⟨rfl, hx, hy, fun hz => ?_⟩
    rw [hx, hy, hz] at hn; norm_num at hn
  · have hz : z = 0 := by
      rcases mul_eq_zero.1 h3.symm with h4 | h4
      · exact absurd h4 h
      · exact h4
    have hx : x ≠ 0 := by
      intro hx
      have : y = 0 := by rw [hx] at h2; rw [hx] at h1; linarith
      rw [hx, this, hz] at hn; norm_num at hn
    refine Or.inr ⟨?_, hx, hz⟩
    rw [hz] at hn
    have e : l = 1 + (x + y) * (x + y) := by linear_combination (1 - l) * hn - x * h1 - y * h2
    nlinarith [mul_self_nonneg (x + y)]

/-- **C77 (refuted)** The result of projecting the training data is *not* made of principal components: for
the three points of `planar`, whichever eigenvectors the solver returns, the transformed training data are
correlated (the library multiplies by the transposed matrix of eigenvectors), although the product with the
matrix of eigenvectors is uncorrelated. -/
theorem C77_correlated (V : Matrix (Fin 3) (Fin 3) ℝ)
    (hV : Spec.Eigenvectors (Spec.scatter planar) V) :
    Spec.Uncorrelated (planar * V) ∧
    ∃ R : Matrix (Fin 3) (Fin 3) ℝ, pcaExec ⟨3, 3, V⟩ ⟨3, 3, planar⟩ = .ok ⟨3, 3, R⟩ ∧
      ¬ Spec.Uncorrelated R := by
  refine ⟨components_uncorrelated planar V hV, _, exec_eq (by norm_num) (by norm_num) V planar, ?_⟩
  obtain ⟨hO, l, hl, hE⟩ := hV
  rw [planar_scatter] at hE
  have col : ∀ j, (l j = 0 ∧ V 0 j = 0 ∧ V 1 j = 0 ∧ V 2 j ≠ 0) ∨ (0 < l j ∧ V 0 j ≠ 0 ∧ V 2 j = 0) := by
    intro j
    have e0 := congrFun (hE j) 0
    have e1 := congrFun (hE j) 1
    have e2 := congrFun (hE j) 2
    have en := congrFun (congrFun hO j) j
    simp [mulVec, dotProduct, Fin.sum_univ_three] at e0 e1 e2
    simp [Matrix.mul_apply, Fin.sum_univ_three] at en
    refine eigen3 e0 e1 ?_ en
    rcases e2 with e2 | e2 <;> simp [e2]
  have hrow : V * Vᵀ = 1 := mul_eq_one_comm.1 hO
  have r2 := congrFun (congrFun hrow 2) 2
  have o01 := congrFun (congrFun hO 0) 1
  have o02 := congrFun (congrFun hO 0) 2
  have o12 := congrFun (congrFun hO 1) 2
  simp [Matrix.mul_apply, Fin.sum_univ_three] at r2 o01 o02 o12
  have l01 : l 0 ≤ l 1 := hl (by decide)
  have l02 : l 0 ≤ l 2 := hl (by decide)
  -- the first column is the constant direction, the others lie in the plane
  have h0 : V 0 0 = 0 ∧ V 1 0 = 0 ∧ V 2 0 ≠ 0 := by
    rcases col 0 with h | h
    · exact h.2
    · exfalso
      rcases col 1 with h1 | h1
      · rw [h1.1] at l01; linarith
      · rcases col 2 with h2 | h2
        · rw [h2.1] at l02; linarith
        · rw [h.2.2, h1.2.2, h2.2.2] at r2; norm_num at r2
  have h1 : V 0 1 ≠ 0 ∧ V 2 1 = 0 := by
    rcases col 1 with h | h
    · rw [h0.1, h0.2.1] at o01
      simp [h0.2.2, h.2.2.2] at o01
    · exact h.2
  have h2 : V 2 2 = 0 := by
    rcases col 2 with h | h
    · rw [h0.1, h0.2.1] at o02
      simp [h0.2.2, h.2.2.2] at o02
    · exact h.2.2
  intro hU
  have := hU 0 2 (by decide)
  simp [Spec.scatter, Spec.mean, planar, Matrix.mul_apply, Fin.sum_univ_three, h0.1, h1.2, h2] at this
  rcases this with h | h
  · exact h1.1 h
  · exact h0.2.2 h

/-- A solver may return these eigenvectors, so `C77_correlated` speaks of an actual result. -/
example : ∃ V : Matrix (Fin 3) (Fin 3) ℝ, Spec.Eigenvectors (Spec.scatter planar) V := by
  have hs : Real.sqrt 2 * Real.sqrt 2 = 2 := Real.mul_self_sqrt (by norm_num)
  have hh : (Real.sqrt 2)⁻¹ * (Real.sqrt 2)⁻¹ = 1 / 2 := by
    rw [← mul_inv, hs]; norm_num
  refine ⟨!![0, (Real.sqrt 2)⁻¹, (Real.sqrt 2)⁻¹; 0, -(Real.sqrt 2)⁻¹, (Real.sqrt 2)⁻¹; 1, 0, 0], ?_, ![0, 1, 3],
    ?_, ?_⟩
  · ext j k
    fin_cases j <;> fin_cases k <;> simp [Matrix.mul_apply, Fin.sum_univ_three, hh] <;> norm_num
  · intro a b hab
    fin_cases a <;> fin_cases b <;> simp_all
  · rw [planar_scatter]
    intro j
    ext i
    fin_cases j <;> fin_cases i <;> simp [mulVec, dotProduct, Fin.sum_univ_three] <;> ring

end Feat.MatrixProjections
