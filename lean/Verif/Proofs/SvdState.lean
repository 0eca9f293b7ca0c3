import Verif.Proofs.GramSchmidt
import Mathlib.LinearAlgebra.Matrix.NonsingularInverse
import Mathlib.LinearAlgebra.Matrix.Rank
/-
The state trained by TruncatedSVDEstimator is a decomposition if the sampled bases span.
-/
namespace Feat.MatrixProjections
open Matrix

theorem combination_iff {m n : Nat} (Y : Matrix (Fin m) (Fin n) ℝ) (v : Fin m → ℝ) :
    Spec.Combination Y v ↔ v ∈ Submodule.span ℝ (Set.range (column Y)) := by
  rw [Submodule.mem_span_range_iff_exists_fun]
  constructor
  · rintro ⟨c, rfl⟩
    refine ⟨c, ?_⟩
    funext i
    simp [Finset.sum_apply]
  · rintro ⟨c, rfl⟩
    refine ⟨c, ?_⟩
    funext i
    simp [Finset.sum_apply]

/-- Columns that are orthonormal or zero. -/
def Partial {m n : Nat} (Y : Matrix (Fin m) (Fin n) ℝ) : Prop :=
  ∃ k, ∀ j l, column Y j ⬝ᵥ column Y l = if j = l ∧ j.val < k then 1 else 0

private theorem gram {m n : Nat} (Y : Matrix (Fin m) (Fin n) ℝ) (j l : Fin n) :
    (Yᵀ * Y) j l = column Y j ⬝ᵥ column Y l := rfl

theorem Partial.keeps {m n : Nat} {Y : Matrix (Fin m) (Fin n) ℝ} (h : Partial Y) : Y * (Yᵀ * Y) = Y := by
  obtain ⟨k, hk⟩ := h
  ext i l
  rw [Matrix.mul_apply, Finset.sum_eq_single l]
  · rw [gram, hk]
    by_cases hl : l.val < k
    · simp [hl]
    · have h0 : column Y l ⬝ᵥ column Y l = 0 := by rw [hk]; simp [hl]
      have : column Y l = 0 := dotProduct_self_eq_zero.1 h0
      have : Y i l = 0 := congrFun this i
      rw [this]; simp
  · intro b _ hb
    rw [gram, hk, if_neg fun h => hb h.1, mul_zero]
  · simp

/-- Projection onto the span of such columns keeps what is in the span. -/
theorem Partial.projects {m n : Nat} {Y : Matrix (Fin m) (Fin n) ℝ} (h : Partial Y) (r : Nat)
    (X : Matrix (Fin m) (Fin r) ℝ) (hX : ∀ j, Spec.Combination Y (column X j)) : Y * (Yᵀ * X) = X := by
  choose c hc using hX
  have : X = Y * (Matrix.of fun k j => c j k) := by
    ext i j
    rw [Matrix.mul_apply]
    have : X i j = ∑ k, c j k * Y i k := congrFun (hc j) i
    rw [this]
    exact Finset.sum_congr rfl fun k _ => mul_comm _ _
  rw [this, ← Matrix.mul_assoc Yᵀ, ← Matrix.mul_assoc, h.keeps]

theorem mulVec_column {m n : Nat} (A : Matrix (Fin m) (Fin n) ℝ) {r : Nat} (S : Matrix (Fin n) (Fin r) ℝ)
    (j : Fin r) : A *ᵥ column S j = column (A * S) j := by
  funext i; simp [mulVec, dotProduct, Matrix.mul_apply]

/-- The algebra of the two-sided randomised decomposition. -/
theorem decomposition_of_bases {m n r : Nat} (A : Matrix (Fin m) (Fin n) ℝ)
    (Y : Matrix (Fin n) (Fin r) ℝ) (Z : Matrix (Fin m) (Fin r) ℝ) (V : Matrix (Fin r) (Fin r) ℝ)
    (hY : Partial Y) (hZ : Partial Z)
    (rows : ∀ i, Spec.Combination Y (A i)) (inside : ∀ j, Spec.Combination Aᵀ (column Y j))
    (cols : ∀ j, Spec.Combination Z (column (A * Y) j))
    (hV : Spec.RightSingularVectors (Zᵀ * (A * Y)) V) : ∃ s, Spec.Decomposition A (Y * V) s := by
  obtain ⟨hO, s, hs, h0, hE⟩ := hV
  have hYA : Y * (Yᵀ * Aᵀ) = Aᵀ := hY.projects m Aᵀ rows
  have hZB : Z * (Zᵀ * (A * Y)) = A * Y := hZ.projects r (A * Y) cols
  have hCC : (Zᵀ * (A * Y))ᵀ * (Zᵀ * (A * Y)) = (A * Y)ᵀ * (A * Y) := by
    rw [transpose_mul, transpose_transpose, Matrix.mul_assoc, hZB]
  have hOt : V * Vᵀ = 1 := mul_eq_one_comm.1 hO
  rw [hCC] at hE
  -- eigenvectors
  have heig : ∀ j, (Aᵀ * A) *ᵥ (column (Y * V) j) = (s j) ^ 2 • column (Y * V) j := by
    intro j
    have e1 : Aᵀ * A * (Y * V) = Y * (((A * Y)ᵀ * (A * Y)) * V) := by
      calc Aᵀ * A * (Y * V) = (Y * (Yᵀ * Aᵀ)) * (A * (Y * V)) := by rw [hYA, Matrix.mul_assoc]
        _ = Y * (((A * Y)ᵀ * (A * Y)) * V) := by
          rw [transpose_mul]; simp only [Matrix.mul_assoc]
    rw [mulVec_column, e1, ← mulVec_column, ← mulVec_column, hE j, mulVec_smul, mulVec_column]
  -- columns of singular value zero
  have hzero : ∀ j, s j = 0 → column (Y * V) j = 0 := by
    intro j hj
    have h1 := heig j
    rw [hj] at h1
    simp only [ne_eq, OfNat.ofNat_ne_zero, not_false_eq_true, zero_pow, zero_smul] at h1
    have h2 : A *ᵥ column (Y * V) j = 0 := by
      apply dotProduct_self_eq_zero.1
      have : A *ᵥ column (Y * V) j ⬝ᵥ A *ᵥ column (Y * V) j
          = column (Y * V) j ⬝ᵥ (Aᵀ * A) *ᵥ column (Y * V) j := by
        rw [← mulVec_mulVec, dotProduct_mulVec (column (Y * V) j), vecMul_transpose]
      rw [this, h1, dotProduct_zero]
    obtain ⟨w, hw⟩ : ∃ w : Fin m → ℝ, column (Y * V) j = Aᵀ *ᵥ w := by
      choose c hc using inside
      refine ⟨fun i => ∑ k, c k i * V k j, ?_⟩
      have hYk : ∀ i k, Y i k = ∑ a, c k a * Aᵀ i a := fun i k => congrFun (hc k) i
      funext i
      rw [column, Matrix.mul_apply]
      simp only [mulVec, dotProduct, hYk, Finset.sum_mul, Finset.mul_sum]
      rw [Finset.sum_comm]
      exact Finset.sum_congr rfl fun a _ => Finset.sum_congr rfl fun k _ => by ring
    apply dotProduct_self_eq_zero.1
    nth_rw 1 [hw]
    rw [mulVec_transpose, ← dotProduct_mulVec, h2, dotProduct_zero]
  -- columns of other singular values
  have hone : ∀ j, s j ≠ 0 → (Yᵀ * Y) *ᵥ column V j = column V j := by
    intro j hj
    have hEc : (Yᵀ * Y) * ((A * Y)ᵀ * (A * Y)) = (A * Y)ᵀ * (A * Y) := by
      have := congrArg transpose hY.keeps
      rw [transpose_mul, transpose_mul, transpose_transpose] at this
      calc (Yᵀ * Y) * ((A * Y)ᵀ * (A * Y)) = (Yᵀ * Y * Yᵀ) * (Aᵀ * (A * Y)) := by
            rw [transpose_mul]; simp only [Matrix.mul_assoc]
        _ = _ := by rw [this, transpose_mul]; simp only [Matrix.mul_assoc]
    have h1 : (Yᵀ * Y) *ᵥ (((A * Y)ᵀ * (A * Y)) *ᵥ column V j) = ((A * Y)ᵀ * (A * Y)) *ᵥ column V j := by
      rw [mulVec_mulVec, hEc]
    have hEj : ((A * Y)ᵀ * (A * Y)) *ᵥ column V j = (s j) ^ 2 • column V j := hE j
    rw [hEj, mulVec_smul] at h1
    exact smul_right_injective _ (pow_ne_zero 2 hj) h1
  have hdir : ∀ j k, column (Y * V) j ⬝ᵥ column (Y * V) k = if j = k ∧ s j ≠ 0 then 1 else 0 := by
    intro j k
    by_cases hj : s j = 0
    · rw [hzero j hj, zero_dotProduct, if_neg fun h => h.2 hj]
    · have : column (Y * V) j ⬝ᵥ column (Y * V) k = column V k ⬝ᵥ (Yᵀ * Y) *ᵥ column V j := by
        rw [← mulVec_column, ← mulVec_column, ← mulVec_mulVec, dotProduct_mulVec (column V k),
          vecMul_transpose, dotProduct_comm]
      rw [this, hone j hj]
      have h1 := congrFun (congrFun hO k) j
      rw [gram] at h1
      rw [h1, Matrix.one_apply]
      by_cases hjk : j = k
      · subst hjk; simp [hj]
      · rw [if_neg fun h => hjk h.symm, if_neg fun h => hjk h.1]
  refine ⟨s, hs, h0, ?_, heig, hdir, ?_⟩
  · intro j k
    have : ∑ i, (A * (Y * V)) i j * (A * (Y * V)) i k
        = column (Y * V) j ⬝ᵥ (Aᵀ * A) *ᵥ column (Y * V) k := by
      rw [← mulVec_mulVec, dotProduct_mulVec (column (Y * V) j), vecMul_transpose, mulVec_column,
        mulVec_column]
      rfl
    rw [this, heig, dotProduct_smul, hdir, smul_eq_mul]
    by_cases hjk : j = k
    · subst hjk
      by_cases hj : s j = 0
      · simp [hj]
      · simp [hj]
    · simp [hjk]
  · have := congrArg transpose hYA
    rw [transpose_mul, transpose_mul, transpose_transpose, transpose_transpose] at this
    calc A * (Y * V) * (Y * V)ᵀ = A * Y * (V * Vᵀ) * Yᵀ := by
          rw [transpose_mul]; simp only [Matrix.mul_assoc]
      _ = A * Y * Yᵀ := by rw [hOt, Matrix.mul_one]
      _ = A := by rw [this]

end Feat.MatrixProjections
