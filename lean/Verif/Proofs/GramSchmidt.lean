import Verif.Model.MatrixProjections
import Verif.Spec.MatrixProjections
import Mathlib.LinearAlgebra.Span.Basic
import Mathlib.LinearAlgebra.Finsupp.LinearCombination
import Mathlib.Tactic.Linarith
import Mathlib.Tactic.Ring
/-
The orthonormalisation of TruncatedSVDFeaturizer.h yields orthonormal columns followed by zero columns,
within the span of the columns given.
-/
namespace Feat.MatrixProjections
open Matrix

/-- Orthonormal vectors. -/
def ON {m : Nat} (l : List (Fin m → ℝ)) : Prop :=
  l.Pairwise (fun a b => a ⬝ᵥ b = 0) ∧ ∀ q ∈ l, q ⬝ᵥ q = 1

private theorem reduce_keeps {m : Nat} (p : Fin m → ℝ) : ∀ (done : List (Fin m → ℝ)) (c : Fin m → ℝ),
    (∀ q ∈ done, q ⬝ᵥ p = 0) → reduceBy done c ⬝ᵥ p = c ⬝ᵥ p
  | [], _, _ => rfl
  | q :: rest, c, h => by
    have ih := reduce_keeps p rest (c - (c ⬝ᵥ q) • q) fun x hx => h x (List.mem_cons_of_mem _ hx)
    rw [reduceBy, List.foldl_cons]
    rw [reduceBy] at ih
    rw [ih, sub_dotProduct, smul_dotProduct, h q List.mem_cons_self]
    simp

theorem reduce_orthogonal {m : Nat} : ∀ (done : List (Fin m → ℝ)) (c : Fin m → ℝ), ON done →
    ∀ q ∈ done, reduceBy done c ⬝ᵥ q = 0
  | [], _, _, q, hq => by cases hq
  | p :: rest, c, h, q, hq => by
    have hp := List.pairwise_cons.1 h.1
    have ih := reduce_orthogonal rest (c - (c ⬝ᵥ p) • p)
      ⟨hp.2, fun x hx => h.2 x (List.mem_cons_of_mem _ hx)⟩
    rw [reduceBy, List.foldl_cons]
    rcases List.mem_cons.1 hq with rfl | hq
    · have := reduce_keeps q rest (c - (c ⬝ᵥ q) • q) fun x hx => by
        rw [dotProduct_comm]; exact hp.1 x hx
      rw [reduceBy] at this
      rw [this, sub_dotProduct, smul_dotProduct, h.2 q List.mem_cons_self]
      simp
    · exact ih q hq

theorem reduce_span {m : Nat} : ∀ (done : List (Fin m → ℝ)) (c : Fin m → ℝ),
    c - reduceBy done c ∈ Submodule.span ℝ {x | x ∈ done}
  | [], c => by simp [reduceBy]
  | q :: rest, c => by
    have ih := reduce_span rest (c - (c ⬝ᵥ q) • q)
    have hq : q ∈ Submodule.span ℝ {x | x ∈ q :: rest} := Submodule.subset_span List.mem_cons_self
    have hsub : Submodule.span ℝ {x | x ∈ rest} ≤ Submodule.span ℝ {x | x ∈ q :: rest} :=
      Submodule.span_mono fun x hx => List.mem_cons_of_mem _ hx
    have : c - reduceBy (q :: rest) c =
        (c - (c ⬝ᵥ q) • q - reduceBy rest (c - (c ⬝ᵥ q) • q)) + (c ⬝ᵥ q) • q := by
      simp only [reduceBy, List.foldl_cons]; abel
    rw [this]
    exact Submodule.add_mem _ (hsub ih) (Submodule.smul_mem _ _ hq)

theorem eps_pos : 0 < eps := by unfold eps; positivity

private theorem norm_sq {m : Nat} (c : Fin m → ℝ) : columnNorm c * columnNorm c = c ⬝ᵥ c :=
  Real.mul_self_sqrt (Finset.sum_nonneg fun _ _ => mul_self_nonneg _)

/-- The result on lists of columns. -/
theorem columns_spec {m : Nat} : ∀ (todo done : List (Fin m → ℝ)), ON done →
    ∃ (extra : List (Fin m → ℝ)) (z : Nat),
      gramSchmidtColumns done todo = done ++ extra ++ List.replicate z 0 ∧
      extra.length + z = todo.length ∧ ON (done ++ extra) ∧
      (∀ x ∈ extra, x ∈ Submodule.span ℝ {x | x ∈ done ++ todo}) ∧
      (z = 0 → ∀ x ∈ todo, x ∈ Submodule.span ℝ {x | x ∈ done ++ extra})
  | [], done, h => ⟨[], 0, by simp [gramSchmidtColumns], rfl, by simpa using h, by simp, by simp⟩
  | c :: rest, done, h => by
    rw [gramSchmidtColumns]
    by_cases he : columnNorm (reduceBy done c) < eps
    · rw [if_pos he]
      exact ⟨[], rest.length + 1, by simp, by simp, by simpa using h, by simp, by simp⟩
    · rw [if_neg he]
      obtain ⟨c', hc'⟩ : ∃ c', reduceBy done c = c' := ⟨_, rfl⟩
      have horth := reduce_orthogonal done c h
      have hspan := reduce_span done c
      rw [hc'] at he horth hspan ⊢
      have hpos : 0 < columnNorm c' := lt_of_lt_of_le eps_pos (not_lt.1 he)
      obtain ⟨u, hu⟩ : ∃ u, (columnNorm c')⁻¹ • c' = u := ⟨_, rfl⟩
      have huu : u ⬝ᵥ u = 1 := by
        rw [← hu, smul_dotProduct, dotProduct_smul, ← norm_sq, smul_eq_mul, smul_eq_mul]
        field_simp
      have hON : ON (done ++ [u]) := by
        refine ⟨List.pairwise_append.2 ⟨h.1, by simp, fun a ha b hb => ?_⟩, fun q hq => ?_⟩
        · rw [List.mem_singleton.1 hb, dotProduct_comm, ← hu, smul_dotProduct, horth a ha, smul_zero]
        · rcases List.mem_append.1 hq with hq | hq
          · exact h.2 q hq
          · rw [List.mem_singleton.1 hq]; exact huu
      obtain ⟨extra, z, h1, h2, h3, h4, h5⟩ := columns_spec rest (done ++ [u]) hON
      rw [hu]
      have hcu : c' ∈ Submodule.span ℝ {x | x ∈ done ++ u :: extra} := by
        have : c' = columnNorm c' • u := by rw [← hu, smul_smul, mul_inv_cancel₀ hpos.ne', one_smul]
        rw [this]
        exact Submodule.smul_mem _ _ (Submodule.subset_span (by simp))
      have hu' : u ∈ Submodule.span ℝ {x | x ∈ done ++ c :: rest} := by
        rw [← hu]
        refine Submodule.smul_mem _ _ ?_
        have : c' = c - (c - c') := by abel
        rw [this]
        refine Submodule.sub_mem _ (Submodule.subset_span (by simp)) (Submodule.span_mono ?_ hspan)
        intro x hx; exact List.mem_append_left _ hx
      refine ⟨u :: extra, z, by rw [h1]; simp, by simp; omega, by simpa using h3, ?_, ?_⟩
      · intro x hx
        rcases List.mem_cons.1 hx with rfl | hx
        · exact hu'
        · refine Submodule.span_le.2 ?_ (h4 x hx)
          intro y hy
          rcases List.mem_append.1 hy with hy | hy
          · rcases List.mem_append.1 hy with hy | hy
            · exact Submodule.subset_span (List.mem_append_left _ hy)
            · rw [List.mem_singleton.1 hy]; exact hu'
          · exact Submodule.subset_span (List.mem_append_right _ (List.mem_cons_of_mem _ hy))
      · intro hz x hx
        rcases List.mem_cons.1 hx with rfl | hx
        · have : x = (x - c') + c' := by abel
          rw [this]
          refine Submodule.add_mem _ (Submodule.span_mono ?_ hspan) hcu
          intro y hy; exact List.mem_append_left _ hy
        · have := h5 hz x hx
          simpa using this

/-- Column of a matrix. -/
abbrev column {m n : Nat} (A : Matrix (Fin m) (Fin n) ℝ) (j : Fin n) : Fin m → ℝ := fun i => A i j

/-- **The orthonormalisation**: the first `k` columns are orthonormal, the others zero; all are
combinations of the columns given, and conversely if no column is zero. -/
theorem gramSchmidt_spec {m n : Nat} (A : Matrix (Fin m) (Fin n) ℝ) :
    ∃ k, k ≤ n ∧
      (∀ j l, column (gramSchmidt A) j ⬝ᵥ column (gramSchmidt A) l = if j = l ∧ j.val < k then 1 else 0) ∧
      (∀ j, column (gramSchmidt A) j ∈ Submodule.span ℝ (Set.range (column A))) ∧
      (∀ j : Fin n, k ≤ j.val → column (gramSchmidt A) j = 0) ∧
      (k = n → ∀ j, column A j ∈ Submodule.span ℝ (Set.range (column (gramSchmidt A)))) := by
  obtain ⟨extra, z, h1, h2, h3, h4, h5⟩ := columns_spec (List.ofFn (column A)) [] ⟨by simp, by simp⟩
  rw [List.nil_append] at h1 h3
  simp only [List.nil_append, List.length_ofFn] at h2 h4 h5
  have hcol : ∀ j : Fin n, column (gramSchmidt A) j = (extra ++ List.replicate z 0).getD j 0 := by
    intro j
    funext i
    rw [← h1]
    rfl
  have hlow : ∀ j : Fin n, (hj : j.val < extra.length) → column (gramSchmidt A) j = extra[j.val] := by
    intro j hj
    rw [hcol, List.getD_eq_getElem?_getD, List.getElem?_append_left hj, List.getElem?_eq_getElem hj]
    rfl
  have hhigh : ∀ j : Fin n, extra.length ≤ j.val → column (gramSchmidt A) j = 0 := by
    intro j hj
    rw [hcol, List.getD_eq_getElem?_getD, List.getElem?_append_right hj, List.getElem?_replicate]
    split_ifs <;> rfl
  have hset : {x | x ∈ List.ofFn (column A)} = Set.range (column A) := by
    ext x; simp [List.mem_ofFn]
  refine ⟨extra.length, by omega, ?_, ?_, hhigh, ?_⟩
  · intro j l
    by_cases hj : j.val < extra.length
    · by_cases hl : l.val < extra.length
      · rw [hlow j hj, hlow l hl]
        have hp := List.pairwise_iff_getElem.1 h3.1
        by_cases hjl : j = l
        · subst hjl
          rw [if_pos ⟨rfl, hj⟩]
          exact h3.2 _ (List.getElem_mem _)
        · rw [if_neg fun h => hjl h.1]
          rcases lt_or_gt_of_ne (fun h => hjl (Fin.ext h) : j.val ≠ l.val) with hlt | hlt
          · exact hp _ _ hj hl hlt
          · rw [dotProduct_comm]; exact hp _ _ hl hj hlt
      · rw [hhigh l (by omega), dotProduct_zero, if_neg]
        rintro ⟨rfl, h⟩; exact hl h
    · rw [hhigh j (by omega), zero_dotProduct, if_neg fun h => hj h.2]
  · intro j
    by_cases hj : j.val < extra.length
    · rw [hlow j hj, ← hset]
      exact h4 _ (List.getElem_mem _)
    · rw [hhigh j (by omega)]
      exact Submodule.zero_mem _
  · intro hk j
    have hz : z = 0 := by omega
    refine Submodule.span_mono ?_ (h5 hz (column A j) (by simp [List.mem_ofFn]))
    intro x hx
    obtain ⟨i, hi, rfl⟩ := List.mem_iff_getElem.1 hx
    exact ⟨⟨i, by omega⟩, hlow ⟨i, by omega⟩ hi⟩

end Feat.MatrixProjections
