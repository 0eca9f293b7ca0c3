import Verif.Proofs.SvdState
import Verif.Proofs.MatrixProjections
import Verif.Proofs.MatrixSolvers
import Mathlib.Analysis.SpecialFunctions.Log.Deriv
import Mathlib.Analysis.Complex.ExponentialBounds
/-
C78: truncated singular value decomposition, in exact arithmetic.
-/
namespace Feat.MatrixProjections
open Matrix

/-! ### Signs -/

private theorem largest_spec : ∀ (xs : List ℝ) (x : ℝ),
    largestOf x xs ∈ x :: xs ∧ ∀ y ∈ x :: xs, |y| ≤ |largestOf x xs|
  | [], x => by simp [largestOf]
  | z :: zs, x => by
    rw [largestOf]
    by_cases h : |z| > |x|
    · rw [if_pos h]
      obtain ⟨h1, h2⟩ := largest_spec zs z
      refine ⟨List.mem_cons_of_mem _ h1, fun y hy => ?_⟩
      rcases List.mem_cons.1 hy with rfl | hy
      · exact h.le.trans (h2 z List.mem_cons_self)
      · exact h2 y hy
    · rw [if_neg h]
      obtain ⟨h1, h2⟩ := largest_spec zs x
      refine ⟨?_, fun y hy => ?_⟩
      · rcases List.mem_cons.1 h1 with h1 | h1
        · rw [h1]; exact List.mem_cons_self
        · exact List.mem_cons_of_mem _ (List.mem_cons_of_mem _ h1)
      · rcases List.mem_cons.1 hy with rfl | hy
        · exact h2 y List.mem_cons_self
        · rcases List.mem_cons.1 hy with rfl | hy
          · exact (not_lt.1 h).trans (h2 x List.mem_cons_self)
          · exact h2 y (List.mem_cons_of_mem _ hy)

private theorem largest_neg : ∀ (xs : List ℝ) (x : ℝ), largestOf (-x) (xs.map (- ·)) = - largestOf x xs
  | [], x => rfl
  | z :: zs, x => by
    rw [List.map_cons, largestOf, largestOf, abs_neg, abs_neg]
    split_ifs
    · exact largest_neg zs z
    · exact largest_neg zs x

private theorem flip_cases {m : Nat} (c : Fin m → ℝ) (hm : 0 < m) :
    ∃ i, (∀ k, |c k| ≤ |c i|) ∧ flipColumn c = (if c i < 0 then fun k => - c k else c) := by
  rw [flipColumn]
  obtain ⟨l, hl⟩ : ∃ l, List.ofFn c = l := ⟨_, rfl⟩
  rw [hl]
  rcases l with _ | ⟨x, xs⟩
  · exfalso
    have := congrArg List.length hl
    simp at this; omega
  · obtain ⟨h1, h2⟩ := largest_spec xs x
    rw [← hl, List.mem_ofFn] at h1
    obtain ⟨i, hi⟩ := h1
    refine ⟨i, fun k => ?_, ?_⟩
    · rw [hi]; exact h2 _ (by rw [← hl, List.mem_ofFn]; exact ⟨k, rfl⟩)
    · simp only [hi]

private theorem flip_neg {m : Nat} (c : Fin m → ℝ) : flipColumn (fun i => - c i) = flipColumn c := by
  rw [flipColumn, flipColumn]
  have hm : List.ofFn (fun i => - c i) = (List.ofFn c).map (- ·) := by
    rw [List.map_ofFn]; rfl
  rw [hm]
  obtain ⟨l, hl⟩ : ∃ l, List.ofFn c = l := ⟨_, rfl⟩
  rw [hl]
  rcases l with _ | ⟨x, xs⟩
  · funext i
    have := congrArg List.length hl
    simp at this
    subst this
    exact i.elim0
  · simp only [List.map_cons, largest_neg]
    obtain ⟨_, h2⟩ := largest_spec xs x
    rcases lt_trichotomy (largestOf x xs) 0 with h | h | h
    · rw [if_neg (by linarith), if_pos h]
    · rw [h] at h2
      have hz : ∀ i, c i = 0 := by
        intro i
        have := h2 (c i) (by rw [← hl, List.mem_ofFn]; exact ⟨i, rfl⟩)
        rw [abs_zero] at this
        exact abs_nonpos_iff.1 this
      rw [h]; funext i; simp [hz]
    · rw [if_pos (by linarith), if_neg (by linarith)]
      funext i; simp

/-- **C78** The transformer's signs: every column of the result is the projected column or its negative, and
an entry of the largest magnitude is not negative. -/
theorem C78_signs {n r : Nat} (S : Matrix (Fin n) (Fin r) ℝ) {m : Nat} (hm : 0 < m) (hn : 0 < n)
    (X : Matrix (Fin m) (Fin n) ℝ) :
    ∃ R : Matrix (Fin m) (Fin r) ℝ, svdExec ⟨n, r, S⟩ ⟨m, n, X⟩ = .ok ⟨m, r, R⟩ ∧
      ∀ j, ((∀ i, R i j = (X * S) i j) ∨ (∀ i, R i j = - (X * S) i j)) ∧
        ∃ i, 0 ≤ R i j ∧ ∀ k, |R k j| ≤ |R i j| := by
  refine ⟨svdFlip (X * S), ?_, fun j => ?_⟩
  · have : ¬ m * n = 0 := Nat.mul_ne_zero (by omega) (by omega)
    rw [svdExec]
    simp only [this, if_false, dif_pos]
    rfl
  · obtain ⟨i, h1, h2⟩ := flip_cases (column (X * S) j) hm
    by_cases h : (X * S) i j < 0
    · rw [if_pos h] at h2
      have h3 : ∀ k, svdFlip (X * S) k j = - (X * S) k j := fun k => congrFun h2 k
      refine ⟨Or.inr h3, i, by rw [h3]; linarith, fun k => ?_⟩
      rw [h3, h3, abs_neg, abs_neg]; exact h1 k
    · rw [if_neg h] at h2
      have h3 : ∀ k, svdFlip (X * S) k j = (X * S) k j := fun k => congrFun h2 k
      refine ⟨Or.inl h3, i, by rw [h3]; exact not_lt.1 h, fun k => ?_⟩
      rw [h3, h3]; exact h1 k

private theorem svd_exec {n r : Nat} (S : Matrix (Fin n) (Fin r) ℝ) {m : Nat} (hm : 0 < m) (hn : 0 < n)
    (X : Matrix (Fin m) (Fin n) ℝ) :
    svdExec ⟨n, r, S⟩ ⟨m, n, X⟩ = .ok ⟨m, r, svdFlip (X * S)⟩ := by
  have : ¬ m * n = 0 := Nat.mul_ne_zero (by omega) (by omega)
  rw [svdExec]
  simp only [this, if_false, dif_pos]
  rfl

/-- **C78** The result does not depend on the signs the solver chose: transformers whose directions differ
only in sign give the same results. -/
theorem C78_sign_independent {n r : Nat} (S S' : Matrix (Fin n) (Fin r) ℝ)
    (h : ∀ j, (∀ i, S' i j = S i j) ∨ (∀ i, S' i j = - S i j)) (X : DMat) :
    svdExec ⟨n, r, S'⟩ X = svdExec ⟨n, r, S⟩ X := by
  obtain ⟨m, n', X⟩ := X
  by_cases hn : n' = n
  · subst hn
    by_cases h0 : m * n' = 0
    · simp [svdExec, h0]
    · have hm : 0 < m := Nat.pos_of_ne_zero (by rintro rfl; simp at h0)
      have hn : 0 < n' := Nat.pos_of_ne_zero (by rintro rfl; simp at h0)
      rw [svd_exec _ hm hn, svd_exec _ hm hn]
      have : svdFlip (X * S') = svdFlip (X * S) := by
        ext i j
        rcases h j with h | h
        · have : (fun k => (X * S') k j) = fun k => (X * S) k j := by
            funext k; simp only [Matrix.mul_apply, h]
          rw [svdFlip, svdFlip, this]
        · have : (fun k => (X * S') k j) = fun k => - (X * S) k j := by
            funext k; simp [Matrix.mul_apply, h, Finset.sum_neg_distrib]
          rw [svdFlip, svdFlip, this, flip_neg]
      rw [this]
  · simp [svdExec, hn]

/-- **C78** A transformer accepts exactly the matrices with rows and with the trained number of columns. -/
theorem C78_accepts {n r : Nat} (hn : 0 < n) (S : Matrix (Fin n) (Fin r) ℝ) (X : DMat) :
    (0 < X.rows ∧ X.cols = n → ∃ R : Matrix (Fin X.rows) (Fin r) ℝ,
      svdExec ⟨n, r, S⟩ X = .ok ⟨X.rows, r, R⟩) ∧
    (¬ (0 < X.rows ∧ X.cols = n) → svdExec ⟨n, r, S⟩ X = .error .invalidArgument) := by
  obtain ⟨m, n', X⟩ := X
  constructor
  · rintro ⟨h1, h2⟩
    simp only at h2
    subst h2
    exact ⟨_, svd_exec S h1 hn X⟩
  · intro h
    by_cases h0 : m * n' = 0
    · simp [svdExec, h0]
    · have h1 : 0 < m := Nat.pos_of_ne_zero (by rintro rfl; simp at h0)
      have h2 : n' ≠ n := fun h2 => h ⟨h1, h2⟩
      simp [svdExec, h2]

/-- **C78** One row at a time, every number of the result is an absolute value. -/
theorem C78_single_row {n r : Nat} (hn : 0 < n) (S : Matrix (Fin n) (Fin r) ℝ) (X : Matrix (Fin 1) (Fin n) ℝ) :
    ∃ R : Matrix (Fin 1) (Fin r) ℝ, svdExec ⟨n, r, S⟩ ⟨1, n, X⟩ = .ok ⟨1, r, R⟩ ∧
      ∀ j, R 0 j = |∑ k, X 0 k * S k j| := by
  refine ⟨_, svd_exec S Nat.one_pos hn X, fun j => ?_⟩
  rw [svdFlip, flipColumn, List.ofFn_succ]
  simp only [List.ofFn_zero, largestOf]
  rw [← Matrix.mul_apply (M := X) (N := S)]
  by_cases h : (X * S) 0 j < 0
  · rw [if_pos h, abs_of_neg h]
  · rw [if_neg h, abs_of_nonneg (not_lt.1 h)]

/-- **C78 (refuted)** The result of a row depends on the other rows: for every transformer with a direction
that is not zero there are a row and another row such that the first one's result changes when the other one
is added to the matrix. -/
theorem C78_row_dependent {n r : Nat} (S : Matrix (Fin n) (Fin r) ℝ) (i₀ : Fin n) (j : Fin r)
    (hS : S i₀ j ≠ 0) :
    ∃ (x y : Fin n → ℝ) (R₁ : Matrix (Fin 1) (Fin r) ℝ) (R₂ : Matrix (Fin 2) (Fin r) ℝ),
      svdExec ⟨n, r, S⟩ ⟨1, n, Matrix.of ![x]⟩ = .ok ⟨1, r, R₁⟩ ∧
      svdExec ⟨n, r, S⟩ ⟨2, n, Matrix.of ![x, y]⟩ = .ok ⟨2, r, R₂⟩ ∧ R₁ 0 j ≠ R₂ 0 j := by
  have hn : 0 < n := Nat.pos_of_ne_zero (by rintro rfl; exact i₀.elim0)
  obtain ⟨q, hq⟩ : ∃ q, q = ∑ k, S k j * S k j := ⟨_, rfl⟩
  have hpos : 0 < q := by
    rw [hq]
    exact Finset.sum_pos' (fun k _ => mul_self_nonneg _) ⟨i₀, Finset.mem_univ _, mul_self_pos.2 hS⟩
  refine ⟨fun k => - S k j, fun k => 2 * S k j, _, _, svd_exec S Nat.one_pos hn _,
    svd_exec S (by norm_num) hn _, ?_⟩
  have e1 : ∀ i, ((Matrix.of ![fun k => - S k j]) * S) i j = - q := by
    intro i
    have : i = 0 := Subsingleton.elim _ _
    subst this
    rw [Matrix.mul_apply, hq, ← Finset.sum_neg_distrib]
    exact Finset.sum_congr rfl fun k _ => by simp
  have e2 : (Matrix.of ![fun k => - S k j, fun k => 2 * S k j] * S) 0 j = - q := by
    rw [Matrix.mul_apply, hq, ← Finset.sum_neg_distrib]
    exact Finset.sum_congr rfl fun k _ => by simp
  have e3 : (Matrix.of ![fun k => - S k j, fun k => 2 * S k j] * S) 1 j = 2 * q := by
    rw [Matrix.mul_apply, hq, Finset.mul_sum]
    exact Finset.sum_congr rfl fun k _ => by simp [mul_assoc]
  rw [svdFlip, svdFlip, flipColumn, flipColumn, List.ofFn_succ, List.ofFn_succ, List.ofFn_succ]
  simp only [List.ofFn_zero, largestOf, e1, e2]
  have e4 : (Matrix.of ![fun k => - S k j, fun k => 2 * S k j] * S) (Fin.succ 0) j
    = 2 * q := e3
  rw [e4, abs_neg, abs_of_pos hpos, abs_of_pos (by linarith), if_pos (show - q < 0 by linarith),
    if_pos (show 2 * q > q by linarith), if_neg (show ¬ 2 * q < 0 by linarith), e2]
  linarith

/-! ### Training -/

/-- **C78** A transformer handed out after any sequence of calls was trained on exactly one matrix, which is
not empty; it has one direction for each of the smaller dimension of that matrix. -/
theorem C78_history (svd : EigenSolver) (top : Nat) (pi : ℝ) (rand : Nat → Nat)
    (calls : List (EstCall DMat)) (t : DMat)
    (h : (EstCall.create.run (matrixHooks (svdTrain svd top pi rand))
      ((Est.new DMat.empty).after (matrixHooks (svdTrain svd top pi rand)) calls)).1
        = .ok (.transformer t)) :
    ∃ A : DMat, (Est.new DMat.empty).fitted (matrixHooks (svdTrain svd top pi rand)) calls = [[A]] ∧
      0 < A.rows ∧ 0 < A.cols ∧ t = svdTrain svd top pi rand A ∧
      t.rows = A.cols ∧ t.cols = min A.rows A.cols := by
  obtain ⟨A, h1, h2, h3, rfl⟩ := history _ calls t h
  refine ⟨A, h1, h2, h3, rfl, rfl, ?_⟩
  show smaller A.rows A.cols = _
  rw [smaller]; split_ifs <;> omega

/-- **C78** Training on one matrix that is not empty succeeds; without a fitted matrix, no transformer is
made. -/
theorem C78_training (svd : EigenSolver) (top : Nat) (pi : ℝ) (rand : Nat → Nat) :
    (∀ A : DMat, 0 < A.rows → 0 < A.cols →
      (EstCall.create.run (matrixHooks (svdTrain svd top pi rand)) ((Est.new DMat.empty).after
        (matrixHooks (svdTrain svd top pi rand)) [.begin, .fit (some [A]), .complete])).1
          = .ok (.transformer (svdTrain svd top pi rand A))) ∧
    (∀ calls, (Est.new DMat.empty).fitted (matrixHooks (svdTrain svd top pi rand)) calls = [] →
      ∃ e : Err, e.isException ∧ (EstCall.create.run (matrixHooks (svdTrain svd top pi rand))
        ((Est.new DMat.empty).after (matrixHooks (svdTrain svd top pi rand)) calls)).1 = .error e) := by
  refine ⟨fun A hr hc => trained _ A hr hc ⟨hc, ?_⟩, fun calls => untrained _ calls⟩
  show 0 < smaller A.rows A.cols
  rw [smaller]; split_ifs <;> assumption

private theorem gs_partial {m n : Nat} (A : Matrix (Fin m) (Fin n) ℝ) : Partial (gramSchmidt A) := by
  obtain ⟨k, _, h, _⟩ := gramSchmidt_spec A
  exact ⟨k, h⟩

private theorem column_product {m n r : Nat} (A : Matrix (Fin m) (Fin n) ℝ) (B : Matrix (Fin n) (Fin r) ℝ) :
    Submodule.span ℝ (Set.range (column (A * B))) ≤ Submodule.span ℝ (Set.range (column A)) := by
  rw [Submodule.span_le]
  rintro _ ⟨j, rfl⟩
  rw [SetLike.mem_coe, ← combination_iff]
  exact ⟨fun k => B k j, by funext i; simp [column, Matrix.mul_apply, mul_comm]⟩

private theorem gs_inside {m n r : Nat} (A : Matrix (Fin m) (Fin n) ℝ) (B : Matrix (Fin n) (Fin r) ℝ) :
    Submodule.span ℝ (Set.range (column (gramSchmidt (A * B)))) ≤
      Submodule.span ℝ (Set.range (column A)) := by
  obtain ⟨_, _, _, h, _⟩ := gramSchmidt_spec (A * B)
  rw [Submodule.span_le]
  rintro _ ⟨j, rfl⟩
  exact column_product A B (h j)

/-- **C78** If the random samples span the rows and the columns of the training matrix, the trained directions
are its singular value decomposition, whatever the numbers drawn. -/
theorem C78_decomposition (svd : EigenSolver)
    (hsvd : ∀ (n : Nat) (C : Matrix (Fin n) (Fin n) ℝ), Spec.RightSingularVectors C (svd n C))
    (top : Nat) (pi : ℝ) (rand : Nat → Nat) {m n : Nat} (A : Matrix (Fin m) (Fin n) ℝ)
    (rows : ∀ i, Spec.Combination (rowBasis top pi rand A) (fun j => A i j))
    (cols : ∀ j, Spec.Combination (columnBasis top pi rand A) (fun i => A i j)) :
    ∃ s, Spec.Decomposition A (svdState svd top pi rand A) s := by
  refine decomposition_of_bases A (rowBasis top pi rand A) (columnBasis top pi rand A) _
    (gs_partial _) (gs_partial _) rows ?_ ?_ (hsvd _ _)
  · intro j
    rw [combination_iff]
    exact gs_inside _ _ (Submodule.subset_span ⟨j, rfl⟩)
  · intro j
    rw [combination_iff]
    have : Submodule.span ℝ (Set.range (column A)) ≤
        Submodule.span ℝ (Set.range (column (columnBasis top pi rand A))) := by
      rw [Submodule.span_le]
      rintro _ ⟨k, rfl⟩
      exact (combination_iff _ _).1 (cols k)
    exact this (column_product A _ (Submodule.subset_span ⟨j, rfl⟩))

private theorem nonzero_orthonormal {m n : Nat} (A : Matrix (Fin m) (Fin n) ℝ)
    (h : ∀ j, ∃ i, gramSchmidt A i j ≠ 0) : (gramSchmidt A)ᵀ * gramSchmidt A = 1 := by
  obtain ⟨k, _, h1, _, h3, _⟩ := gramSchmidt_spec A
  ext j l
  have e : ((gramSchmidt A)ᵀ * gramSchmidt A) j l = column (gramSchmidt A) j ⬝ᵥ column (gramSchmidt A) l := rfl
  rw [e, h1, Matrix.one_apply]
  by_cases hjl : j = l
  · subst hjl
    have hj : j.val < k := by
      by_contra hk
      obtain ⟨i, hi⟩ := h j
      exact hi (congrFun (h3 j (not_lt.1 hk)) i)
    simp [hj]
  · simp [hjl]

/-- Orthonormal columns inside a space of at most as many dimensions span it. -/
private theorem spans {m n r : Nat} (Q : Matrix (Fin m) (Fin r) ℝ) (hQ : Qᵀ * Q = 1)
    (W : Matrix (Fin m) (Fin n) ℝ) (hW : W.rank ≤ r)
    (h : Submodule.span ℝ (Set.range (column Q)) ≤ Submodule.span ℝ (Set.range (column W))) (j : Fin n) :
    Spec.Combination Q (column W j) := by
  have hr : r ≤ Q.rank := by
    have := rank_mul_le_right Qᵀ Q
    rw [hQ, rank_one, Fintype.card_fin] at this
    exact this
  have hq : Q.rank = Module.finrank ℝ (Submodule.span ℝ (Set.range (column Q))) :=
    Matrix.rank_eq_finrank_span_cols Q
  have hw : W.rank = Module.finrank ℝ (Submodule.span ℝ (Set.range (column W))) :=
    Matrix.rank_eq_finrank_span_cols W
  have := Submodule.eq_of_le_of_finrank_le h (by omega)
  rw [combination_iff, this]
  exact Submodule.subset_span ⟨j, rfl⟩

/-- **C78** If no column was dropped when the samples were orthonormalised, the trained directions are the
singular value decomposition of the training matrix, and no singular value is zero. -/
theorem C78_full_rank (svd : EigenSolver)
    (hsvd : ∀ (n : Nat) (C : Matrix (Fin n) (Fin n) ℝ), Spec.RightSingularVectors C (svd n C))
    (top : Nat) (pi : ℝ) (rand : Nat → Nat) {m n : Nat} (A : Matrix (Fin m) (Fin n) ℝ)
    (hY : ∀ j, ∃ i, rowBasis top pi rand A i j ≠ 0) (hZ : ∀ j, ∃ i, columnBasis top pi rand A i j ≠ 0) :
    ∃ s, Spec.Decomposition A (svdState svd top pi rand A) s ∧ ∀ j, 0 < s j := by
  have oY : (rowBasis top pi rand A)ᵀ * rowBasis top pi rand A = 1 := nonzero_orthonormal _ hY
  have oZ : (columnBasis top pi rand A)ᵀ * columnBasis top pi rand A = 1 := nonzero_orthonormal _ hZ
  have hr : A.rank ≤ smaller m n := by
    have h1 := A.rank_le_width
    have h2 := A.rank_le_height
    rw [smaller]; split_ifs <;> omega
  have rows : ∀ i, Spec.Combination (rowBasis top pi rand A) (fun j => A i j) := by
    intro i
    exact spans _ oY Aᵀ (by rw [rank_transpose]; exact hr) (gs_inside _ _) i
  have cols : ∀ j, Spec.Combination (columnBasis top pi rand A) (fun i => A i j) := by
    intro j
    refine spans _ oZ A hr ?_ j
    rw [columnBasis, Matrix.mul_assoc]
    exact gs_inside _ _
  obtain ⟨s, hs⟩ := C78_decomposition svd hsvd top pi rand A rows cols
  refine ⟨s, hs, fun j => lt_of_le_of_ne (hs.nonneg j) fun h0 => ?_⟩
  have h1 := hs.directions j j
  rw [if_neg fun h => h.2 h0.symm] at h1
  have h2 : (svdState svd top pi rand A)ᵀ * svdState svd top pi rand A = 1 := by
    unfold svdState
    rw [transpose_mul, Matrix.mul_assoc, ← Matrix.mul_assoc (rowBasis top pi rand A)ᵀ, oY, Matrix.one_mul]
    exact (hsvd _ _).1
  have h3 := congrFun (congrFun h2 j) j
  rw [Matrix.one_apply_eq, Matrix.mul_apply] at h3
  have h5 : (∑ i, svdState svd top pi rand A i j * svdState svd top pi rand A i j) = 1 := h3
  linarith

/-- **C78** So the transformed training data have columns orthogonal to each other, with decreasing lengths. -/
theorem C78_transformed (svd : EigenSolver)
    (hsvd : ∀ (n : Nat) (C : Matrix (Fin n) (Fin n) ℝ), Spec.RightSingularVectors C (svd n C))
    (top : Nat) (pi : ℝ) (rand : Nat → Nat) {m n : Nat} (hm : 0 < m) (hn : 0 < n)
    (A : Matrix (Fin m) (Fin n) ℝ)
    (rows : ∀ i, Spec.Combination (rowBasis top pi rand A) (fun j => A i j))
    (cols : ∀ j, Spec.Combination (columnBasis top pi rand A) (fun i => A i j)) :
    ∃ (R : Matrix (Fin m) (Fin (smaller m n)) ℝ) (s : Fin (smaller m n) → ℝ),
      svdExec (svdTrain svd top pi rand ⟨m, n, A⟩) ⟨m, n, A⟩ = .ok ⟨m, smaller m n, R⟩ ∧ Antitone s ∧
      ∀ j k, ∑ i, R i j * R i k = if j = k then (s j) ^ 2 else 0 := by
  obtain ⟨s, hs⟩ := C78_decomposition svd hsvd top pi rand A rows cols
  obtain ⟨R, hR, h⟩ := C78_signs (svdState svd top pi rand A) hm hn A
  refine ⟨R, s, hR, hs.decreasing, fun j k => ?_⟩
  rw [← hs.projected j k]
  by_cases hjk : j = k
  · subst hjk
    rcases (h j).1 with hj | hj <;> exact Finset.sum_congr rfl fun i _ => by simp [hj]
  · have h0 := hs.projected j k
    rw [if_neg hjk] at h0
    rw [h0]
    rcases (h j).1 with hj | hj <;> rcases (h k).1 with hk | hk <;> simp [hj, hk, h0]

/-! ### Small matrices -/

private theorem gaussian_bound {top : Nat} (htop : top ≤ 2 ^ 32 - 2) (pi : ℝ) {r₁ r₂ : Nat} :
    |(gaussianPair top pi r₁ r₂).1| ≤ 7 ∧ |(gaussianPair top pi r₁ r₂).2| ≤ 7 := by
  have ht : (0 : ℝ) < top + 2 := by positivity
  have hlen : Real.sqrt (-2 * Real.log (((r₁ : ℝ) + 1) / (top + 2))) ≤ 7 := by
    rw [show (7 : ℝ) = Real.sqrt 49 by rw [show (49 : ℝ) = 7 ^ 2 by norm_num, Real.sqrt_sq (by norm_num)]]
    apply Real.sqrt_le_sqrt
    have h1 : Real.log (((r₁ : ℝ) + 1) / (top + 2)) = Real.log (r₁ + 1) - Real.log (top + 2) :=
      Real.log_div (by positivity) ht.ne'
    have h2 : 0 ≤ Real.log ((r₁ : ℝ) + 1) := Real.log_nonneg (by
      have : (0 : ℝ) ≤ r₁ := by positivity
      linarith)
    have h3 : Real.log ((top : ℝ) + 2) ≤ Real.log ((2 : ℝ) ^ 32) := by
      apply Real.log_le_log ht
      have : (top : ℝ) ≤ 2 ^ 32 - 2 := by
        have := (Nat.cast_le (α := ℝ)).2 htop
        norm_num at this ⊢
        exact this
      linarith
    rw [Real.log_pow] at h3
    have h4 := Real.log_two_lt_d9
    push_cast at h3
    rw [h1]
    linarith
  have h0 := Real.sqrt_nonneg (-2 * Real.log (((r₁ : ℝ) + 1) / (top + 2)))
  constructor
  · simp only [gaussianPair]
    rw [abs_mul, abs_of_nonneg h0]
    have := Real.abs_cos_le_one (2 * pi * (((r₂ : ℝ) + 1) / (top + 2)))
    nlinarith [abs_nonneg (Real.cos (2 * pi * (((r₂ : ℝ) + 1) / (top + 2))))]
  · simp only [gaussianPair]
    rw [abs_mul, abs_of_nonneg h0]
    have := Real.abs_sin_le_one (2 * pi * (((r₂ : ℝ) + 1) / (top + 2)))
    nlinarith [abs_nonneg (Real.sin (2 * pi * (((r₂ : ℝ) + 1) / (top + 2))))]

private theorem columns_small {m : Nat} (c : Fin m → ℝ) (rest : List (Fin m → ℝ)) (h : columnNorm c < eps) :
    gramSchmidtColumns [] (c :: rest) = List.replicate (rest.length + 1) 0 := by
  rw [gramSchmidtColumns, reduceBy, List.foldl_nil, if_pos h, List.nil_append]

private theorem gs_zero {m n : Nat} (M : Matrix (Fin m) (Fin n) ℝ) (h : ∀ j, columnNorm (column M j) < eps) :
    gramSchmidt M = 0 := by
  ext a j
  obtain ⟨l, hl⟩ : ∃ l, List.ofFn (column M) = l := ⟨_, rfl⟩
  show (gramSchmidtColumns [] (List.ofFn (column M))).getD j 0 a = 0
  rw [hl]
  rcases l with _ | ⟨c, rest⟩
  · simp [gramSchmidtColumns]
  · have hc : c ∈ List.ofFn (column M) := by rw [hl]; exact List.mem_cons_self
    obtain ⟨j', rfl⟩ := (List.mem_ofFn ..).1 hc
    rw [columns_small _ _ (h j'), List.getD_eq_getElem?_getD, List.getElem?_replicate]
    split_ifs <;> rfl

/-- **C78 (refuted)** Directions are not found when the training values are small: whatever the random
numbers, a transformer trained on an `m × n` matrix whose entries do not exceed `δ`, with `7 m n δ < 1E-4f`,
maps every matrix to zeros. -/
theorem C78_small_matrices (svd : EigenSolver) {top : Nat} (htop : top ≤ 2 ^ 32 - 2) (pi : ℝ)
    (rand : Nat → Nat) {m n : Nat} (hn : 0 < n)
    (A : Matrix (Fin m) (Fin n) ℝ) (δ : ℝ) (hA : ∀ i j, |A i j| ≤ δ) (hδ : 7 * m * n * δ < eps)
    {k : Nat} (hk : 0 < k) (X : Matrix (Fin k) (Fin n) ℝ) :
    svdExec (svdTrain svd top pi rand ⟨m, n, A⟩) ⟨k, n, X⟩ = .ok ⟨k, min m n, 0⟩ := by
  have hsm : smaller m n = min m n := by rw [smaller]; split_ifs <;> omega
  have hzero : svdState svd top pi rand A = 0 := by
    have hY : rowBasis top pi rand A = 0 := by
      obtain ⟨G, hG⟩ : ∃ G, sampleGaussian top pi rand m (smaller m n) = G := ⟨_, rfl⟩
      have hb : ∀ i j, |G i j| ≤ 7 := by
        intro i j
        rw [← hG]
        simp only [sampleGaussian]
        split_ifs
        · exact (gaussian_bound htop pi).1
        · exact (gaussian_bound htop pi).2
      have hAG : ∀ a j, |(Aᵀ * G) a j| ≤ 7 * m * δ := by
        intro a j
        rw [Matrix.mul_apply]
        refine (Finset.abs_sum_le_sum_abs _ _).trans ?_
        have : ∀ i ∈ (Finset.univ : Finset (Fin m)), |Aᵀ a i * G i j| ≤ 7 * δ := by
          intro i _
          rw [abs_mul, transpose_apply]
          have := mul_le_mul (hA i a) (hb i j) (abs_nonneg _) ((abs_nonneg _).trans (hA i a))
          linarith
        refine (Finset.sum_le_sum this).trans ?_
        simp only [Finset.sum_const, Finset.card_univ, Fintype.card_fin, nsmul_eq_mul]
        apply le_of_eq; ring
      have hnorm : ∀ j, columnNorm (column (Aᵀ * G) j) < eps := by
        intro j
        refine lt_of_le_of_lt ?_ hδ
        have h0 : 0 ≤ 7 * (m : ℝ) * δ := (abs_nonneg _).trans (hAG ⟨0, hn⟩ j)
        have hn1 : (1 : ℝ) ≤ n := by exact_mod_cast hn
        rw [columnNorm, show 7 * (m : ℝ) * n * δ = (7 * m * δ) * n by ring]
        refine Real.sqrt_le_iff.2 ⟨by positivity, ?_⟩
        have : column (Aᵀ * G) j ⬝ᵥ column (Aᵀ * G) j ≤ n * (7 * m * δ) ^ 2 := by
          rw [dotProduct]
          have h1 : ∀ a ∈ (Finset.univ : Finset (Fin n)),
              column (Aᵀ * G) j a * column (Aᵀ * G) j a ≤ (7 * m * δ) ^ 2 := by
            intro a _
            rw [← sq, ← sq_abs]
            exact pow_le_pow_left₀ (abs_nonneg _) (hAG a j) 2
          refine (Finset.sum_le_sum h1).trans ?_
          simp
        refine this.trans ?_
        rw [mul_pow _ (n : ℝ), mul_comm]
        have h2 : (n : ℝ) ≤ (n : ℝ) ^ 2 := by nlinarith
        exact mul_le_mul_of_nonneg_left h2 (sq_nonneg _)
      rw [rowBasis, hG]
      exact gs_zero _ hnorm
    rw [svdState]
    simp only [hY, Matrix.zero_mul]
  show svdExec ⟨n, smaller m n, svdState svd top pi rand A⟩ ⟨k, n, X⟩ = _
  rw [svd_exec _ hk hn, hzero, Matrix.mul_zero, hsm]
  have : svdFlip (0 : Matrix (Fin k) (Fin (min m n)) ℝ) = 0 := by
    ext i j
    rw [svdFlip]
    obtain ⟨i', _, h⟩ := flip_cases (fun k' : Fin k => (0 : Matrix (Fin k) (Fin (min m n)) ℝ) k' j) hk
    rw [h]; simp
  rw [this]

/-- With 100 rows and 10 columns of entries up to 1e-8, say. -/
example (svd : EigenSolver) (pi : ℝ) (rand : Nat → Nat) (X : Matrix (Fin 3) (Fin 10) ℝ) :
    svdExec (svdTrain svd (2 ^ 31 - 1) pi rand ⟨100, 10, fun _ _ => 1 / 10 ^ 8⟩) ⟨3, 10, X⟩ =
      .ok ⟨3, 10, 0⟩ :=
  C78_small_matrices svd (by norm_num) pi rand (by norm_num) _ (1 / 10 ^ 8) (fun _ _ => by norm_num)
    (by rw [eps]; norm_num) (by norm_num) X

private theorem one_by_one (x : ℝ) (h : 1 ≤ x) (M : Matrix (Fin 1) (Fin 1) ℝ) (hM : M 0 0 = x) :
    gramSchmidt M = 1 := by
  have hc : List.ofFn (column M) = [fun _ => x] := by
    rw [List.ofFn_succ, List.ofFn_zero]
    congr 1
    funext i
    rw [Subsingleton.elim i 0]; exact hM
  have hn : columnNorm (fun _ : Fin 1 => x) = x := by
    rw [columnNorm, dotProduct, Fin.sum_univ_one, Real.sqrt_mul_self (by linarith)]
  ext i j
  rw [Subsingleton.elim i 0, Subsingleton.elim j 0]
  show (gramSchmidtColumns [] (List.ofFn (column M))).getD 0 0 0 = _
  rw [hc, gramSchmidtColumns, reduceBy, List.foldl_nil, hn, if_neg, gramSchmidtColumns]
  · simp
    field_simp
  · rw [eps]; norm_num; linarith

/-- The conditions of `C78_full_rank` hold, for example, for the 1 × 1 matrix of the number one and a
generator that always returns 8192. -/
example : ∃ (top : Nat) (rand : Nat → Nat) (A : Matrix (Fin 1) (Fin 1) ℝ),
    (∀ j, ∃ i, rowBasis top Real.pi rand A i j ≠ 0) ∧
    (∀ j, ∃ i, columnBasis top Real.pi rand A i j ≠ 0) := by
  have hg : ∀ rand : Nat → Nat, (∀ k, rand k = 8192) →
      1 ≤ (sampleGaussian 32770 Real.pi rand 1 1 : Matrix (Fin 1) (Fin 1) ℝ) 0 0 := by
    intro rand hr
    simp only [sampleGaussian, gaussianPair, hr]
    have e : (((8192 : Nat) : ℝ) + 1) / (((32770 : Nat) : ℝ) + 2) = 1 / 4 := by norm_num
    rw [e, if_neg (by simp)]
    have e2 : 2 * Real.pi * (1 / 4) = Real.pi / 2 := by ring
    rw [e2, Real.sin_pi_div_two, mul_one]
    rw [Real.le_sqrt' (by norm_num)]
    have : Real.log (1 / 4) = - (2 * Real.log 2) := by
      rw [Real.log_div (by norm_num) (by norm_num), Real.log_one, show (4 : ℝ) = 2 ^ 2 by norm_num, Real.log_pow]
      push_cast; ring
    rw [this]
    have := Real.log_two_gt_d9
    linarith
  have hY : rowBasis 32770 Real.pi (fun _ => 8192) (1 : Matrix (Fin 1) (Fin 1) ℝ) =
      (1 : Matrix (Fin 1) (Fin 1) ℝ) := by
    have h := hg (fun _ => 8192) fun _ => rfl
    refine one_by_one _ h _ ?_
    rw [transpose_one]
    exact congrFun (congrFun (Matrix.one_mul (sampleGaussian 32770 Real.pi (fun _ => 8192) 1 1)) 0) 0
  have hZ : columnBasis 32770 Real.pi (fun _ => 8192) (1 : Matrix (Fin 1) (Fin 1) ℝ) =
      (1 : Matrix (Fin 1) (Fin 1) ℝ) := by
    have h := hg (fun _ => 8192) fun _ => rfl
    rw [columnBasis, hY]
    refine one_by_one _ h _ ?_
    show ((1 : Matrix (Fin 1) (Fin 1) ℝ) * (1 : Matrix (Fin 1) (Fin 1) ℝ) *
      sampleGaussian 32770 Real.pi (fun _ => 8192) 1 1) 0 0 = _
    rw [Matrix.mul_one]
    exact congrFun (congrFun (Matrix.one_mul (sampleGaussian 32770 Real.pi (fun _ => 8192) 1 1)) 0) 0
  refine ⟨32770, fun _ => 8192, 1, fun j => ⟨0, ?_⟩, fun j => ⟨0, ?_⟩⟩
  · rw [hY]
    have : j = (0 : Fin 1) := Subsingleton.elim (α := Fin 1) _ _
    subst this
    exact (one_ne_zero : (1 : ℝ) ≠ 0)
  · rw [hZ]
    have : j = (0 : Fin 1) := Subsingleton.elim (α := Fin 1) _ _
    subst this
    exact (one_ne_zero : (1 : ℝ) ≠ 0)

end Feat.MatrixProjections
