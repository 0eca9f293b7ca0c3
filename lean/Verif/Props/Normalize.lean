import Verif.Props.StandardScaler
/-
C28 row normalization.
-/
namespace Feat
variable {V F T α : Type}

/-- The sum of the absolute values. -/
def l1Of [Field F] [LinearOrder F] (l : List F) : F := (l.map fun x => |x|).sum
/-- The largest absolute value (0 for no values). -/
def maxOf [Field F] [LinearOrder F] (l : List F) : F := l.foldr (fun x m => max |x| m) 0
/-- The square root of the sum of the squares. -/
def l2Of [Field F] [LinearOrder F] (sqrt : F → F) (l : List F) : F := sqrt (l.map fun x => |x| ^ 2).sum

/-- The non-null values of a row. -/
def valuesOf (toF : T → F) (row : List (Option T)) : List F := row.filterMap fun x => x.map toF
/-- The numbers of an output row. -/
def numbersOf (out : List (FVal F)) : List F :=
  out.filterMap fun | .num x => some x | _ => none

/-- `out` is the row divided by its own norm: nulls stay null (NaN) and stay where they are; if the norm is not zero
the numbers are the quotients and their norm is 1; if it is zero (all values are zero) every value becomes NaN. -/
structure NormalizedBy [Field F] [LinearOrder F] (norm : List F → F) (toF : T → F) (row : List (Option T))
    (out : List (FVal F)) : Prop where
  length : out.length = row.length
  null : ∀ i : Nat, row[i]? = some none → out[i]? = some .nan
  value : norm (valuesOf toF row) ≠ 0 → ∀ (i : Nat) (x : T), row[i]? = some (some x) →
    out[i]? = some (.num (toF x / norm (valuesOf toF row)))
  unit : norm (valuesOf toF row) ≠ 0 → norm (numbersOf out) = 1
  zero : norm (valuesOf toF row) = 0 → ∀ v ∈ out, v = .nan

/-- What a trained row normalizer does with the rows it was trained on, in the same order: every row is normalized
by its own norm, in the same order, without exception; one more row, whatever it is, throws `runtime_error`. -/
def Normalizes [Field F] [LinearOrder F] (norm : List F → F) (toF : T → F) (rows : List (List (Option T)))
    (t : Normalizer F) : Prop :=
  let run := (normalizeXf toF).execAll t rows
  run.err = none ∧ run.outs.length = rows.length ∧
  (∀ (i : Nat) row out, rows[i]? = some row → run.outs[i]? = some out → NormalizedBy norm toF row out) ∧
  ∀ row, ((normalizeXf toF).exec run.next row).outs = [] ∧
    ((normalizeXf toF).exec run.next row).err = some .runtimeError

/-- What the proofs need of a norm. -/
private structure NormLaws [Field F] [LinearOrder F] (norm : List F → F) : Prop where
  nonneg : ∀ l, 0 ≤ norm l
  scale : ∀ l c, 0 < c → norm (l.map fun x => x / c) = norm l / c
  zero : ∀ l, norm l = 0 → ∀ x ∈ l, x = 0

private def outRow [Field F] [DecidableEq F] (toF : T → F) (n : F) (row : List (Option T)) : List (FVal F) :=
  row.map fun x => match x with
    | none => .nan
    | some x => fdiv (toF x) n

private theorem numbers_outRow [Field F] [DecidableEq F] (toF : T → F) (n : F) (hn : n ≠ 0)
    (row : List (Option T)) : numbersOf (outRow toF n row) = (valuesOf toF row).map fun x => x / n := by
  induction row with
  | nil => rfl
  | cons x row ih =>
    cases x with
    | none =>
      have h1 : numbersOf (outRow toF n (none :: row)) = numbersOf (outRow toF n row) := by
        simp [numbersOf, outRow]
      rw [h1, ih]; simp [valuesOf]
    | some x =>
      have h1 : numbersOf (outRow toF n (some x :: row)) = (toF x / n) :: numbersOf (outRow toF n row) := by
        simp [numbersOf, outRow, fdiv, hn]
      rw [h1, ih]; simp [valuesOf]

private theorem normalizedBy_of [Field F] [LinearOrder F] [IsStrictOrderedRing F] (norm : List F → F)
    (hl : NormLaws norm) (toF : T → F) (row : List (Option T)) :
    NormalizedBy norm toF row (outRow toF (norm (valuesOf toF row)) row) := by
  refine ⟨by simp [outRow], ?_, ?_, ?_, ?_⟩
  · intro i h; simp [outRow, h]
  · intro hn i x h; simp [outRow, h, fdiv, hn]
  · intro hn
    rw [numbers_outRow toF _ hn, hl.scale _ _ (lt_of_le_of_ne (hl.nonneg _) (Ne.symm hn)), div_self hn]
  · intro hz v hv
    obtain ⟨x, hx, rfl⟩ := List.mem_map.1 hv
    cases x with
    | none => rfl
    | some x =>
      have : toF x = 0 := hl.zero _ hz _ (List.mem_filterMap.2 ⟨some x, hx, rfl⟩)
      simp [fdiv, hz, this]

private theorem execAll_rows [Field F] [DecidableEq F] (toF : T → F) (norm : List (Option T) → F)
    (rows : List (List (Option T))) : ∀ (pre post : List F),
    (normalizeXf toF).execAll ⟨pre ++ rows.map norm ++ post, pre.length⟩ rows
      = ⟨rows.map fun r => outRow toF (norm r) r, none, ⟨pre ++ rows.map norm ++ post, pre.length + rows.length⟩⟩ := by
  induction rows with
  | nil => intro pre post; rfl
  | cons r rows ih =>
    intro pre post
    have hget : (pre ++ (r :: rows).map norm ++ post)[pre.length]? = some (norm r) := by
      simp
    have hex : (normalizeXf toF).exec ⟨pre ++ (r :: rows).map norm ++ post, pre.length⟩ r
        = ⟨[outRow toF (norm r) r], none, ⟨pre ++ (r :: rows).map norm ++ post, pre.length + 1⟩⟩ := by
      simp only [normalizeXf, Normalizer.exec, hget]
      rfl
    have ih := ih (pre ++ [norm r]) post
    have hl : pre ++ [norm r] ++ rows.map norm ++ post = pre ++ (r :: rows).map norm ++ post := by simp
    rw [hl] at ih
    have hlen : (pre ++ [norm r]).length = pre.length + 1 := by simp
    rw [hlen] at ih
    simp only [Xf.execAll]
    rw [hex]
    simp only
    rw [ih]
    simp only [List.map_cons, List.singleton_append, List.length_cons, Run.mk.injEq, Normalizer.mk.injEq, true_and]
    omega

private theorem norms_run [Field F] [LinearOrder F] (k : NormKind T F) (wrap : List F → α)
    (norm : List (Option T) → F) (rows : List (List (Option T)))
    (hk : ∀ row ∈ rows, rowNorm k row = .ok (norm row)) : ∀ s,
    (normsPolicy k wrap).fitAll rows s = (.ok (), s ++ rows.map norm) := by
  induction rows with
  | nil => intro s; simp [Policy.fitAll]
  | cons r rows ih =>
    intro s
    have hf : (normsPolicy k wrap).fit r s = (.ok (), s ++ [norm r]) := by
      simp only [normsPolicy, hk r (by simp)]
    simp only [Policy.fitAll, hf]
    rw [ih (fun row h => hk row (List.mem_cons_of_mem _ h))]
    simp

private theorem normalize_trained [Field F] [LinearOrder F] [IsStrictOrderedRing F] (k : NormKind T F)
    (toF : T → F) (norm : List F → F) (hl : NormLaws norm)
    (col cap : Nat) (hcap : 0 < cap) (batches : List (List (List (Option T)))) (hne : batches ≠ [])
    (hb : NoEmptyBatch batches) (maps : AnnotationMaps (NumAnnot V F)) (hcol : col < maps.length)
    (hnone : getAnnotation NumAnnot.isNorms maps col "VectorNormsEstimator" = .ok none)
    (hk : ∀ row ∈ batches.flatten.take cap, rowNorm k row = .ok (norm (valuesOf toF row))) :
    ∃ t : Normalizer F,
      (∀ X : Xf (Normalizer F) (List (Option T)) (List (Option T)),
        FeaturizerYields X (fun _ => normsComponent k col cap) 1 (makeNormalizer col) batches maps (.ok t)) ∧
      Normalizes norm toF (batches.flatten.take cap) t := by
  have hrne : batches.flatten.take cap ≠ [] := by
    obtain ⟨b, bs, rfl⟩ := List.exists_cons_of_ne_nil hne
    obtain ⟨r, rs, rfl⟩ := List.exists_cons_of_ne_nil (hb b (by simp))
    cases cap with
    | zero => omega
    | succ c => simp
  generalize hrows : batches.flatten.take cap = rows at *
  have ht := trainEstimator_run (normsPolicy k (NumAnnot.norms (V := V))) (fun _ _ => rfl)
    (normsConfig col NumAnnot.isNorms) cap hcap [] batches hb maps hcol rfl hnone
  rw [hrows, norms_run k (NumAnnot.norms (V := V)) (fun row => norm (valuesOf toF row)) rows hk []] at ht
  simp only [List.nil_append, normsPolicy] at ht
  have hn0 : rows.map (fun row => norm (valuesOf toF row)) ≠ [] := by simpa using hrne
  have hpos : ¬ (rows.map (fun row => norm (valuesOf toF row))).any (· < 0) = true := by
    simp only [List.any_eq_true, List.mem_map, decide_eq_true_eq, not_exists, not_and, not_lt]
    rintro x ⟨row, _, rfl⟩
    exact hl.nonneg _
  rw [if_neg hn0, if_neg hpos] at ht
  simp only at ht
  refine ⟨⟨rows.map (fun row => norm (valuesOf toF row)), 0⟩, fun X => ?_, ?_⟩
  · have hy := featurizer_one X (normsComponent k col cap) (makeNormalizer col) batches hne hb maps
      hcol _ _ (ht.trans (addAnnotation_ok maps _ col _ hcol).1)
    have hm : makeNormalizer col (addAnnotation (some (NumAnnot.norms (V := V)
        (rows.map (fun row => norm (valuesOf toF row))))) col "VectorNormsEstimator" maps).2
        = .ok ⟨rows.map (fun row => norm (valuesOf toF row)), 0⟩ := by
      unfold makeNormalizer
      rw [getAnnotationData_of (getAnnotation_add_self maps _ col _ _ rfl hnone)]
      simp only [Normalizer.new]
      rw [if_neg hn0, if_neg hpos]
    simp only [Except.bind, normsConfig] at hy
    rw [hm] at hy
    exact hy
  · have hx := execAll_rows toF (fun row => norm (valuesOf toF row)) rows [] []
    simp only [List.nil_append, List.append_nil, List.length_nil, Nat.zero_add] at hx
    simp only [Normalizes, hx]
    refine ⟨trivial, by simp, ?_, ?_⟩
    · intro i row out hr ho
      rw [List.getElem?_map, hr] at ho
      simp only [Option.map_some, Option.some.injEq] at ho
      subst ho
      exact normalizedBy_of norm hl toF row
    · intro row
      have : (rows.map fun row => norm (valuesOf toF row))[rows.length]? = none := by simp
      simp only [normalizeXf, Normalizer.exec, this, and_self]

private theorem l1_laws [Field F] [LinearOrder F] [IsStrictOrderedRing F] : NormLaws (l1Of (F := F)) := by
  have hnn : ∀ l : List F, 0 ≤ l1Of l := by
    intro l
    induction l with
    | nil => simp [l1Of]
    | cons a l ih => simp only [l1Of, List.map_cons, List.sum_cons] at *; have := abs_nonneg a; linarith
  refine ⟨hnn, ?_, ?_⟩
  · intro l c hc
    induction l with
    | nil => simp [l1Of]
    | cons a l ih =>
      simp only [l1Of, List.map_cons, List.sum_cons] at *
      rw [ih, abs_div, abs_of_pos hc, add_div]
  · intro l
    induction l with
    | nil => simp
    | cons a l ih =>
      intro h x hx
      have h1 := abs_nonneg a
      have h2 := hnn l
      simp only [l1Of, List.map_cons, List.sum_cons] at h h2 ih
      rcases List.mem_cons.1 hx with rfl | hx
      · exact abs_eq_zero.1 (by linarith)
      · exact ih (by linarith) x hx

private theorem max_laws [Field F] [LinearOrder F] [IsStrictOrderedRing F] : NormLaws (maxOf (F := F)) := by
  have hnn : ∀ l : List F, 0 ≤ maxOf l := by
    intro l
    cases l with
    | nil => simp [maxOf]
    | cons a l => exact le_trans (abs_nonneg a) (le_max_left _ _)
  refine ⟨hnn, ?_, ?_⟩
  · intro l c hc
    induction l with
    | nil => simp [maxOf]
    | cons a l ih =>
      simp only [maxOf, List.map_cons, List.foldr_cons] at *
      rw [ih, abs_div, abs_of_pos hc, max_div_div_right (α := F) (le_of_lt hc)]
  · intro l
    induction l with
    | nil => simp
    | cons a l ih =>
      intro h x hx
      simp only [maxOf, List.foldr_cons] at h ih
      rcases List.mem_cons.1 hx with rfl | hx
      · exact abs_eq_zero.1 (le_antisymm (le_trans (le_max_left _ _) (le_of_eq h)) (abs_nonneg x))
      · exact ih (le_antisymm (le_trans (le_max_right _ _) (le_of_eq h)) (hnn l)) x hx

private theorem sqrt_unique [Field F] [LinearOrder F] [IsStrictOrderedRing F] (sqrt : F → F) (hs : IsSqrt sqrt)
    (x y : F) (hx : 0 ≤ x) (hy : y ^ 2 = x) (hy0 : 0 ≤ y) : sqrt x = y := by
  have h1 := hs.square x hx
  rw [← hy] at h1
  rw [← hy]
  exact (pow_left_inj₀ (hs.nonneg _) hy0 (two_ne_zero)).1 h1

private theorem l2_laws [Field F] [LinearOrder F] [IsStrictOrderedRing F] (sqrt : F → F) (hs : IsSqrt sqrt) :
    NormLaws (l2Of (F := F) sqrt) := by
  have hnn : ∀ l : List F, 0 ≤ (l.map fun x => |x| ^ 2).sum := by
    intro l
    induction l with
    | nil => simp
    | cons a l ih => simp only [List.map_cons, List.sum_cons]; have := sq_nonneg |a|; linarith
  refine ⟨fun l => hs.nonneg _, ?_, ?_⟩
  · intro l c hc
    unfold l2Of
    apply sqrt_unique sqrt hs _ _ (hnn _)
    · rw [div_pow, hs.square _ (hnn l)]
      induction l with
      | nil => simp
      | cons a l ih =>
        simp only [List.map_cons, List.sum_cons] at *
        rw [← ih, abs_div, abs_of_pos hc, div_pow, add_div]
    · exact div_nonneg (hs.nonneg _) (le_of_lt hc)
  · intro l h
    have h0 : (l.map fun x => |x| ^ 2).sum = 0 := by
      rw [← hs.square _ (hnn l)]
      unfold l2Of at h
      rw [h]; simp
    clear h
    induction l with
    | nil => simp
    | cons a l ih =>
      intro x hx
      have h1 := sq_nonneg |a|
      have h2 := hnn l
      simp only [List.map_cons, List.sum_cons] at h0
      rcases List.mem_cons.1 hx with rfl | hx
      · exact abs_eq_zero.1 (pow_eq_zero_iff (two_ne_zero) |>.1 (by linarith))
      · exact ih (by linarith) x hx

private theorem rowNorm_gen [Field F] (k : NormKind T F) (toF : T → F) (step : F → F → F)
    (row : List (Option T)) (hstep : ∀ s x, some x ∈ row → k.step s x = .ok (step s (toF x)))
    (hrow : ∃ x, some x ∈ row) :
    rowNorm k row = .ok (k.commit ((valuesOf toF row).foldl step 0)) := by
  have hloop : ∀ (row : List (Option T)), (∀ s x, some x ∈ row → k.step s x = .ok (step s (toF x))) →
      ∀ s b, normLoop k row (s, b) = .ok ((valuesOf toF row).foldl step s, b || !(valuesOf toF row).isEmpty) := by
    intro row
    induction row with
    | nil => intro _ s b; simp [normLoop, valuesOf]
    | cons x row ih =>
      intro h s b
      have ih := ih (fun s x hx => h s x (List.mem_cons_of_mem _ hx))
      cases x with
      | none => simp only [normLoop]; rw [ih]; simp [valuesOf]
      | some x =>
        simp only [normLoop, h s x (by simp)]
        rw [ih]
        simp [valuesOf]
  unfold rowNorm
  rw [hloop row hstep]
  obtain ⟨x, hx⟩ := hrow
  have hne : (valuesOf toF row).isEmpty = false := by
    cases hv : valuesOf toF row with
    | nil =>
      have : toF x ∈ valuesOf toF row := List.mem_filterMap.2 ⟨some x, hx, rfl⟩
      rw [hv] at this
      cases this
    | cons => rfl
  rw [hne]
  rfl

private theorem foldl_l1 [Field F] [LinearOrder F] (l : List F) : ∀ s,
    l.foldl (fun s x => s + |x|) s = s + l1Of l := by
  induction l with
  | nil => intro s; simp [l1Of]
  | cons a l ih => intro s; simp only [List.foldl_cons, ih, l1Of, List.map_cons, List.sum_cons]; ring

private theorem foldl_l2 [Field F] [LinearOrder F] (l : List F) : ∀ s,
    l.foldl (fun s x => s + |x| ^ 2) s = s + (l.map fun x => |x| ^ 2).sum := by
  induction l with
  | nil => intro s; simp
  | cons a l ih => intro s; simp only [List.foldl_cons, ih, List.map_cons, List.sum_cons]; ring

private theorem foldl_max [Field F] [LinearOrder F] (l : List F) : ∀ s, 0 ≤ s →
    l.foldl (fun s x => max |x| s) s = max s (maxOf l) := by
  induction l with
  | nil => intro s h; simp [maxOf, h]
  | cons a l ih =>
    intro s h
    simp only [List.foldl_cons, maxOf, List.foldr_cons] at *
    rw [ih _ (le_trans h (le_max_right _ _)), max_comm |a| s, max_assoc]

/-- **C28** (L1 normalization, exact arithmetic) A normalizer trained through its public calls on any rows, each with
at least one non-null value, normalizes these rows, in order, by their sums of absolute values, and throws for
one row more. -/
theorem C28_l1 [Field F] [LinearOrder F] [IsStrictOrderedRing F] (toF : T → F)
    (col cap : Nat) (hcap : 0 < cap) (batches : List (List (List (Option T)))) (hne : batches ≠ [])
    (hb : NoEmptyBatch batches) (maps : AnnotationMaps (NumAnnot V F)) (hcol : col < maps.length)
    (hnone : getAnnotation NumAnnot.isNorms maps col "VectorNormsEstimator" = .ok none)
    (hrows : ∀ row ∈ batches.flatten.take cap, ∃ x, some x ∈ row) :
    ∃ t : Normalizer F,
      (∀ X : Xf (Normalizer F) (List (Option T)) (List (Option T)),
        FeaturizerYields X (fun _ => normsComponent (l1Norm toF) col cap) 1 (makeNormalizer col) batches maps
          (.ok t)) ∧
      Normalizes l1Of toF (batches.flatten.take cap) t :=
  normalize_trained (l1Norm toF) toF l1Of l1_laws col cap hcap batches hne hb maps hcol hnone
    (fun row hr => by
      rw [rowNorm_gen (l1Norm toF) toF (fun s x => s + |x|) row (fun _ _ _ => rfl) (hrows row hr), foldl_l1]
      simp [l1Norm])

/-- **C28** (L2 normalization, exact arithmetic) -/
theorem C28_l2 [Field F] [LinearOrder F] [IsStrictOrderedRing F] (toF : T → F) (sqrt : F → F)
    (hsqrt : IsSqrt sqrt)
    (col cap : Nat) (hcap : 0 < cap) (batches : List (List (List (Option T)))) (hne : batches ≠ [])
    (hb : NoEmptyBatch batches) (maps : AnnotationMaps (NumAnnot V F)) (hcol : col < maps.length)
    (hnone : getAnnotation NumAnnot.isNorms maps col "VectorNormsEstimator" = .ok none)
    (hrows : ∀ row ∈ batches.flatten.take cap, ∃ x, some x ∈ row) :
    ∃ t : Normalizer F,
      (∀ X : Xf (Normalizer F) (List (Option T)) (List (Option T)),
        FeaturizerYields X (fun _ => normsComponent (l2Norm sqrt toF) col cap) 1 (makeNormalizer col) batches maps
          (.ok t)) ∧
      Normalizes (l2Of sqrt) toF (batches.flatten.take cap) t :=
  normalize_trained (l2Norm sqrt toF) toF (l2Of sqrt) (l2_laws sqrt hsqrt) col cap hcap batches hne hb maps hcol
    hnone
    (fun row hr => by
      rw [rowNorm_gen (l2Norm sqrt toF) toF (fun s x => s + |x| ^ 2) row (fun _ _ _ => rfl) (hrows row hr),
        foldl_l2]
      simp [l2Norm, l2Of])

/-- **C28** (max normalization of floating point inputs, exact arithmetic) -/
theorem C28_max [Field F] [LinearOrder F] [IsStrictOrderedRing F] (toF : T → F)
    (col cap : Nat) (hcap : 0 < cap) (batches : List (List (List (Option T)))) (hne : batches ≠ [])
    (hb : NoEmptyBatch batches) (maps : AnnotationMaps (NumAnnot V F)) (hcol : col < maps.length)
    (hnone : getAnnotation NumAnnot.isNorms maps col "VectorNormsEstimator" = .ok none)
    (hrows : ∀ row ∈ batches.flatten.take cap, ∃ x, some x ∈ row) :
    ∃ t : Normalizer F,
      (∀ X : Xf (Normalizer F) (List (Option T)) (List (Option T)),
        FeaturizerYields X (fun _ => normsComponent (maxNorm toF) col cap) 1 (makeNormalizer col) batches maps
          (.ok t)) ∧
      Normalizes maxOf toF (batches.flatten.take cap) t :=
  normalize_trained (maxNorm toF) toF maxOf max_laws col cap hcap batches hne hb maps hcol hnone
    (fun row hr => by
      rw [rowNorm_gen (maxNorm toF) toF (fun s x => max |x| s) row (fun _ _ _ => rfl) (hrows row hr),
        foldl_max _ _ (le_refl _)]
      simp only [maxNorm, id]
      rw [max_eq_right (max_laws.nonneg _)])

/-- **C28** (max normalization of integers; part: no value is the smallest of a signed type, see `C28_int8`) -/
theorem C28_max_integers_partial [CInt T] [Field F] [LinearOrder F] [IsStrictOrderedRing F]
    (hhi : CInt.hi T < 2 ^ 64) (hlo : CInt.lo T ≤ 0)
    (col cap : Nat) (hcap : 0 < cap) (batches : List (List (List (Option T)))) (hne : batches ≠ [])
    (hb : NoEmptyBatch batches) (maps : AnnotationMaps (NumAnnot V F)) (hcol : col < maps.length)
    (hnone : getAnnotation NumAnnot.isNorms maps col "VectorNormsEstimator" = .ok none)
    (hrows : ∀ row ∈ batches.flatten.take cap, ∃ x, some x ∈ row)
    (hmin : ∀ row ∈ batches.flatten.take cap, ∀ x, some x ∈ row → -CInt.toInt x ≤ CInt.hi T) :
    ∃ t : Normalizer F,
      (∀ X : Xf (Normalizer F) (List (Option T)) (List (Option T)),
        FeaturizerYields X (fun _ => normsComponent intMaxNorm col cap) 1 (makeNormalizer col) batches maps
          (.ok t)) ∧
      Normalizes maxOf (fun x => (CInt.toInt x : F)) (batches.flatten.take cap) t :=
  normalize_trained intMaxNorm (fun x => (CInt.toInt x : F)) maxOf max_laws col cap hcap batches hne hb maps hcol
    hnone
    (fun row hr => by
      have habs : ∀ x, some x ∈ row → ∃ n, intNormAbs x = .ok n ∧ ((n : F) = |(CInt.toInt x : F)|) := by
        intro x hx
        have h1 := hmin row hr x hx
        unfold intNormAbs
        by_cases h0 : CInt.toInt x < 0
        · rw [if_pos h0, if_neg (by rintro ⟨_, h⟩; omega)]
          refine ⟨_, rfl, ?_⟩
          rw [CInt.toInt_ofInt _ (by omega) h1]
          have h3 : (-CInt.toInt x) % 2 ^ 64 = -CInt.toInt x := Int.emod_eq_of_lt (by omega) (by omega)
          rw [h3]
          have h4 : (((-CInt.toInt x).toNat : Int) : F) = ((-CInt.toInt x : Int) : F) := by
            rw [Int.toNat_of_nonneg (by omega)]
          have h5 : (CInt.toInt x : F) < 0 := by exact_mod_cast h0
          rw [abs_of_neg h5]
          rw [Int.cast_natCast] at h4
          rw [h4]
          simp
        · rw [if_neg h0]
          refine ⟨_, rfl, ?_⟩
          have h4 : (((CInt.toInt x).toNat : Int) : F) = ((CInt.toInt x : Int) : F) := by
            rw [Int.toNat_of_nonneg (by omega)]
          have h5 : (0 : F) ≤ (CInt.toInt x : F) := by exact_mod_cast not_lt.1 h0
          rw [abs_of_nonneg h5]
          rw [Int.cast_natCast] at h4
          exact h4
      rw [rowNorm_gen intMaxNorm (fun x => (CInt.toInt x : F)) (fun s x => max |x| s) row
        (fun s x hx => by
          obtain ⟨n, h1, h2⟩ := habs x hx
          simp only [intMaxNorm, h1, h2]) (hrows row hr),
        foldl_max _ _ (le_refl _)]
      simp only [intMaxNorm, id]
      rw [max_eq_right (max_laws.nonneg _)])

/-- **C28** fails for `int8_t` −128 (likewise −2¹⁵ for `int16_t`): the norm of the row [−128] becomes 2⁶⁴ − 128. -/
theorem C28_int8 : rowNorm (intMaxNorm (T := Int8) (F := Rat)) [some (-128)] = .ok (2 ^ 64 - 128) := by
  have h1 : intNormAbs (-128 : Int8) = .ok (2 ^ 64 - 128) := by decide +kernel
  simp only [rowNorm, normLoop, intMaxNorm, h1, id]
  norm_num

/-- **C28** Training on a row without any value throws `runtime_error`. -/
theorem C28_null_row [Field F] [LinearOrder F] (k : NormKind T F) (wrap : List F → α) (kind : α → Bool)
    (col cap : Nat) (hcap : 0 < cap) (row : List (Option T)) (hrow : ∀ x ∈ row, x = none)
    (maps : AnnotationMaps α) (hcol : col < maps.length)
    (hnone : getAnnotation kind maps col "VectorNormsEstimator" = .ok none) :
    trainEstimator (normsPolicy k wrap) (normsConfig col kind) cap [] [[row]] maps
      = (.error .runtimeError, maps) := by
  rw [trainEstimator_run _ (fun _ _ => rfl) (normsConfig col kind) cap hcap _ _
    (by intro b hb; simp at hb; subst hb; simp) maps hcol rfl hnone]
  have ht : ([[row]] : List (List (List (Option T)))).flatten.take cap = [row] := by
    cases cap with
    | zero => omega
    | succ c => simp
  have hl : ∀ (row : List (Option T)), (∀ x ∈ row, x = none) → ∀ s, normLoop k row s = .ok s := by
    intro row
    induction row with
    | nil => intro _ s; rfl
    | cons x row ih =>
      intro h s
      rw [h x (by simp)]
      exact ih (fun y hy => h y (List.mem_cons_of_mem _ hy)) s
  rw [ht]
  simp only [Policy.fitAll, normsPolicy, rowNorm, hl row hrow]

/-! Non-vacuity: the rows [3, null, −1] and [0, 0] have sums 4 and 0. -/
example : ∃ t : Normalizer Rat, Normalizes l1Of id [[some 3, none, some (-1)], [some 0, some 0]] t := by
  obtain ⟨t, _, h⟩ := C28_l1 (V := Rat) (F := Rat) id 0 9 (by decide)
    [[[some 3, none, some (-1)]], [[some 0, some 0]]] (by simp)
    (by intro b hb; simp at hb; rcases hb with rfl | rfl <;> simp) [[]] (by simp) rfl
    (by intro row hr; simp at hr; rcases hr with rfl | rfl; exacts [⟨3, by simp⟩, ⟨0, by simp⟩])
  exact ⟨t, h⟩

end Feat
