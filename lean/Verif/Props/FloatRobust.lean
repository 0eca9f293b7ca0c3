import Verif.Proofs.FloatRobust
/-
C76: the robust scaler in floating point arithmetic.
-/
namespace Feat.FloatMedian
open FloatText FloatArith FloatStats FloatNorms FloatScalers
variable {ι V S T τ : Type}

/-! ### From the training to the featurizer -/

section
variable [FloType T] {k : RobustInput ι V S T} {centering : Bool} {a b : F32} {col cap : Nat} {batches : List (List ι)}
  {maps : AnnotationMaps (MedAnnot V S T)}

/-- Without a median there is no scaler. -/
theorem robust_no_median (hne : batches ≠ []) (hb : NoEmptyBatch batches) (hcol : col < maps.length) {e : Err}
    (ht : trainEstimator (medianPolicy k.get MedAnnot.median) (medianConfig col MedAnnot.isMedian) cap ⟨[], []⟩ batches maps
      = (.error e, maps)) (X : Xf (FloRobust T) ι ι) :
    FeaturizerYields X (robustComponents k col cap) 2 (makeRobust k centering a b col) batches maps (.error e) :=
  featurizer_two X (c₀ := medianComponent k.get col cap)
    (c₁ := ⟨statPolicy k.stat MedAnnot.stats, statsConfig col MedAnnot.isStats, cap, ⟨none, 0, k.stat.zero⟩⟩)
    _ batches hne hb maps hcol hcol _ _ ht (.error e) maps (fun h => by cases h)

/-- With a median it depends on the statistics. -/
theorem robust_with_median (hcap : 0 < cap) (hne : batches ≠ []) (hb : NoEmptyBatch batches) (hcol : col < maps.length)
    (hnone : getAnnotation MedAnnot.isMedian maps col "MedianEstimator" = .ok none)
    (hnone' : getAnnotation MedAnnot.isStats maps col "StatisticalMetricsEstimator" = .ok none) {m : T}
    (ht1 : trainEstimator (medianPolicy k.get MedAnnot.median) (medianConfig col MedAnnot.isMedian) cap ⟨[], []⟩ batches maps
      = addAnnotation (some (.median m)) col "MedianEstimator" maps) :
    ∃ maps₁ : AnnotationMaps (MedAnnot V S T), col < maps₁.length ∧
      getAnnotation MedAnnot.isStats maps₁ col "StatisticalMetricsEstimator" = .ok none ∧
      (∀ e, trainEstimator (statPolicy k.stat MedAnnot.stats) (statsConfig col MedAnnot.isStats) cap ⟨none, 0, k.stat.zero⟩ batches maps₁
          = (.error e, maps₁) →
        ∀ X, FeaturizerYields X (robustComponents k col cap) 2 (makeRobust k centering a b col) batches maps (.error e)) ∧
      (∀ st, trainEstimator (statPolicy k.stat MedAnnot.stats) (statsConfig col MedAnnot.isStats) cap ⟨none, 0, k.stat.zero⟩ batches maps₁
          = addAnnotation (some (.stats st)) col "StatisticalMetricsEstimator" maps₁ →
        ∀ X, FeaturizerYields X (robustComponents k col cap) 2 (makeRobust k centering a b col) batches maps
          (if isNaN a then .ok ⟨if centering then m else zero false, ofInt 1⟩
            else (k.width st.max st.min (rangeRatio a b)).map fun w => ⟨if centering then m else zero false, w⟩)) := by
  have ho := addAnnotation_ok maps (MedAnnot.median m : MedAnnot V S T) col "MedianEstimator" hcol
  rw [ho.1] at ht1
  obtain ⟨maps₁, hm⟩ : ∃ maps₁, maps₁ = (addAnnotation (some (MedAnnot.median m : MedAnnot V S T)) col "MedianEstimator" maps).2 := ⟨_, rfl⟩
  have hg1 : getAnnotation MedAnnot.isMedian maps₁ col "MedianEstimator" = .ok (some (.median m)) := by
    rw [hm]
    exact getAnnotation_add_self maps _ col _ _ rfl hnone
  rw [← hm] at ht1
  have ho1 := trainEstimator_other _ (medianConfig col MedAnnot.isMedian) cap hcap _ batches hb maps hcol hnone _ _ ht1
  have hcol1 : col < maps₁.length := by rw [ho1.1]; exact hcol
  have hn1 : getAnnotation MedAnnot.isStats maps₁ col "StatisticalMetricsEstimator" = .ok none := by
    rw [← hnone']
    exact ho1.2 _ _ (by simp [medianConfig])
  refine ⟨maps₁, hcol1, hn1, fun e ht2 X => ?_, fun st ht2 X => ?_⟩
  · exact featurizer_two X (c₀ := medianComponent k.get col cap)
      (c₁ := ⟨statPolicy k.stat MedAnnot.stats, statsConfig col MedAnnot.isStats, cap, ⟨none, 0, k.stat.zero⟩⟩)
      (makeRobust k centering a b col) batches hne hb maps hcol hcol _ _ ht1 _ _ (fun _ => ht2)
  · have ho2 := addAnnotation_ok maps₁ (MedAnnot.stats st : MedAnnot V S T) col "StatisticalMetricsEstimator" hcol1
    rw [ho2.1] at ht2
    obtain ⟨maps₂, hm2⟩ : ∃ maps₂, maps₂ = (addAnnotation (some (MedAnnot.stats st : MedAnnot V S T)) col "StatisticalMetricsEstimator" maps₁).2 := ⟨_, rfl⟩
    rw [← hm2] at ht2
    have hg2 : getAnnotation MedAnnot.isStats maps₂ col "StatisticalMetricsEstimator" = .ok (some (.stats st)) := by
      rw [hm2]
      exact getAnnotation_add_self maps₁ _ col _ _ rfl hn1
    have ho2' := trainEstimator_other _ (statsConfig col MedAnnot.isStats) cap hcap _ batches hb maps₁ hcol1 hn1 _ _ ht2
    have hgm : getAnnotation MedAnnot.isMedian maps₂ col "MedianEstimator" = .ok (some (.median m)) := by
      rw [← hg1]
      exact ho2'.2 _ _ (by simp [statsConfig])
    have hy := featurizer_two X (c₀ := medianComponent k.get col cap)
      (c₁ := ⟨statPolicy k.stat MedAnnot.stats, statsConfig col MedAnnot.isStats, cap, ⟨none, 0, k.stat.zero⟩⟩)
      (makeRobust k centering a b col) batches hne hb maps hcol hcol _ _ ht1 _ _ (fun _ => ht2)
    have hmk : makeRobust k centering a b col maps₂ = (if isNaN a then .ok ⟨if centering then m else zero false, ofInt 1⟩
            else (k.width st.max st.min (rangeRatio a b)).map fun w => ⟨if centering then m else zero false, w⟩) := by
      unfold makeRobust
      rw [makeMedian_of hgm, getAnnotationData_of hg2]
      cases centering <;> rfl
    simp only [Except.bind] at hy
    rw [hmk] at hy
    exact hy

end

/-! ### The arguments -/

theorem not_lt_of {x y : F32} (hx : isNaN x = false) (hy : isNaN y = false) : FloatArith.lt x y = true ↔ key x < key y := by
  unfold FloatArith.lt
  simp [hx, hy]

/-- **C76** (the arguments) The constructor accepts no range (two NaNs), or a range from 0 to 100; everything else is
`invalid_argument`. -/
theorem C76_arguments (a b : F32) :
    (checkRange a b = .ok () ∨ checkRange a b = .error .invalidArgument) ∧
    (checkRange a b = .ok () ↔ ∃ range, Quantiles a b range) := by
  constructor
  · unfold checkRange
    split_ifs <;> simp
  have hb100 := hundred
  have hk0 : key (zero false : F32) = 0 := key_zero false
  have hfin : ∀ x : F32, isNaN x = false → 0 ≤ key x → key x ≤ key (ofInt 100 : F32) → Finite x := by
    intro x _ h0 h1
    have := hb100.1
    rw [finite_key] at this ⊢
    omega
  have hv0 : ∀ x : F32, 0 ≤ value x ↔ 0 ≤ key x := by
    intro x
    have := fval_le (F := fmt F32) (a := 0) (b := key x)
    rw [fval_zero, ← value_key] at this
    exact this
  have hv1 : ∀ x : F32, value x ≤ 100 ↔ key x ≤ key (ofInt 100 : F32) := by
    intro x
    rw [← hb100.2, value_key, value_key (ofInt 100), fval_le]
  have hz : isNaN (zero false : F32) = false := by decide +kernel
  have h100 : isNaN (ofInt 100 : F32) = false := by decide +kernel
  have hq : ∀ r, Quantiles a b r ↔ (isNaN a = true ∧ isNaN b = true ∧ r = none) ∨
      (isNaN a = false ∧ isNaN b = false ∧ 0 ≤ key a ∧ key a ≤ key b ∧ key b ≤ key (ofInt 100 : F32) ∧ r = some (value a, value b)) := by
    intro r
    unfold Quantiles
    rw [← isNaN_iff, ← isNaN_iff, hv0, hv1, value_key, value_key b, fval_le]
    constructor
    · rintro (h | ⟨h1, h2, h3⟩)
      · exact .inl h
      · exact .inr ⟨Finite.not_nan h1, Finite.not_nan h2, h3⟩
    · rintro (h | ⟨h1, h2, h3, h4, h5, h6⟩)
      · exact .inl h
      · exact .inr ⟨hfin a h1 h3 (le_trans h4 h5), hfin b h2 (le_trans h3 h4) h5, h3, h4, h5, h6⟩
  have hex : (∃ r, Quantiles a b r) ↔ (isNaN a = true ∧ isNaN b = true) ∨
      (isNaN a = false ∧ isNaN b = false ∧ 0 ≤ key a ∧ key a ≤ key b ∧ key b ≤ key (ofInt 100 : F32)) := by
    constructor
    · rintro ⟨r, h⟩
      rcases (hq r).1 h with h | h
      · exact .inl ⟨h.1, h.2.1⟩
      · exact .inr ⟨h.1, h.2.1, h.2.2.1, h.2.2.2.1, h.2.2.2.2.1⟩
    · rintro (h | ⟨h1, h2, h3, h4, h5⟩)
      · exact ⟨none, (hq _).2 (.inl ⟨h.1, h.2, rfl⟩)⟩
      · exact ⟨_, (hq _).2 (.inr ⟨h1, h2, h3, h4, h5, rfl⟩)⟩
  rw [hex]
  unfold checkRange
  cases ha : isNaN a <;> cases hb : isNaN b
  · simp only [not_lt_of ha hz, not_lt_of h100 ha, not_lt_of hb hz, not_lt_of h100 hb, not_lt_of hb ha, hk0]
    simp only [true_and, Bool.false_eq_true, or_self, if_false, false_and, false_or, if_true]
    split_ifs with h1 h2 h3
    · simp only [false_iff]
      omega
    · simp only [false_iff]
      omega
    · simp only [false_iff]
      omega
    · simp only [true_iff]
      omega
  · simp
  · simp
  · simp

/-! ### Floating point columns -/

theorem column_cast {N : Nat} [FloType T] [Lawful T] (hT : Column T N) :
    ∀ x : T, Finite x → Finite (FloatArith.cast x : F64) ∧ value (FloatArith.cast x : F64) = value x := by
  cases hT with
  | float => exact fun _ h => cast_exact h
  | double => exact fun _ h => cast_self h

theorem column_ratio {N : Nat} [FloType T] [Lawful T] (hT : Column T N) :
    ∀ x : F32, Finite x → Finite (FloatArith.cast x : T) ∧ value (FloatArith.cast x : T) = value x := by
  cases hT with
  | float => exact fun _ h => cast_self h
  | double => exact fun _ h => cast_exact h

theorem column_large {N : Nat} [FloType T] [Lawful T] (hT : Column T N) : tooLarge T ≤ tooLarge F64 := by
  cases hT with
  | float => exact tooLarge_lt.le
  | double => exact le_rfl

theorem column_frac {N : Nat} [FloType T] [Lawful T] (hT : Column T N) : 23 ≤ Binary.frac T := by
  cases hT with
  | float => decide
  | double => decide

/-- What the training of a robust scaler with a floating point column gives. -/
theorem robust_float [FloType T] [Lawful T] [Wider T F80] {N : Nat} (hT : Column T N) (centering : Bool) (a b : F32)
    (col cap : Nat) (hcap : 0 < cap) (batches : List (List T)) (hne : batches ≠ []) (hb : NoEmptyBatch batches)
    (maps : AnnotationMaps (MedAnnot T F80 T)) (hcol : col < maps.length)
    (hnone : getAnnotation MedAnnot.isMedian maps col "MedianEstimator" = .ok none)
    (hnone' : getAnnotation MedAnnot.isStats maps col "StatisticalMetricsEstimator" = .ok none)
    (hx : ∀ x ∈ batches.flatten.take cap, ¬ IsInf x)
    (l : List ℚ) (hl : l = numbers floNumber (batches.flatten.take cap)) (hlen : l.length ≤ 2 ^ 60) :
    ∃ r : Except Err (FloRobust T),
      (∀ X : Xf (FloRobust T) T T,
        FeaturizerYields X (robustComponents (floRobust T) col cap) 2 (makeRobust (floRobust T) centering a b col) batches maps r) ∧
      (r = .error .runtimeError ∨ r = .error .invalidArgument ∨ ∃ t, r = .ok t) ∧
      (l = [] → r = .error .runtimeError) ∧
      (l ≠ [] → l.length ≤ N → NoneNegligible (l.map fun q => |q|) → ∃ t, r = .ok t) ∧
      (l.length ≤ N → r ≠ .error .invalidArgument) ∧
      (∀ t, r = .ok t → ∃ m lo hi : T, Finite lo ∧ value lo ∈ l ∧ Finite hi ∧ value hi ∈ l ∧ (∀ q ∈ l, value lo ≤ q ∧ q ≤ value hi) ∧
        ((∀ q ∈ l, 2 * |q| < tooLarge F64) → IsMedian l m) ∧
        t = ⟨if centering then m else zero false, if isNaN a then ofInt 1
          else FloatArith.cast (mul (sub hi lo) (FloatArith.cast (rangeRatio a b)))⟩) := by
  have hD := column_cast hT
  have hN : N * (2 * 2 ^ (fmt T).frac) ≤ 2 * 2 ^ (fmt F80).frac := by
    cases hT with
    | float => decide +kernel
    | double => decide +kernel
  obtain ⟨hfin, hval⟩ := floGet_values (T := T) (U := T) (fun _ h => cast_self h) _ hx
  obtain ⟨vs, hvs⟩ : ∃ vs, vs = (batches.flatten.take cap).filterMap (floGet : T → Option T) := ⟨_, rfl⟩
  rw [← hvs] at hfin hval
  rw [← hl] at hval
  have hlv : l.length = vs.length := by rw [← hval, List.length_map]
  obtain ⟨t1, t2⟩ := median_trained (T := T) (floRobust T).get MedAnnot.median MedAnnot.isMedian col cap hcap batches hb maps hcol hnone vs hvs
    (fun v hv => Finite.not_nan (hfin v hv))
  by_cases hlne : l = []
  · have hvne : vs = [] := by
      rw [← hval] at hlne
      simpa using hlne
    exact ⟨.error .runtimeError, robust_no_median hne hb hcol (t1 hvne), .inl rfl, fun _ => rfl, fun h => absurd hlne h,
      fun _ h => by simp at h, fun t h => by simp at h⟩
  have hvne : vs ≠ [] := by rintro rfl; exact hlne hval.symm
  obtain ⟨p, q, m, ht1, hmid, hp, hq, hodd, heven⟩ := t2 hvne
  rw [hval] at hmid
  obtain ⟨maps₁, hcol1, hn1, y1, y2⟩ := robust_with_median (centering := centering) (a := a) (b := b) hcap hne hb hcol hnone hnone' ht1
  rcases float_trained_of MedAnnot.stats MedAnnot.isStats hD N hN col cap hcap batches hb maps₁ hcol1 hn1 hx l hl hlen with
    ⟨e, ht, he, h0, h1, h2⟩ | ⟨st, ht, _, _, f1, m1, m2, f2, m3, m4, _, _⟩
  · refine ⟨.error e, y1 e ht, ?_, fun h => absurd h hlne,
      fun h hle hnn => absurd hnn (h2 h hle), fun hle h => h1 hle (by simpa using h), fun t h => by simp at h⟩
    rcases he with rfl | rfl <;> simp
  · refine ⟨_, y2 st ht, ?_, fun h => absurd h hlne, fun _ _ _ => ?_, fun _ h => ?_, fun t h => ?_⟩
    · right; right
      split
      · exact ⟨_, rfl⟩
      · exact ⟨_, rfl⟩
    · split
      · exact ⟨_, rfl⟩
      · exact ⟨_, rfl⟩
    · split at h
      · cases h
      · cases h
    · refine ⟨m, st.min, st.max, f1, m1, f2, m3, fun q hq => ⟨m2 q hq, m4 q hq⟩, fun hB => ?_, ?_⟩
      · have := isMedian_of hD hfin (by rw [hval]; exact hmid) hodd heven (.inr (by
          obtain ⟨s, hp, _, h1, h2⟩ := hmid
          have b1 := hB _ (hp.mem_iff.1 (List.mem_of_getElem? h1))
          have b2 := hB _ (hp.mem_iff.1 (List.mem_of_getElem? h2))
          have := abs_add_le (value p) (value q)
          linarith))
        rwa [hval] at this
      · split at h
        · rename_i hn
          rw [if_pos hn]
          exact (Except.ok.inj h).symm
        · rename_i hn
          rw [if_neg hn]
          exact (Except.ok.inj h).symm

/-- **C76** (`float` and `double` columns without infinities, values up to half of the largest number) A robust scaler that was trained
through its public calls is refused, or it subtracts the median (or 0) and divides by the given part of the range of the values (or by
1), up to the rounding of these operations.  It is not refused if no value is negligible beside the others. -/
theorem C76_float_partial [FloType T] [Lawful T] [Wider T F80] {N : Nat} (hT : Column T N) (centering : Bool) (a b : F32)
    (range : Option (ℚ × ℚ)) (hab : Quantiles a b range)
    (col cap : Nat) (hcap : 0 < cap) (batches : List (List T)) (hne : batches ≠ []) (hb : NoEmptyBatch batches)
    (maps : AnnotationMaps (MedAnnot T F80 T)) (hcol : col < maps.length)
    (hnone : getAnnotation MedAnnot.isMedian maps col "MedianEstimator" = .ok none)
    (hnone' : getAnnotation MedAnnot.isStats maps col "StatisticalMetricsEstimator" = .ok none)
    (hx : ∀ x ∈ batches.flatten.take cap, ¬ IsInf x)
    (l : List ℚ) (hl : l = numbers floNumber (batches.flatten.take cap)) (hlen : l.length ≤ 2 ^ 60)
    (hmod : ∀ q ∈ l, 2 * |q| < tooLarge T) :
    ∃ r : Except Err (FloRobust T),
      (∀ X : Xf (FloRobust T) T T,
        FeaturizerYields X (robustComponents (floRobust T) col cap) 2 (makeRobust (floRobust T) centering a b col) batches maps r) ∧
      (r = .error .runtimeError ∨ r = .error .invalidArgument ∨ ∃ t, r = .ok t) ∧
      (l = [] → r = .error .runtimeError) ∧
      (∀ t, r = .ok t → ∃ m s, CentreAndSpread T (smallest T) centering range l m s ∧
        Centred m s (fun x : T => ¬ IsInf x) floNumber (execRobust (floRobust T) t)) ∧
      (l ≠ [] → l.length ≤ N → NoneNegligible (l.map fun q => |q|) → ∃ t, r = .ok t) ∧
      (l.length ≤ N → r ≠ .error .invalidArgument) := by
  obtain ⟨r, r1, r2, r3, r4, r5, r6⟩ := robust_float hT centering a b col cap hcap batches hne hb maps hcol hnone hnone' hx l hl hlen
  refine ⟨r, r1, r2, r3, fun t ht => ?_, r4, r5⟩
  obtain ⟨m, lo, hi, flo, mlo, fhi, mhi, hmm, hmed, rfl⟩ := r6 t ht
  have hmed := hmed fun q hq => lt_of_lt_of_le (hmod q hq) (column_large hT)
  have hmf : Finite m := by
    obtain ⟨_, _, _, h, _⟩ := hmed
    exact h
  have hcf : Finite (if centering then m else zero false : T) := by
    cases centering
    · exact finite_zero _
    · exact hmf
  have hval : ∀ x, floNumber x = none → isNaN ((floRobust T).toT x) = true := by
    intro x h
    have := floNumber_none.1 h
    show isNaN (FloatArith.cast x : T) = true
    rw [cast_nan x this]
    exact isNaN_nan
  have hval' : ∀ (x : T) (q : ℚ), ¬ IsInf x → floNumber x = some q → Finite ((floRobust T).toT x) ∧ value ((floRobust T).toT x) = q := by
    intro x q hn h
    obtain ⟨hf, hq⟩ := floNumber_some h hn
    obtain ⟨h1, h2⟩ := cast_self hf
    exact ⟨h1, h2.trans hq⟩
  rcases hab with ⟨ha, _, rfl⟩ | ⟨ha, hb', h0, hle, h100, rfl⟩
  · rw [← isNaN_iff] at ha
    rw [if_pos ha]
    have hC := centred (k := floRobust T) (number := fun x : T => ¬ IsInf x) (val := floNumber)
      (t := ⟨if centering then m else zero false, ofInt 1⟩) hval hval' hcf ofInt_one.1 (by rw [ofInt_one.2]; norm_num)
    refine ⟨_, _, ⟨?_, fun h => ?_, fun h => ?_, fun _ => ?_, fun _ _ h => (by cases h)⟩, hC⟩
    · simp only [ofInt_one.2]; norm_num
    · exact ⟨m, hmed, by simp only [h, if_true]⟩
    · simp only [h, Bool.false_eq_true, if_false, value_zero]
    · simp only [ofInt_one.2]; norm_num
  · have han : isNaN a = false := Finite.not_nan ha
    rw [if_neg (show ¬ isNaN a = true by rw [han]; simp)]
    obtain ⟨q1, q2, q3, q4, q5⟩ := ratio_spec ha hb' h0 hle h100
    obtain ⟨c1, c2⟩ := column_ratio hT _ q1
    have hlh : value lo ≤ value hi := (hmm _ mlo).2
    have hd0 : 0 ≤ value hi - value lo := by linarith
    have hd : |value hi - value lo| < tooLarge T := by
      have b1 := hmod _ mlo
      have b2 := hmod _ mhi
      have := abs_sub (value hi) (value lo)
      linarith
    have hsf := sub_finite fhi flo hd
    have hse := sub_error fhi flo hd
    rw [abs_of_nonneg hd0] at hse
    have hs0 : 0 ≤ value (sub hi lo) := by
      rw [value_key, key_sub fhi flo]
      exact fval_nonneg (rnd_nonneg hd0)
    obtain ⟨p1, p2, p3⟩ := spread_product (D := value hi - value lo) (R := (value b - value a) / 100) (u := smallest T)
      hsf c1 rfl hd0 (le_trans hse (div_le_div_of_nonneg_left hd0 (by norm_num)
        (pow_le_pow_right₀ (by norm_num) (by have := column_frac hT; omega)))) hs0 le_rfl
      (div_nonneg (by linarith) (by norm_num)) (by rw [c2]; exact q2) (by rw [c2]; exact q3) (by rw [c2]; exact q4) (column_frac hT)
    obtain ⟨w1, w2⟩ := cast_self p1
    obtain ⟨w, hw⟩ : ∃ w : T, w = FloatArith.cast (mul (sub hi lo) (FloatArith.cast (rangeRatio a b))) := ⟨_, rfl⟩
    rw [← hw] at w1 w2 ⊢
    have hC := centred (k := floRobust T) (number := fun x : T => ¬ IsInf x) (val := floNumber)
      (t := ⟨if centering then m else zero false, w⟩) hval hval' hcf w1 (by rw [w2]; exact p2)
    refine ⟨_, _, ⟨?_, fun h => ?_, fun h => ?_, fun h => (by cases h), fun a' b'' h => ?_⟩, hC⟩
    · simp only
      split_ifs with h
      · norm_num
      · exact lt_of_le_of_ne (by rw [w2]; exact p2) (Ne.symm h)
    · exact ⟨m, hmed, by simp only [h, if_true]⟩
    · simp only [h, Bool.false_eq_true, if_false, value_zero]
    · simp only [Option.some.injEq, Prod.mk.injEq] at h
      obtain ⟨rfl, rfl⟩ := h
      refine ⟨value w, ⟨value lo, mlo, value hi, mhi, hmm, by rw [w2]; exact p2, by rw [w2]; exact p3, fun h => ?_⟩, rfl⟩
      rw [w2, value_key, key_mul hsf c1, c2]
      rcases h with h | h
      · rw [FloatScalers.sub_zero fhi flo h.symm, zero_mul, rnd_zero, fval_zero]
      · rw [q5 h, mul_zero, rnd_zero, fval_zero]

/-- An infinity in the column: the training throws. -/
theorem C76_infinite [FloType T] [Lawful T] [Wider T F80] (centering : Bool) (a b : F32)
    (col cap : Nat) (hcap : 0 < cap) (hcap64 : cap < 2 ^ 64) (batches : List (List T)) (hne : batches ≠ []) (hb : NoEmptyBatch batches)
    (maps : AnnotationMaps (MedAnnot T F80 T)) (hcol : col < maps.length)
    (hnone : getAnnotation MedAnnot.isMedian maps col "MedianEstimator" = .ok none)
    (hnone' : getAnnotation MedAnnot.isStats maps col "StatisticalMetricsEstimator" = .ok none)
    (hinf : ∃ x ∈ batches.flatten.take cap, IsInf x) (X : Xf (FloRobust T) T T) :
    FeaturizerYields X (robustComponents (floRobust T) col cap) 2 (makeRobust (floRobust T) centering a b col) batches maps
      (.error .runtimeError) := by
  have hn : ∀ v ∈ (batches.flatten.take cap).filterMap (floRobust T).get, isNaN v = false := by
    intro v hv
    obtain ⟨x, _, hx⟩ := List.mem_filterMap.1 hv
    simp only [floRobust, floGet] at hx
    split_ifs at hx with h
    obtain rfl := Option.some.inj hx
    cases hi : isInf x
    · exact Finite.not_nan (cast_self (finite_or (by simpa using h) hi)).1
    · exact isNaN_of_inf (cast_inf hi)
  obtain ⟨t1, t2⟩ := median_trained (T := T) (floRobust T).get MedAnnot.median MedAnnot.isMedian col cap hcap batches hb maps hcol hnone
    _ rfl hn
  by_cases hv : (batches.flatten.take cap).filterMap (floRobust T).get = []
  · exact robust_no_median hne hb hcol (t1 hv) X
  · obtain ⟨_, _, m, ht1, _⟩ := t2 hv
    obtain ⟨maps₁, hcol1, hn1, y1, _⟩ := robust_with_median (centering := centering) (a := a) (b := b) hcap hne hb hcol hnone hnone' ht1
    exact y1 _ (infinite_trained_of MedAnnot.stats MedAnnot.isStats col cap hcap hcap64 batches hb maps₁ hcol1 hn1 hinf) X

/-! ### The default range -/

theorem float_int {z : Int} (h : z.natAbs ≤ 2 ^ 24) : Finite (ofInt z : F32) ∧ value (ofInt z : F32) = z :=
  ofInt_exact (T := F32) h

/-- From 25 to 75 is one half. -/
theorem ratio_half : Finite (rangeRatio (ofInt 25) (ofInt 75)) ∧ value (rangeRatio (ofInt 25) (ofInt 75)) = 1 / 2 := by
  obtain ⟨a1, a2⟩ := float_int (z := 25) (by norm_num)
  obtain ⟨b1, b2⟩ := float_int (z := 75) (by norm_num)
  obtain ⟨d1, d2⟩ := float_int (z := 50) (by norm_num)
  have hs : key (sub (ofInt 75) (ofInt 25) : F32) = key (ofInt 50 : F32) := by
    rw [key_sub b1 a1, a2, b2, ← rnd_value d1, d2]
    norm_num
  have hsf : Finite (sub (ofInt 75) (ofInt 25) : F32) := by rw [finite_key, hs, ← finite_key]; exact d1
  refine of_exists (x := rangeRatio (ofInt 25) (ofInt 75)) (q := 1 / 2) (m := 126 * 2 ^ 23) ?_ (by decide +kernel) ?_
  · unfold rangeRatio
    rw [key_div hsf hundred.1 (by rw [hundred.2]; norm_num), hundred.2, value_key, hs, ← value_key, d2]
    norm_num
  · rw [show (fmt F32).mag (126 * 2 ^ 23) = 2 ^ 148 by decide +kernel, show (fmt F32).scale = 149 by decide +kernel,
      abs_of_pos (by norm_num)]
    norm_num

/-- With the default range, from 25 to 75, the scale is the nearest number to half of the range of the values (zero means that nothing
is divided). -/
theorem C76_default [FloType T] [Lawful T] [Wider T F80] {N : Nat} (hT : Column T N) (centering : Bool)
    (col cap : Nat) (hcap : 0 < cap) (batches : List (List T)) (hne : batches ≠ []) (hb : NoEmptyBatch batches)
    (maps : AnnotationMaps (MedAnnot T F80 T)) (hcol : col < maps.length)
    (hnone : getAnnotation MedAnnot.isMedian maps col "MedianEstimator" = .ok none)
    (hnone' : getAnnotation MedAnnot.isStats maps col "StatisticalMetricsEstimator" = .ok none)
    (hx : ∀ x ∈ batches.flatten.take cap, ¬ IsInf x)
    (l : List ℚ) (hl : l = numbers floNumber (batches.flatten.take cap)) (hlen : l.length ≤ 2 ^ 60)
    (hmod : ∀ q ∈ l, 2 * |q| < tooLarge T) :
    ∃ r : Except Err (FloRobust T),
      (∀ X : Xf (FloRobust T) T T,
        FeaturizerYields X (robustComponents (floRobust T) col cap) 2
          (makeRobust (floRobust T) centering (ofInt 25) (ofInt 75) col) batches maps r) ∧
      ∀ t, r = .ok t → ∃ lo ∈ l, ∃ hi ∈ l, (∀ q ∈ l, lo ≤ q ∧ q ≤ hi) ∧ IsNearest ((hi - lo) / 2) t.scale ∧
        ∀ x, execRobust (floRobust T) t x = if value t.scale = 0 then sub (FloatArith.cast x) t.median
          else div (sub (FloatArith.cast x) t.median) t.scale := by
  obtain ⟨r, r1, _, _, _, _, r6⟩ := robust_float hT centering (ofInt 25) (ofInt 75) col cap hcap batches hne hb maps hcol hnone hnone' hx l hl hlen
  refine ⟨r, r1, fun t ht => ?_⟩
  obtain ⟨m, lo, hi, flo, mlo, fhi, mhi, hmm, -, rfl⟩ := r6 t ht
  have hlh : value lo ≤ value hi := (hmm _ mlo).2
  have hd0 : 0 ≤ value hi - value lo := by linarith
  have hd : |value hi - value lo| < tooLarge T := by
    have b1 := hmod _ mlo
    have b2 := hmod _ mhi
    have := abs_sub (value hi) (value lo)
    linarith
  have hsf := sub_finite fhi flo hd
  obtain ⟨c1, c2⟩ := column_ratio hT _ ratio_half.1
  rw [if_neg (show ¬ isNaN (ofInt 25 : F32) = true by decide +kernel)]
  obtain ⟨p, hp⟩ : ∃ p, p = mul (sub hi lo) (FloatArith.cast (rangeRatio (ofInt 25) (ofInt 75)) : T) := ⟨_, rfl⟩
  have hk : key p = rnd (fmt T) ((value hi - value lo) / 2) := by
    rw [hp, key_mul hsf c1, c2, ratio_half.2, value_key, key_sub fhi flo]
    obtain ⟨z, hz⟩ := sum_units hi (negate lo)
    rw [value_negate, ← sub_eq_add_neg] at hz
    have hlt := rnd_finite hd
    rw [hz] at hlt ⊢
    rw [mul_one_div]
    exact rnd_half Lawful.good hlt
  have hpf : Finite p := by
    rw [finite_key, hk]
    refine rnd_finite (lt_of_le_of_lt ?_ hd)
    rw [abs_of_nonneg hd0, abs_of_nonneg (by linarith)]
    linarith
  obtain ⟨w1, w2⟩ := cast_self hpf
  rw [← hp]
  refine ⟨value lo, mlo, value hi, mhi, hmm, ?_, fun x => ?_⟩
  · exact nearest_of_key (x := (FloatArith.cast p : T)) (by rw [(key_cast_self p (Finite.not_nan hpf)).1]; exact hk) w1
  · unfold execRobust
    have := eq_zero_iff w1
    by_cases h : value (FloatArith.cast p : T) = 0
    · rw [if_pos (this.2 h), if_pos h]; rfl
    · rw [if_neg (fun h' => h (this.1 h')), if_neg h]; rfl

/-! ### Too large -/

/-- A product of an infinity. -/
theorem inf_mul [FloType T] [Lawful T] {x y : T} (hx : isInf x = true) (hy : Finite y) (h0 : value y ≠ 0) : isInf (mul x y) = true := by
  have hu : units y ≠ 0 := by
    intro h
    rw [units_eq_zero] at h
    rw [value_key, h, fval_zero] at h0
    exact h0 rfl
  unfold mul
  rw [if_neg (by simp [isNaN_of_inf hx, Finite.not_nan hy]), if_pos hx, if_neg hu]
  exact isInf_make _

/-- A quotient by an infinity. -/
theorem div_inf [FloType T] [Lawful T] {x y : T} (hx : Finite x) (hy : isInf y = true) : Finite (div x y) ∧ value (div x y) = 0 := by
  have e : div x y = zero (neg? x != neg? y) := by
    unfold div
    rw [if_neg (by simp [isNaN_of_inf hy, Finite.not_nan hx]), if_neg (by simp [Finite.not_inf hx]), if_pos hy]
  rw [e]
  exact ⟨finite_zero _, value_zero _⟩

/-- The claim is false for columns whose range is too large: then the scale is infinite, and everything becomes zero. -/
theorem C76_overflow_refuted [FloType T] [Lawful T] [Wider T F80] {N : Nat} (hT : Column T N) (centering : Bool) (a b : F32)
    (hab : Quantiles a b (some (value a, value b))) (hr : value (rangeRatio a b) ≠ 0)
    (col cap : Nat) (hcap : 0 < cap) (batches : List (List T)) (hne : batches ≠ []) (hb : NoEmptyBatch batches)
    (maps : AnnotationMaps (MedAnnot T F80 T)) (hcol : col < maps.length)
    (hnone : getAnnotation MedAnnot.isMedian maps col "MedianEstimator" = .ok none)
    (hnone' : getAnnotation MedAnnot.isStats maps col "StatisticalMetricsEstimator" = .ok none)
    (hx : ∀ x ∈ batches.flatten.take cap, ¬ IsInf x)
    (l : List ℚ) (hl : l = numbers floNumber (batches.flatten.take cap)) (hlen : l.length ≤ N)
    (hnn : NoneNegligible (l.map fun q => |q|)) {p q : ℚ} (hp : p ∈ l) (hq : q ∈ l) (hpq : tooLarge T ≤ q - p) :
    ∃ t : FloRobust T,
      (∀ X : Xf (FloRobust T) T T,
        FeaturizerYields X (robustComponents (floRobust T) col cap) 2 (makeRobust (floRobust T) centering a b col) batches maps (.ok t)) ∧
      IsInf t.scale ∧ ∀ x : T, Finite (sub (FloatArith.cast x) t.median) →
        Finite (execRobust (floRobust T) t x) ∧ value (execRobust (floRobust T) t x) = 0 := by
  have hlen60 : l.length ≤ 2 ^ 60 := by simpa using hnn.1
  obtain ⟨r, r1, _, _, r4, _, r6⟩ := robust_float hT centering a b col cap hcap batches hne hb maps hcol hnone hnone' hx l hl hlen60
  obtain ⟨t, rfl⟩ := r4 (List.ne_nil_of_mem hp) hlen hnn
  refine ⟨t, r1, ?_⟩
  obtain ⟨m, lo, hi, flo, mlo, fhi, mhi, hmm, -, rfl⟩ := r6 t rfl
  rcases hab with ⟨_, _, h⟩ | ⟨ha, hb', h0, hle, h100, _⟩
  · cases h
  obtain ⟨q1, _⟩ := ratio_spec ha hb' h0 hle h100
  obtain ⟨c1, c2⟩ := column_ratio hT _ q1
  have hsi : isInf (sub hi lo) = true := by
    have hk := key_sub fhi flo
    have hge : ¬ (key (sub hi lo)).natAbs < (fmt T).inf := by
      rw [hk, rnd_finite_iff, not_lt, abs_of_nonneg (by linarith [(hmm _ mlo).2])]
      linarith [(hmm _ hp).1, (hmm _ hq).2]
    have hle : (key (sub hi lo)).natAbs ≤ (fmt T).inf := by rw [hk]; exact rnd_bound _
    unfold isInf
    rw [decide_eq_true_iff, ← key_natAbs]
    omega
  rw [if_neg (show ¬ isNaN a = true by rw [Finite.not_nan ha]; simp)]
  have hw : isInf (FloatArith.cast (mul (sub hi lo) (FloatArith.cast (rangeRatio a b) : T)) : T) = true :=
    cast_inf (inf_mul hsi c1 (by rw [c2]; exact hr))
  refine ⟨(isInf_iff _).1 hw, fun x hs => ?_⟩
  unfold execRobust
  rw [if_neg]
  · exact div_inf hs hw
  · intro h
    unfold FloatArith.eq at h
    simp only [Bool.and_eq_true, decide_eq_true_eq] at h
    rw [key_zero] at h
    unfold isInf at hw
    rw [decide_eq_true_iff, ← key_natAbs, h.2] at hw
    have := inf_pos T
    simp at hw
    omega

/-! ### Integer columns -/

/-- What the training of a robust scaler with an integer column gives. -/
theorem robust_int [CInt V] [FloType T] [Lawful T] {N : Nat} (hT : Column T N) (promotes centering : Bool) (a b : F32)
    (col cap : Nat) (hcap : 0 < cap) (batches : List (List V)) (hne : batches ≠ []) (hb : NoEmptyBatch batches)
    (maps : AnnotationMaps (MedAnnot V Int T)) (hcol : col < maps.length)
    (hnone : getAnnotation MedAnnot.isMedian maps col "MedianEstimator" = .ok none)
    (hnone' : getAnnotation MedAnnot.isStats maps col "StatisticalMetricsEstimator" = .ok none)
    (zs : List Int) (hzs : zs = (batches.flatten.take cap).map CInt.toInt) (hlen : zs.length ≤ 2 ^ 60)
    (hv : ∀ z ∈ zs, -2 ^ 63 ≤ z ∧ z < 2 ^ 63) (hvT : ∀ z ∈ zs, z.natAbs ≤ 2 * 2 ^ (fmt T).frac) :
    ((zs = [] ∨ ¬ ∀ p, p <+: zs → -2 ^ 63 ≤ p.sum ∧ p.sum < 2 ^ 63) → ∀ X : Xf (FloRobust T) V V,
      FeaturizerYields X (robustComponents (intRobust V promotes T) col cap) 2 (makeRobust (intRobust V promotes T) centering a b col)
        batches maps (.error .runtimeError)) ∧
    ((zs ≠ [] ∧ ∀ p, p <+: zs → -2 ^ 63 ≤ p.sum ∧ p.sum < 2 ^ 63) → ∃ (m : T) (lo hi : V),
      CInt.toInt lo ∈ zs ∧ CInt.toInt hi ∈ zs ∧ (∀ z ∈ zs, CInt.toInt lo ≤ z ∧ z ≤ CInt.toInt hi) ∧
      IsMedian (zs.map fun z : Int => (z : ℚ)) m ∧ ∀ X : Xf (FloRobust T) V V,
      FeaturizerYields X (robustComponents (intRobust V promotes T) col cap) 2 (makeRobust (intRobust V promotes T) centering a b col)
        batches maps (if isNaN a then .ok ⟨if centering then m else zero false, ofInt 1⟩
            else ((intRobust V promotes T).width hi lo (rangeRatio a b)).map fun w => ⟨if centering then m else zero false, w⟩)) := by
  obtain ⟨vs, hvs⟩ : ∃ vs, vs = batches.flatten.take cap := ⟨_, rfl⟩
  have hvs' : vs = (batches.flatten.take cap).filterMap (intStat V some).get := by
    rw [hvs]
    exact (List.filterMap_some).symm
  have hzs' : zs = vs.map CInt.toInt := by rw [hzs, hvs]
  clear hzs
  subst hzs'
  rw [List.length_map] at hlen
  have hfit : ∀ v ∈ vs, FloatStats.Fits (CInt.toInt v) := fun v hm => hv _ (List.mem_map.2 ⟨v, hm, rfl⟩)
  have hex : ∀ v ∈ vs, Finite (ofInt (CInt.toInt v) : T) ∧ value (ofInt (CInt.toInt v) : T) = CInt.toInt v := fun v hm =>
    ofInt_exact (hvT _ (List.mem_map.2 ⟨v, hm, rfl⟩))
  have hws : (batches.flatten.take cap).filterMap (intRobust V promotes T).get = vs.map fun v => (ofInt (CInt.toInt v) : T) := by
    rw [← hvs]
    exact congrFun (List.filterMap_eq_map (f := fun v : V => (ofInt (CInt.toInt v) : T))) vs
  have hfin : ∀ w ∈ vs.map fun v => (ofInt (CInt.toInt v) : T), Finite w := by
    intro w hw
    obtain ⟨v, hm, rfl⟩ := List.mem_map.1 hw
    exact (hex v hm).1
  have hvalw : (vs.map fun v => (ofInt (CInt.toInt v) : T)).map value = (vs.map CInt.toInt).map fun z : Int => (z : ℚ) := by
    rw [List.map_map, List.map_map]
    exact List.map_congr_left fun v hm => (hex v hm).2
  obtain ⟨m1, m2⟩ := median_trained (T := T) (intRobust V promotes T).get MedAnnot.median MedAnnot.isMedian col cap hcap batches hb maps
    hcol hnone _ hws.symm (fun v hv => Finite.not_nan (hfin v hv))
  have L : StatLawful (intStat V some) (fun _ => True) (fun x => (CInt.toInt x : ℚ)) := by
    refine ⟨fun x y _ _ => ?_⟩
    simp only [intStat]
    rw [decide_eq_true_iff, Int.cast_lt]
  obtain ⟨r1, r2⟩ := total_int some vs 0 (by unfold FloatStats.Fits; decide) hfit
  have hpre : (∀ p, p <+: vs → FloatStats.Fits (0 + (p.map CInt.toInt).sum)) ↔
      ∀ p, p <+: vs.map CInt.toInt → -2 ^ 63 ≤ p.sum ∧ p.sum < 2 ^ 63 := by
    constructor
    · intro h p hp
      rw [List.prefix_iff_eq_take.1 hp, ← List.map_take]
      have := h (vs.take p.length) (List.take_prefix _ _)
      rwa [zero_add] at this
    · intro h p hp
      rw [zero_add]
      exact h _ (hp.map _)
  rw [hpre] at r1 r2
  by_cases hvne : vs = []
  · refine ⟨fun _ => robust_no_median hne hb hcol (m1 (by rw [hvne]; rfl)), fun h => absurd (by rw [hvne]; rfl) h.1⟩
  obtain ⟨p, q, m, ht1, hmid, _, _, hodd, heven⟩ := m2 (by simpa using hvne)
  obtain ⟨maps₁, hcol1, hn1, y1, y2⟩ := robust_with_median (centering := centering) (a := a) (b := b) hcap hne hb hcol hnone hnone' ht1
  obtain ⟨t1, t2, t3⟩ := stat_trained_of MedAnnot.stats MedAnnot.isStats L col cap hcap batches hb maps₁ hcol1 hn1 vs hvs' (by omega)
    (fun _ _ => trivial)
  constructor
  · intro h
    by_cases hall : ∀ p, p <+: vs.map CInt.toInt → -2 ^ 63 ≤ p.sum ∧ p.sum < 2 ^ 63
    · have he : vs = [] := by
        rcases h with h | h
        · simpa using h
        · exact absurd hall h
      exact absurd he hvne
    · obtain ⟨t, ht⟩ := r2 hall
      exact y1 _ (t1 _ _ ht)
  · rintro ⟨-, hall⟩
    obtain ⟨lo, hi, hlo, hhi, ht⟩ := t3 _ (r1 hall) hvne
    rw [zero_add] at ht
    obtain ⟨av, hc, -⟩ := commit_int some hvne hlen hlo hhi hfit rfl (by
      have := hpre.2 hall vs (List.prefix_refl _)
      rwa [zero_add] at this)
    rw [hc] at ht
    refine ⟨m, lo, hi, List.mem_map.2 ⟨lo, hlo.1, rfl⟩, List.mem_map.2 ⟨hi, hhi.1, rfl⟩, ?_, ?_, y2 _ ht⟩
    · intro z hz
      obtain ⟨v, hm, rfl⟩ := List.mem_map.1 hz
      exact ⟨Int.cast_le.1 (hlo.2 v hm), Int.cast_le.1 (hhi.2 v hm)⟩
    · have := isMedian_of (column_cast hT) hfin hmid hodd heven (.inr (by
        rw [hvalw] at hmid
        refine lt_of_le_of_lt (middles_bound hmid (B := 2 ^ 63) ?_) (lt_of_le_of_lt (by norm_num) large_66)
        intro q hq
        obtain ⟨z, hz, rfl⟩ := List.mem_map.1 hq
        have h1 := hv z hz
        rw [abs_le]
        constructor
        · have : ((-2 ^ 63 : Int) : ℚ) ≤ z := by exact_mod_cast h1.1
          push_cast at this
          linarith
        · have : (z : ℚ) ≤ ((2 ^ 63 : Int) : ℚ) := by exact_mod_cast h1.2.le
          push_cast at this
          linarith))
      rwa [hvalw] at this

/-- Integer columns whose values are numbers of the result type (all of them except `int64_t` and `uint64_t` beyond `2^53`): refused
exactly if there is no value or a running sum of the values leaves `int64_t`; otherwise as above, if the width of the range can be
computed. -/
theorem C76_integers_partial [CInt V] [FloType T] [Lawful T] {N : Nat} (hT : Column T N) (promotes centering : Bool) (a b : F32)
    (range : Option (ℚ × ℚ)) (hab : Quantiles a b range)
    (col cap : Nat) (hcap : 0 < cap) (batches : List (List V)) (hne : batches ≠ []) (hb : NoEmptyBatch batches)
    (maps : AnnotationMaps (MedAnnot V Int T)) (hcol : col < maps.length)
    (hnone : getAnnotation MedAnnot.isMedian maps col "MedianEstimator" = .ok none)
    (hnone' : getAnnotation MedAnnot.isStats maps col "StatisticalMetricsEstimator" = .ok none)
    (zs : List Int) (hzs : zs = (batches.flatten.take cap).map CInt.toInt) (hlen : zs.length ≤ 2 ^ 60)
    (hv : ∀ z ∈ zs, -2 ^ 63 ≤ z ∧ z < 2 ^ 63) (hvT : ∀ z ∈ zs, z.natAbs ≤ 2 * 2 ^ (fmt T).frac)
    (hwidth : range = none ∨ promotes = true ∨ ∀ y ∈ zs, ∀ z ∈ zs, y ≤ z → CInt.lo V ≤ z - y ∧ z - y ≤ CInt.hi V) :
    ((zs = [] ∨ ¬ ∀ p, p <+: zs → -2 ^ 63 ≤ p.sum ∧ p.sum < 2 ^ 63) → ∀ X : Xf (FloRobust T) V V,
      FeaturizerYields X (robustComponents (intRobust V promotes T) col cap) 2 (makeRobust (intRobust V promotes T) centering a b col)
        batches maps (.error .runtimeError)) ∧
    ((zs ≠ [] ∧ ∀ p, p <+: zs → -2 ^ 63 ≤ p.sum ∧ p.sum < 2 ^ 63) → ∃ t : FloRobust T, (∀ X : Xf (FloRobust T) V V,
      FeaturizerYields X (robustComponents (intRobust V promotes T) col cap) 2 (makeRobust (intRobust V promotes T) centering a b col)
        batches maps (.ok t)) ∧
      ∃ m s, CentreAndSpread T (1 / 2 ^ 149) centering range (zs.map fun z : Int => (z : ℚ)) m s ∧
        Centred m s (fun x : V => (CInt.toInt x).natAbs ≤ 2 * 2 ^ (fmt T).frac) (fun x => some (CInt.toInt x : ℚ))
          (execRobust (intRobust V promotes T) t)) := by
  obtain ⟨h1, h2⟩ := robust_int hT promotes centering a b col cap hcap batches hne hb maps hcol hnone hnone' zs hzs hlen hv hvT
  refine ⟨h1, fun hz => ?_⟩
  obtain ⟨m, lo, hi, mlo, mhi, hmm, hmed, hy⟩ := h2 hz
  have hmf : Finite m := by
    obtain ⟨_, _, _, h, _⟩ := hmed
    exact h
  have hcf : Finite (if centering then m else zero false : T) := by
    cases centering
    · exact finite_zero _
    · exact hmf
  have hval : ∀ x : V, some (CInt.toInt x : ℚ) = none → isNaN ((intRobust V promotes T).toT x) = true := by
    intro x h
    cases h
  have hval' : ∀ (x : V) (q : ℚ), (CInt.toInt x).natAbs ≤ 2 * 2 ^ (fmt T).frac → some (CInt.toInt x : ℚ) = some q →
      Finite ((intRobust V promotes T).toT x) ∧ value ((intRobust V promotes T).toT x) = q := by
    intro x q hn h
    obtain rfl := Option.some.inj h
    exact ofInt_exact hn
  rcases hab with ⟨ha, _, rfl⟩ | ⟨ha, hb', h0, hle, h100, rfl⟩
  · rw [← isNaN_iff] at ha
    rw [if_pos ha] at hy
    have hC := centred (k := intRobust V promotes T) (number := fun x : V => (CInt.toInt x).natAbs ≤ 2 * 2 ^ (fmt T).frac)
      (val := fun x => some (CInt.toInt x : ℚ))
      (t := ⟨if centering then m else zero false, ofInt 1⟩) hval hval' hcf ofInt_one.1 (by rw [ofInt_one.2]; norm_num)
    refine ⟨_, hy, _, _, ⟨?_, fun h => ?_, fun h => ?_, fun _ => ?_, fun _ _ h => (by cases h)⟩, hC⟩
    · simp only [ofInt_one.2]; norm_num
    · exact ⟨m, hmed, by simp only [h, if_true]⟩
    · simp only [h, Bool.false_eq_true, if_false, value_zero]
    · simp only [ofInt_one.2]; norm_num
  · rw [if_neg (show ¬ isNaN a = true by rw [Finite.not_nan ha]; simp)] at hy
    obtain ⟨q1, q2, q3, q4, q5⟩ := ratio_spec ha hb' h0 hle h100
    have hlh : CInt.toInt lo ≤ CInt.toInt hi := (hmm _ mlo).2
    obtain ⟨d, hd⟩ : ∃ d, d = CInt.toInt hi - CInt.toInt lo := ⟨_, rfl⟩
    have hd0 : 0 ≤ d := by omega
    have hw : (intRobust V promotes T).width hi lo (rangeRatio a b) = .ok (FloatArith.cast (mul (ofInt d : F32) (rangeRatio a b))) := by
      simp only [intRobust]
      rw [← hd]
      cases hp : promotes
      · rcases hwidth with h | h | h
        · cases h
        · rw [hp] at h; cases h
        · obtain ⟨l1, l2⟩ := h _ mlo _ mhi hlh
          rw [← hd] at l1 l2
          rw [if_neg (by simp)]
          unfold CInt.arith
          rw [if_neg (by rintro ⟨_, h⟩; exact h ⟨l1, l2⟩)]
          simp only [Except.map, CInt.toInt_ofInt d l1 l2]
      · rfl
    rw [hw] at hy
    simp only [Except.map] at hy
    have hdq : (0 : ℚ) ≤ (d : ℚ) := by exact_mod_cast hd0
    have hdlt : |(d : ℚ)| < tooLarge F32 := by
      have b1 := (hv _ mlo).1
      have b2 := (hv _ mhi).2
      have : d ≤ 2 ^ 64 := by omega
      rw [abs_of_nonneg hdq]
      refine lt_of_le_of_lt ?_ large_float
      have : (d : ℚ) ≤ ((2 ^ 64 : Int) : ℚ) := by exact_mod_cast this
      push_cast at this
      exact le_trans this (by norm_num)
    obtain ⟨hdf, hde⟩ := rounded_error (key_ofInt d) hdlt
    rw [abs_of_nonneg hdq, smallest_float, show Binary.frac F32 = 23 from rfl] at hde
    have hzero : d = 0 → value (ofInt d : F32) = 0 := by
      rintro rfl
      rw [value_key, key_ofInt, Int.cast_zero, rnd_zero, fval_zero]
    have hde' : |value (ofInt d : F32) - d| ≤ (d : ℚ) / 2 ^ 23 := by
      rcases eq_or_lt_of_le hd0 with h | h
      · rw [hzero h.symm, ← h]
        norm_num
      · have : (1 : ℚ) ≤ d := by exact_mod_cast h
        refine le_trans hde ?_
        norm_num
        linarith
    have hdn : 0 ≤ value (ofInt d : F32) := by
      rw [value_key, key_ofInt]
      exact fval_nonneg (rnd_nonneg hdq)
    obtain ⟨p1, p2, p3⟩ := spread_product (T := F32) (D := d) (R := (value b - value a) / 100) (u := 1 / 2 ^ 149)
      hdf q1 rfl hdq hde' hdn smallest_float.le (div_nonneg (by linarith) (by norm_num)) q2 q3 q4 (by decide)
    obtain ⟨w1, w2⟩ := column_ratio hT _ p1
    obtain ⟨w, hw'⟩ : ∃ w : T, w = FloatArith.cast (mul (ofInt d : F32) (rangeRatio a b)) := ⟨_, rfl⟩
    rw [← hw'] at w1 w2 hy
    have hC := centred (k := intRobust V promotes T) (number := fun x : V => (CInt.toInt x).natAbs ≤ 2 * 2 ^ (fmt T).frac)
      (val := fun x => some (CInt.toInt x : ℚ))
      (t := ⟨if centering then m else zero false, w⟩) hval hval' hcf w1 (by rw [w2]; exact p2)
    have hdc : (d : ℚ) = (CInt.toInt hi : ℚ) - CInt.toInt lo := by rw [hd]; push_cast; rfl
    refine ⟨_, hy, _, _, ⟨?_, fun h => ?_, fun h => ?_, fun h => (by cases h), fun a' b'' h => ?_⟩, hC⟩
    · simp only
      split_ifs with h
      · norm_num
      · exact lt_of_le_of_ne (by rw [w2]; exact p2) (Ne.symm h)
    · exact ⟨m, hmed, by simp only [h, if_true]⟩
    · simp only [h, Bool.false_eq_true, if_false, value_zero]
    · simp only [Option.some.injEq, Prod.mk.injEq] at h
      obtain ⟨rfl, rfl⟩ := h
      refine ⟨value w, ⟨CInt.toInt lo, List.mem_map.2 ⟨_, mlo, rfl⟩, CInt.toInt hi, List.mem_map.2 ⟨_, mhi, rfl⟩, ?_,
        by rw [w2]; exact p2, by rw [w2, ← hdc]; exact p3, fun h => ?_⟩, rfl⟩
      · intro q hq
        obtain ⟨z, hz, rfl⟩ := List.mem_map.1 hq
        exact ⟨by exact_mod_cast (hmm z hz).1, by exact_mod_cast (hmm z hz).2⟩
      · rw [w2, value_key, key_mul hdf q1]
        rcases h with h | h
        · have : d = 0 := by
            rw [hd]
            have : CInt.toInt lo = CInt.toInt hi := by exact_mod_cast h
            omega
          rw [hzero this, zero_mul, rnd_zero, fval_zero]
        · rw [q5 h, mul_zero, rnd_zero, fval_zero]

/-- `int32_t` and `int64_t` columns whose range does not fit their type: the computation of the scale is undefined. -/
theorem C76_range_refuted [CInt V] [FloType T] [Lawful T] {N : Nat} (hT : Column T N) (centering : Bool) (a b : F32)
    (ha : Finite a) (hs : CInt.strict V = true)
    (col cap : Nat) (hcap : 0 < cap) (batches : List (List V)) (hne : batches ≠ []) (hb : NoEmptyBatch batches)
    (maps : AnnotationMaps (MedAnnot V Int T)) (hcol : col < maps.length)
    (hnone : getAnnotation MedAnnot.isMedian maps col "MedianEstimator" = .ok none)
    (hnone' : getAnnotation MedAnnot.isStats maps col "StatisticalMetricsEstimator" = .ok none)
    (zs : List Int) (hzs : zs = (batches.flatten.take cap).map CInt.toInt) (hlen : zs.length ≤ 2 ^ 60)
    (hv : ∀ z ∈ zs, -2 ^ 63 ≤ z ∧ z < 2 ^ 63) (hvT : ∀ z ∈ zs, z.natAbs ≤ 2 * 2 ^ (fmt T).frac)
    (hall : ∀ p, p <+: zs → -2 ^ 63 ≤ p.sum ∧ p.sum < 2 ^ 63) {y z : Int} (hy : y ∈ zs) (hz : z ∈ zs) (hyz : CInt.hi V < z - y)
    (X : Xf (FloRobust T) V V) :
    FeaturizerYields X (robustComponents (intRobust V false T) col cap) 2 (makeRobust (intRobust V false T) centering a b col)
        batches maps (.error .ub) := by
  obtain ⟨-, h2⟩ := robust_int hT false centering a b col cap hcap batches hne hb maps hcol hnone hnone' zs hzs hlen hv hvT
  obtain ⟨m, lo, hi, mlo, mhi, hmm, -, h⟩ := h2 ⟨List.ne_nil_of_mem hy, hall⟩
  rw [if_neg (show ¬ isNaN a = true by rw [Finite.not_nan ha]; simp)] at h
  have hw : (intRobust V false T).width hi lo (rangeRatio a b) = .error .ub := by
    simp only [intRobust]
    rw [if_neg (by simp)]
    unfold CInt.arith
    rw [if_pos]
    · rfl
    · refine ⟨hs, fun h' => ?_⟩
      have h1 := (hmm _ hy).1
      have h2 := (hmm _ hz).2
      omega
  rw [hw] at h
  exact h X

/-! ### Examples -/

theorem example_range : Quantiles (ofInt 25) (ofInt 75) (some (25, 75)) := by
  obtain ⟨a1, a2⟩ := float_int (z := 25) (by norm_num)
  obtain ⟨b1, b2⟩ := float_int (z := 75) (by norm_num)
  refine .inr ⟨a1, b1, ?_, ?_, ?_, ?_⟩
  · rw [a2]; norm_num
  · rw [a2, b2]; norm_num
  · rw [b2]; norm_num
  · rw [a2, b2]; norm_num

example : checkRange (ofInt 25) (ofInt 75) = .ok () ∧ checkRange nan nan = .ok () ∧
    checkRange (ofInt 75) (ofInt 25) = .error .invalidArgument ∧ checkRange nan (ofInt 25) = .error .invalidArgument ∧
    checkRange (ofInt (-1)) (ofInt 25) = .error .invalidArgument := by
  refine ⟨?_, ?_, ?_, ?_, ?_⟩ <;> decide +kernel

example : ∃ t : FloRobust F64, (∀ X : Xf (FloRobust F64) F64 F64,
      FeaturizerYields X (robustComponents (floRobust F64) 0 9) 2 (makeRobust (floRobust F64) true (ofInt 25) (ofInt 75) 0)
        [[ofInt 3, nan], [ofInt (-4)]] [[]] (.ok t)) ∧
    ∃ m s, CentreAndSpread F64 (smallest F64) true (some (25, 75)) [3, -4] m s ∧
      Centred m s (fun x : F64 => ¬ IsInf x) floNumber (execRobust (floRobust F64) t) := by
  obtain ⟨r, h1, _, _, h2, h3, _⟩ := C76_float_partial .double true _ _ _ example_range 0 9 (by decide)
    [[ofInt 3, nan], [ofInt (-4)]] (by simp)
    (by intro b hb; simp at hb; rcases hb with rfl | rfl <;> simp) [[]] (by simp) rfl rfl example_finite _ rfl (by
      rw [example_numbers]; norm_num) (by
      rw [example_numbers]
      intro q hq
      refine lt_of_le_of_lt ?_ large_66
      simp at hq
      rcases hq with rfl | rfl <;> norm_num)
  rw [example_numbers] at h2 h3
  obtain ⟨a, rfl⟩ := h3 (by simp) (by norm_num) example_negligible
  exact ⟨a, h1, h2 a rfl⟩

example (X : Xf (FloRobust F64) F64 F64) :
    FeaturizerYields X (robustComponents (floRobust F64) 0 9) 2 (makeRobust (floRobust F64) true (ofInt 25) (ofInt 75) 0)
      [[ofInt 3, infinity true]] [[]] (.error .runtimeError) :=
  C76_infinite true _ _ 0 9 (by decide) (by decide) _ (by simp) (by intro b hb; simp at hb; simp [hb]) [[]] (by simp) rfl rfl
    ⟨infinity true, by simp, by rw [← isInf_iff]; decide +kernel⟩ X

/-- The smallest and the largest `double`: the scale is infinite, and the largest number becomes 0, not 1. -/
example : ∃ t : FloRobust F64, (∀ X : Xf (FloRobust F64) F64 F64,
      FeaturizerYields X (robustComponents (floRobust F64) 0 9) 2 (makeRobust (floRobust F64) false (ofInt 25) (ofInt 75) 0)
        [[lowest, largest]] [[]] (.ok t)) ∧ IsInf t.scale := by
  have hv := value_largest_twice
  have hneg : value (lowest : F64) = - value (largest : F64) := by
    rw [value_key, value_key (largest : F64), key_lowest, key_largest, fval_neg]
  have hpos : 0 ≤ value (largest : F64) := by
    rw [value_key, key_largest]
    refine fval_nonneg ?_
    have := inf_pos F64
    omega
  have hl : numbers floNumber ([[lowest, largest]].flatten.take 9 : List F64) = [value (lowest : F64), value (largest : F64)] := by
    simp [numbers, floNumber_finite finite_lowest, floNumber_finite finite_largest]
  obtain ⟨h75, h25⟩ : value (ofInt 75 : F32) = 75 ∧ value (ofInt 25 : F32) = 25 :=
    ⟨by rw [(float_int (z := 75) (by norm_num)).2]; norm_num, by rw [(float_int (z := 25) (by norm_num)).2]; norm_num⟩
  obtain ⟨t, h1, h2, _⟩ := C76_overflow_refuted (T := F64) .double false (ofInt 25) (ofInt 75) (by
      rw [h25, h75]; exact example_range) (by rw [ratio_half.2]; norm_num) 0 9 (by decide) [[lowest, largest]] (by simp)
    (by intro b hb; simp at hb; simp [hb]) [[]] (by simp) rfl rfl (by
      intro x hx
      simp at hx
      rw [← isInf_iff]
      rcases hx with rfl | rfl
      · rw [Finite.not_inf finite_lowest]; simp
      · rw [Finite.not_inf finite_largest]; simp) _ hl.symm (by simp) (by
      rw [hneg]
      generalize value (largest : F64) = A at *
      refine ⟨by simp, ?_⟩
      intro q hq
      simp only [List.map_cons, List.map_nil, abs_neg, abs_of_nonneg hpos, List.mem_cons, List.not_mem_nil, or_false, or_self] at hq
      simp only [List.map_cons, List.map_nil, abs_neg, abs_of_nonneg hpos, List.sum_cons, List.sum_nil]
      rw [hq]
      rcases eq_or_lt_of_le hpos with h | h
      · exact .inl h.symm
      · right
        norm_num
        linarith) (p := value (lowest : F64)) (q := value (largest : F64)) (by simp) (by simp) (by
      rw [hneg]
      rw [abs_of_nonneg (by linarith)] at hv
      linarith)
  exact ⟨t, h1, h2⟩

example : ∃ t : FloRobust F32, (∀ X : Xf (FloRobust F32) Int8 Int8,
      FeaturizerYields X (robustComponents (intRobust Int8 true F32) 0 9) 2 (makeRobust (intRobust Int8 true F32) true (ofInt 25) (ofInt 75) 0)
        [[3, 5], [-4]] [[]] (.ok t)) ∧
    ∃ m s, CentreAndSpread F32 (1 / 2 ^ 149) true (some (25, 75)) [3, 5, -4] m s ∧
      Centred m s (fun x : Int8 => (CInt.toInt x).natAbs ≤ 2 * 2 ^ (fmt F32).frac) (fun x => some (CInt.toInt x : ℚ))
        (execRobust (intRobust Int8 true F32) t) := by
  obtain ⟨-, h⟩ := C76_integers_partial (V := Int8) .float true true _ _ _ example_range 0 9 (by decide) [[3, 5], [-4]] (by simp)
    (by intro b hb; simp at hb; rcases hb with rfl | rfl <;> simp) [[]] (by simp) rfl rfl [3, 5, -4] (by decide) (by simp)
    (by decide) (by decide +kernel) (.inr (.inl rfl))
  have := h ⟨by simp, by
    intro p hp
    rw [List.prefix_iff_eq_take] at hp
    have : p.length = 0 ∨ p.length = 1 ∨ p.length = 2 ∨ 3 ≤ p.length := by omega
    rcases this with h | h | h | h
    · rw [h] at hp; rw [hp]; norm_num
    · rw [h] at hp; rw [hp]; norm_num
    · rw [h] at hp; rw [hp]; norm_num
    · rw [List.take_of_length_le (by simpa using h)] at hp; rw [hp]; norm_num⟩
  norm_num at this ⊢
  exact this

/-- `int32_t`: the range of the values -2^31 and 1 does not fit. -/
example (X : Xf (FloRobust F64) Int32 Int32) :
    FeaturizerYields X (robustComponents (intRobust Int32 false F64) 0 9) 2 (makeRobust (intRobust Int32 false F64) true (ofInt 25) (ofInt 75) 0)
      [[-2147483648, 1]] [[]] (.error .ub) :=
  C76_range_refuted (V := Int32) .double true (ofInt 25) (ofInt 75) (float_int (z := 25) (by norm_num)).1 rfl 0 9 (by decide) _ (by simp)
    (by intro b hb; simp at hb; simp [hb]) [[]] (by simp) rfl rfl [-2147483648, 1] (by decide) (by simp)
    (by decide) (by decide +kernel) (by
      intro p hp
      rw [List.prefix_iff_eq_take] at hp
      have : p.length = 0 ∨ p.length = 1 ∨ 2 ≤ p.length := by omega
      rcases this with h | h | h
      · rw [h] at hp; rw [hp]; norm_num
      · rw [h] at hp; rw [hp]; norm_num
      · rw [List.take_of_length_le (by simpa using h)] at hp; rw [hp]; norm_num) (y := -2147483648) (z := 1) (by simp) (by simp)
    (by decide) X

end Feat.FloatMedian
