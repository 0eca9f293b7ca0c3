import Verif.Proofs.FloatScale
import Verif.Proofs.IntStats
/-
The standard scaler in floating point arithmetic: from the statistics to the transformer.
-/
namespace Feat.FloatStats
open FloatText FloatArith FloatNorms FloatScalers
variable {ι V S : Type}

theorem averageOf_of {maps : AnnotationMaps (FloAnnot V S)} {col : Nat} (hcol : col < maps.length) {st : FloStats V S}
    (h : getAnnotation FloAnnot.isStats maps col "StatisticalMetricsEstimator" = .ok (some (.stats st))) :
    averageOf (maps.getD col []) = .ok st.average := by
  unfold averageOf
  have h2 : getAnnotation FloAnnot.isStats [maps.getD col []] 0 "StatisticalMetricsEstimator"
      = getAnnotation FloAnnot.isStats maps col "StatisticalMetricsEstimator" := by
    unfold getAnnotation
    have : ¬ col ≥ maps.length := by omega
    simp [this]
  rw [getAnnotationData_of (h2.trans h)]

/-- Without statistics there is no scaler. -/
theorem scaler_error {k : StatInput ι V S} {col cap : Nat} (mk : AnnotationMaps (FloAnnot V S) → Except Err (StandardScaler F64))
    {batches : List (List ι)} (hne : batches ≠ []) (hb : NoEmptyBatch batches) {maps : AnnotationMaps (FloAnnot V S)}
    (hcol : col < maps.length) {e : Err}
    (ht : trainEstimator (statPolicy k FloAnnot.stats) (statsConfig col FloAnnot.isStats) cap ⟨none, 0, k.zero⟩ batches maps
      = (.error e, maps)) (X : Xf (StandardScaler F64) ι ι) :
    FeaturizerYields X (scaleComponents k col cap) 2 mk batches maps (.error e) :=
  featurizer_two X (c₀ := statComponent k col cap)
    (c₁ := ⟨devPolicy k, devConfig col FloAnnot.isDeviation, cap, ⟨Acc.start, zero false, 0⟩⟩)
    mk batches hne hb maps hcol hcol _ _ ht (.error e) maps (fun h => by cases h)

/-- The scale that is used. -/
def scaleOf (withStd : Bool) (d : F80) : F64 :=
  if eq (if withStd then FloatArith.cast d else ofInt 1 : F64) (zero false) then ofInt 1
  else if withStd then FloatArith.cast d else ofInt 1

theorem scaleOf_spec {withStd : Bool} {d : F80} (hd : Finite (FloatArith.cast d : F64)) (h0 : 0 ≤ value (FloatArith.cast d : F64)) :
    Finite (scaleOf withStd d) ∧ 0 < value (scaleOf withStd d) ∧ (withStd = false → value (scaleOf withStd d) = 1) ∧
    (withStd = true → value (FloatArith.cast d : F64) = 0 → value (scaleOf withStd d) = 1) ∧
    (withStd = true → value (FloatArith.cast d : F64) ≠ 0 → scaleOf withStd d = FloatArith.cast d) := by
  have h1 := ofInt_exact (T := F64) (z := 1) (by decide +kernel)
  have h1v : value (ofInt 1 : F64) = 1 := by rw [h1.2]; norm_num
  unfold scaleOf
  obtain ⟨u, hu⟩ : ∃ u, u = (ofInt 1 : F64) := ⟨_, rfl⟩
  obtain ⟨c, hc⟩ : ∃ c, c = (FloatArith.cast d : F64) := ⟨_, rfl⟩
  rw [← hu] at h1 h1v ⊢
  rw [← hc] at hd h0 ⊢
  cases withStd
  · simp only [Bool.false_eq_true, if_false]
    have hz : ¬ eq u (zero false) = true := by
      rw [eq_iff h1.1 (finite_zero _), value_zero, h1v]
      norm_num
    rw [if_neg hz]
    exact ⟨h1.1, by rw [h1v]; norm_num, fun _ => h1v, fun h => (by cases h), fun h => by cases h⟩
  · simp only [if_true]
    by_cases hz : value c = 0
    · rw [if_pos (by rw [eq_iff hd (finite_zero _), value_zero, hz])]
      exact ⟨h1.1, by rw [h1v]; norm_num, fun _ => h1v, fun _ _ => h1v, fun _ h => absurd hz h⟩
    · rw [if_neg (by rw [eq_iff hd (finite_zero _), value_zero]; exact hz)]
      exact ⟨hd, lt_of_le_of_ne h0 (Ne.symm hz), fun h => (by cases h), fun _ h => absurd h hz, fun _ _ => rfl⟩

theorem makeScaler_of {withMean withStd : Bool} {col : Nat} {maps : AnnotationMaps (FloAnnot V S)} {st : FloStats V S} {d : F80} {n : Nat}
    (h1 : getAnnotation FloAnnot.isStats maps col "StatisticalMetricsEstimator" = .ok (some (.stats st)))
    (h2 : getAnnotation FloAnnot.isDeviation maps col "StandardDeviationEstimator" = .ok (some (.deviation d n)))
    (hd : Finite (FloatArith.cast d : F64)) (h0 : 0 ≤ value (FloatArith.cast d : F64)) :
    makeScaler withMean withStd col maps = .ok ⟨if withMean then st.average else zero false, scaleOf withStd d⟩ := by
  obtain ⟨g1, g2, -⟩ := scaleOf_spec (withStd := withStd) hd h0
  have hlt : ¬ FloatArith.lt (scaleOf withStd d) (zero false) = true := by
    rw [lt_iff g1 (finite_zero _), value_zero]
    exact not_lt.2 g2.le
  have hd1 := getAnnotationData_of h1
  have hd2 := getAnnotationData_of h2
  unfold scaleOf at hlt ⊢
  unfold makeScaler
  rw [hd1, hd2]
  cases withMean <;> cases withStd <;> simp only [if_true, if_false, Bool.false_eq_true] at hlt ⊢ <;> rw [if_neg hlt]

/-- From the statistics to the scaler. -/
theorem scaler_of_stats {k : StatInput ι V S} (withMean withStd : Bool) (col cap : Nat) (hcap : 0 < cap)
    (batches : List (List ι)) (hne : batches ≠ []) (hb : NoEmptyBatch batches)
    (maps : AnnotationMaps (FloAnnot V S)) (hcol : col < maps.length)
    (hnone : getAnnotation FloAnnot.isStats maps col "StatisticalMetricsEstimator" = .ok none)
    (hnone' : getAnnotation FloAnnot.isDeviation maps col "StandardDeviationEstimator" = .ok none)
    {st : FloStats V S}
    (ht : trainEstimator (statPolicy k FloAnnot.stats) (statsConfig col FloAnnot.isStats) cap ⟨none, 0, k.zero⟩ batches maps
      = addAnnotation (some (.stats st)) col "StatisticalMetricsEstimator" maps)
    (ds : List F64) (hds : ds = ((batches.flatten.take cap).filterMap k.get).map k.toD) (hdne : ds ≠ []) (hlen : ds.length ≤ 2 ^ 60)
    (ha : Finite st.average) (hx : ∀ x ∈ ds, Finite x ∧ |value x - value st.average| ≤ 2 ^ 1022)
    (R : ℚ) (hR : R = (ds.map fun x => (value x - value st.average) ^ 2).sum) :
    ((∀ X : Xf (StandardScaler F64) ι ι,
        FeaturizerYields X (scaleComponents k col cap) 2 (makeScaler withMean withStd col) batches maps (.error .runtimeError)) ∧
      ∃ x ∈ ds, value x ≠ value st.average ∧ 2 ^ 60 * (value x - value st.average) ^ 2 ≤ R) ∨
    ∃ d : F80, (∀ X : Xf (StandardScaler F64) ι ι,
        FeaturizerYields X (scaleComponents k col cap) 2 (makeScaler withMean withStd col) batches maps
          (.ok ⟨if withMean then st.average else zero false, scaleOf withStd d⟩)) ∧
      Finite (FloatArith.cast d : F64) ∧ 0 ≤ value (FloatArith.cast d : F64) ∧ (R = 0 → value (FloatArith.cast d : F64) = 0) ∧
      |(value (FloatArith.cast d : F64) : ℝ) - Real.sqrt ((R : ℝ) / ds.length)|
        ≤ Real.sqrt ((R : ℝ) / ds.length) * (ds.length / 2 ^ 63 + 1 / 2 ^ 49) + 1 / 2 ^ 1074 := by
  have hok := (addAnnotation_ok maps (FloAnnot.stats st) col "StatisticalMetricsEstimator" hcol)
  obtain ⟨maps₁, hm1⟩ : ∃ m, m = (addAnnotation (some (FloAnnot.stats st)) col "StatisticalMetricsEstimator" maps).2 := ⟨_, rfl⟩
  have hg1 : getAnnotation FloAnnot.isStats maps₁ col "StatisticalMetricsEstimator" = .ok (some (.stats st)) := by
    rw [hm1]
    exact getAnnotation_add_self maps _ col _ _ rfl hnone
  have hg2 : getAnnotation FloAnnot.isDeviation maps₁ col "StandardDeviationEstimator" = .ok none := by
    rw [hm1, getAnnotation_add_other maps _ col _ _ _ (by simp)]
    exact hnone'
  rw [← hm1] at hok
  have hcol1 : col < maps₁.length := by rw [hok.2]; exact hcol
  have ht2 := trainEstimator_eq (devPolicy k) (devConfig col FloAnnot.isDeviation) cap hcap ⟨Acc.start, zero false, 0⟩ batches hb
    maps₁ hcol1 (fun _ => hg2)
  have hbegin : (devPolicy k).begin (maps₁.getD col []) ⟨Acc.start, zero false, 0⟩ = (.ok true, ⟨Acc.start, st.average, 0⟩) := by
    simp only [devPolicy]
    rw [averageOf_of hcol1 hg1]
  simp only [publishes, devConfig, if_true, hbegin, devFit_all, ← hds] at ht2
  have hy := fun (X : Xf (StandardScaler F64) ι ι) r' maps'' h => featurizer_two X (c₀ := statComponent k col cap)
    (c₁ := ⟨devPolicy k, devConfig col FloAnnot.isDeviation, cap, ⟨Acc.start, zero false, 0⟩⟩)
    (makeScaler withMean withStd col) batches hne hb maps hcol hcol _ _ (ht.trans hok.1) r' maps'' h
  have hn0 : 0 < ds.length := List.length_pos_of_ne_nil hdne
  have hemp : ds.isEmpty = false := by
    cases ds with
    | nil => exact absurd rfl hdne
    | cons => rfl
  rcases squares_run ha ds hx hlen R hR with ⟨s', hs', x, hm, h1, h2⟩ | ⟨b, hs', hbf, hbn⟩
  · left
    refine ⟨fun X => ?_, x, hm, h1, h2⟩
    rw [hs'] at ht2
    exact hy X (.error .runtimeError) maps₁ (fun _ => ht2)
  · right
    rw [hemp] at hs'
    obtain ⟨d, hd, h1, h2, h3, h4⟩ := deviation_near (a := st.average) hbf hn0 hlen hbn (by
      by_cases hall : ∀ x ∈ ds, value x = value st.average
      · left
        rw [hR]
        apply List.sum_eq_zero
        intro q hq
        obtain ⟨x, hm, rfl⟩ := List.mem_map.1 hq
        rw [hall x hm, sub_self]
        simp
      · right
        push Not at hall
        obtain ⟨x, hm, hne⟩ := hall
        have hle : (value x - value st.average) ^ 2 ≤ R := by
          rw [hR]
          refine le_sum ?_ (List.mem_map_of_mem (f := fun x => (value x - value st.average) ^ 2) hm)
          intro q hq
          obtain ⟨y, _, rfl⟩ := List.mem_map.1 hq
          positivity
        refine le_trans ?_ hle
        obtain ⟨⟨z1, hz1⟩, -⟩ := double_bounds (hx x hm).1
        obtain ⟨⟨z2, hz2⟩, -⟩ := double_bounds ha
        rw [hz1, hz2, ← sub_div, div_pow, ← pow_mul]
        have hz : z1 - z2 ≠ 0 := by
          intro h0
          apply hne
          rw [hz1, hz2, show z1 = z2 by omega]
        have hz' : (1 : ℚ) ≤ ((z1 : ℚ) - z2) ^ 2 := by
          have : (1 : Int) ≤ (z1 - z2) ^ 2 := by
            have := sq_pos_of_ne_zero hz  
            omega
          exact_mod_cast this
        have hp : (2 : ℚ) ^ (1074 * 2) ≤ 2 ^ 2200 := pow_le_pow_right₀ (by norm_num) (by norm_num)
        exact div_le_div₀ (by positivity) hz' (by positivity) hp) (by
      rw [hR]
      refine le_trans (sum_bound (B := 2 ^ 2044) ?_) (le_of_eq (by rw [List.length_map]))
      intro q hq
      obtain ⟨x, hm, rfl⟩ := List.mem_map.1 hq
      have h1 := pow_le_pow_left₀ (abs_nonneg _) (hx x hm).2 2
      rw [sq_abs, ← pow_mul] at h1
      exact h1)
    refine ⟨d, fun X => ?_, h1, h2, h3, h4⟩
    have hcomp : (devPolicy k).complete maps₁ ⟨⟨b, !false⟩, st.average, ds.length⟩
        = (.ok (.deviation d ds.length), ⟨⟨b, !false⟩, st.average, ds.length⟩) := by
      simp only [devPolicy, Bool.not_false, hd]
      rfl
    rw [hs'] at ht2
    simp only [hcomp] at ht2
    have hok2 := (addAnnotation_ok maps₁ (FloAnnot.deviation (V := V) (S := S) d ds.length) col "StandardDeviationEstimator" hcol1).1
    have hfin := hy X _ _ (fun _ => ht2.trans hok2)
    simp only [Except.bind] at hfin
    rw [makeScaler_of (getAnnotation_add_other maps₁ _ col _ _ _ (by simp) |>.trans hg1)
      (getAnnotation_add_self maps₁ _ col _ _ rfl hg2) h1 h2] at hfin
    exact hfin

end Feat.FloatStats
