import Verif.Proofs.FloatCentre
import Verif.Props.FloatStats
/-
C72: the standard scaler in floating point arithmetic.
-/
namespace Feat.FloatStats
open FloatText FloatArith FloatNorms FloatScalers
variable {ι V S : Type}

/-- What the training of a standard scaler with the numbers `l` gives. -/
private theorem scaler_result {k : StatInput ι V S} {number : ι → Prop} {val : Reading ι} (withMean withStd : Bool) {col cap : Nat} (hcap : 0 < cap)
    {batches : List (List ι)} (hne : batches ≠ []) (hb : NoEmptyBatch batches)
    {maps : AnnotationMaps (FloAnnot V S)} (hcol : col < maps.length)
    (hnone : getAnnotation FloAnnot.isStats maps col "StatisticalMetricsEstimator" = .ok none)
    (hnone' : getAnnotation FloAnnot.isDeviation maps col "StandardDeviationEstimator" = .ok none)
    {st : FloStats V S}
    (ht : trainEstimator (statPolicy k FloAnnot.stats) (statsConfig col FloAnnot.isStats) cap ⟨none, 0, k.zero⟩ batches maps
      = addAnnotation (some (.stats st)) col "StatisticalMetricsEstimator" maps)
    (ds : List F64) (hds : ds = ((batches.flatten.take cap).filterMap k.get).map k.toD)
    (hval : ∀ x, val x = none → k.get x = none)
    (hval' : ∀ x q, number x → val x = some q → |q| ≤ 2 ^ 1020 → ∃ v, k.get x = some v ∧ Finite (k.toD v) ∧ value (k.toD v) = q)
    (l : List ℚ) (hl : l = ds.map value) (hlne : l ≠ []) (hlen : l.length ≤ 2 ^ 60) (hf : ∀ x ∈ ds, Finite x)
    (hmod : ∀ q ∈ l, |q| ≤ 2 ^ 1020)
    (hw : Within l st.average) (ha : Finite st.average)
    (hnear : |value st.average - mean l| ≤ error l.length * meanAbs l + 1 / 2 ^ 1074) :
    ∃ r : Except Err (StandardScaler F64),
      (∀ X : Xf (StandardScaler F64) ι ι,
        FeaturizerYields X (scaleComponents k col cap) 2 (makeScaler withMean withStd col) batches maps r) ∧
      (r = .error .runtimeError ∨ ∃ t, r = .ok t) ∧
      (∀ t, r = .ok t → ∃ m s, CentreAndScale withMean withStd l m s ∧ ScalesBy m s number val (execScaler k t) ∧
        Finite t.deviation ∧ 0 < value t.deviation) ∧
      (Apart l → ∃ t, r = .ok t) := by
  have hab : |value st.average| ≤ 2 ^ 1020 := by
    obtain ⟨⟨lo, hlo, h1⟩, hi, hhi, h2⟩ := hw
    rw [abs_le]
    exact ⟨le_trans (abs_le.1 (hmod lo hlo)).1 h1, le_trans h2 (abs_le.1 (hmod hi hhi)).2⟩
  have hlen' : l.length = ds.length := by rw [hl, List.length_map]
  have hdne : ds ≠ [] := by rintro rfl; exact hlne hl
  obtain ⟨R, hR⟩ : ∃ R, R = (ds.map fun x => (value x - value st.average) ^ 2).sum := ⟨_, rfl⟩
  have hR' : R = (l.map fun q => (q - value st.average) ^ 2).sum := by rw [hR, hl, List.map_map]; rfl
  rcases scaler_of_stats withMean withStd col cap hcap batches hne hb maps hcol hnone hnone' ht ds hds hdne (by omega) ha (by
    intro x hx
    refine ⟨hf x hx, ?_⟩
    have h1 := hmod (value x) (by rw [hl]; exact List.mem_map_of_mem hx)
    have h2 := abs_sub (value x) (value st.average)
    have h3 : (2 : ℚ) ^ 1020 + 2 ^ 1020 ≤ 2 ^ 1022 := by
      rw [← two_mul, ← pow_succ']
      exact pow_le_pow_right₀ (by norm_num) (by norm_num)
    generalize (2 : ℚ) ^ 1020 = A at *
    generalize (2 : ℚ) ^ 1022 = B at *
    linarith) R hR with ⟨hy, x, hx, h1, h2⟩ | ⟨d, hy, h1, h2, h3, h4⟩
  · refine ⟨.error .runtimeError, hy, .inl rfl, fun t h => (by cases h), fun hap => ?_⟩
    have := not_negligible hlne hlen hw hnear R hR' hap (q := value x) (by rw [hl]; exact List.mem_map_of_mem hx) h1
    exact absurd h2 (not_le.2 this)
  · refine ⟨_, hy, .inr ⟨_, rfl⟩, fun t ht => ?_, fun _ => ⟨_, rfl⟩⟩
    simp only [Except.ok.injEq] at ht
    obtain ⟨s1, s2, -⟩ := scaleOf_spec (withStd := withStd) h1 h2
    rw [← hlen'] at h4
    have h5 := centre_and_scale (withMean := withMean) (withStd := withStd) hlne hlen hw hnear R hR' h1 h2 h3 h4
    have h6 := scales_by (k := k) (number := number) (val := val) (t := t) hval hval' (by
        rw [← ht]
        cases withMean
        · exact finite_zero _
        · exact ha) (by
        rw [← ht]
        cases withMean
        · show |value (zero false : F64)| ≤ _
          rw [value_zero, abs_zero]
          positivity
        · exact hab) (by rw [← ht]; exact s1) (by rw [← ht]; exact s2)
    refine ⟨_, _, ?_, h6, by rw [← ht]; exact s1, by rw [← ht]; exact s2⟩
    rw [← ht]
    exact h5

/-- **C72** (`float` and `double` columns without infinities, values up to `2^1020`) A standard scaler that was trained through its
public calls is refused, or it subtracts a centre and divides by a positive scale, up to the rounding of the two operations; the centre
is near the mean (or 0) and the scale near the standard deviation (or 1).  It is not refused if no value is negligible beside the
others, and no distance from the mean beside the other distances. -/
theorem C72_float_partial {T : Type} [FloType T] [Lawful T] [Wider T F80] {N : Nat} (hT : Column T N) (withMean withStd : Bool)
    (col cap : Nat) (hcap : 0 < cap) (batches : List (List T)) (hne : batches ≠ []) (hb : NoEmptyBatch batches)
    (maps : AnnotationMaps (FloAnnot T F80)) (hcol : col < maps.length)
    (hnone : getAnnotation FloAnnot.isStats maps col "StatisticalMetricsEstimator" = .ok none)
    (hnone' : getAnnotation FloAnnot.isDeviation maps col "StandardDeviationEstimator" = .ok none)
    (hx : ∀ x ∈ batches.flatten.take cap, ¬ IsInf x)
    (l : List ℚ) (hl : l = numbers floNumber (batches.flatten.take cap)) (hlen : l.length ≤ 2 ^ 60) (hmod : ∀ q ∈ l, |q| ≤ 2 ^ 1020) :
    ∃ r : Except Err (StandardScaler F64),
      (∀ X : Xf (StandardScaler F64) T T,
        FeaturizerYields X (scaleComponents (floStat T) col cap) 2 (makeScaler withMean withStd col) batches maps r) ∧
      (r = .error .runtimeError ∨ r = .error .invalidArgument ∨ ∃ t, r = .ok t) ∧
      (l = [] → r = .error .runtimeError) ∧
      (∀ t, r = .ok t → ∃ m s, CentreAndScale withMean withStd l m s ∧
        ScalesBy m s (fun x : T => ¬ IsInf x) floNumber (execScaler (floStat T) t) ∧ Finite t.deviation ∧ 0 < value t.deviation) ∧
      (l ≠ [] → l.length ≤ N → NoneNegligible (l.map fun q => |q|) → Apart l → ∃ t, r = .ok t) ∧
      (l.length ≤ N → r ≠ .error .invalidArgument) := by
  have hD : ∀ x : T, Finite x → Finite (FloatArith.cast x : F64) ∧ value (FloatArith.cast x : F64) = value x := by
    cases hT with
    | float => exact fun _ h => cast_exact h
    | double => exact fun _ h => cast_self h
  have hN : N * (2 * 2 ^ (fmt T).frac) ≤ 2 * 2 ^ (fmt F80).frac := by
    cases hT with
    | float => decide +kernel
    | double => decide +kernel
  rcases float_trained hD N hN col cap hcap batches hb maps hcol hnone hx l hl hlen with
    ⟨e, ht, he, h0, h1, h2⟩ | ⟨st, ht, hlne, _, _, _, _, _, _, _, hw, hnm⟩
  · refine ⟨.error e, scaler_error _ hne hb hcol ht, ?_, fun h => by rw [h0 h], fun a h => by simp at h,
      fun h hle hnn => absurd hnn (h2 h hle), fun hle h => h1 hle (by simpa using h)⟩
    rcases he with rfl | rfl <;> simp
  · obtain ⟨v1, v2⟩ := flo_values (batches.flatten.take cap) hx
    obtain ⟨vs, hvs⟩ : ∃ vs, vs = (batches.flatten.take cap).filterMap (floStat T).get := ⟨_, rfl⟩
    rw [← hvs] at v1 v2
    rw [← v2] at hl
    obtain ⟨r, r1, r2, r3, r4⟩ := scaler_result (number := fun x : T => ¬ IsInf x) (val := floNumber) withMean withStd hcap hne hb hcol
      hnone hnone' ht (vs.map (floStat T).toD) (by rw [hvs])
      (by
        intro x h
        simp only [floStat, floNumber_none.1 h, if_true])
      (by
        intro x q hm hv _
        obtain ⟨hf, hq⟩ := floNumber_some hv hm
        refine ⟨x, by simp only [floStat, Finite.not_nan hf, Bool.false_eq_true, if_false], (hD x hf).1, ?_⟩
        rw [← hq]
        exact (hD x hf).2)
      l (by
        rw [hl, List.map_map]
        refine List.map_congr_left fun v hv => ?_
        exact ((hD v (v1 v hv)).2).symm) hlne hlen
      (by
        intro x hx
        obtain ⟨v, hv, rfl⟩ := List.mem_map.1 hx
        exact (hD v (v1 v hv)).1) hmod hw hnm.1
      (by
        refine le_trans hnm.2 (add_le_add_left (mul_le_mul_of_nonneg_right ?_ (meanAbs_nonneg l)) _)
        unfold error
        norm_num)
    refine ⟨r, r1, ?_, fun h => absurd h hlne, r3, fun _ _ _ h => r4 h, ?_⟩
    · rcases r2 with h | h
      · exact .inl h
      · exact .inr (.inr h)
    · intro _ h
      rcases r2 with h' | ⟨t, h'⟩ <;> (rw [h] at h'; cases h')

/-- Integer columns with values up to `2^53`, nullable or not: refused exactly if there is no value, if a running sum of the values
leaves `int64_t`, or perhaps because of a negligible distance from the mean. -/
theorem C72_integers_partial [CInt V] (get : ι → Option V) (withMean withStd : Bool)
    (col cap : Nat) (hcap : 0 < cap) (batches : List (List ι)) (hne : batches ≠ []) (hb : NoEmptyBatch batches)
    (maps : AnnotationMaps (FloAnnot V Int)) (hcol : col < maps.length)
    (hnone : getAnnotation FloAnnot.isStats maps col "StatisticalMetricsEstimator" = .ok none)
    (hnone' : getAnnotation FloAnnot.isDeviation maps col "StandardDeviationEstimator" = .ok none)
    (zs : List Int) (hzs : zs = ((batches.flatten.take cap).filterMap get).map CInt.toInt) (hlen : zs.length ≤ 2 ^ 60)
    (hv : ∀ z ∈ zs, z.natAbs ≤ 2 ^ 53) (l : List ℚ) (hl : l = zs.map fun z : Int => (z : ℚ)) :
    ∃ r : Except Err (StandardScaler F64),
      (∀ X : Xf (StandardScaler F64) ι ι,
        FeaturizerYields X (scaleComponents (intStat V get) col cap) 2 (makeScaler withMean withStd col) batches maps r) ∧
      (r = .error .runtimeError ∨ ∃ t, r = .ok t) ∧
      ((zs = [] ∨ ¬ ∀ p, p <+: zs → -2 ^ 63 ≤ p.sum ∧ p.sum < 2 ^ 63) → r = .error .runtimeError) ∧
      (∀ t, r = .ok t → ∃ m s, CentreAndScale withMean withStd l m s ∧
        ScalesBy m s (fun x : ι => ∀ v, get x = some v → (CInt.toInt v).natAbs ≤ 2 ^ 53) (fun x => (get x).map fun v => (CInt.toInt v : ℚ))
          (execScaler (intStat V get) t) ∧ Finite t.deviation ∧ 0 < value t.deviation) ∧
      ((zs ≠ [] ∧ ∀ p, p <+: zs → -2 ^ 63 ≤ p.sum ∧ p.sum < 2 ^ 63) → Apart l → ∃ t, r = .ok t) := by
  obtain ⟨vs, hvs⟩ : ∃ vs, vs = (batches.flatten.take cap).filterMap (intStat V get).get := ⟨_, rfl⟩
  have hzs' : zs = vs.map CInt.toInt := by rw [hzs, hvs]; rfl
  clear hzs
  subst hzs'
  rw [List.length_map] at hlen
  have hex : ∀ v : V, (CInt.toInt v).natAbs ≤ 2 ^ 53 → Finite (ofInt (CInt.toInt v) : F64) ∧ value (ofInt (CInt.toInt v) : F64) = CInt.toInt v :=
    fun v h => ofInt_exact h
  have hsm : ∀ v ∈ vs, (CInt.toInt v).natAbs ≤ 2 ^ 53 := fun v hm => hv _ (List.mem_map.2 ⟨v, hm, rfl⟩)
  have hfit : ∀ v ∈ vs, Fits (CInt.toInt v) := by
    intro v hm
    have := hsm v hm
    unfold Fits
    omega
  have L : StatLawful (intStat V get) (fun _ => True) (fun x => (CInt.toInt x : ℚ)) := by
    refine ⟨fun x y _ _ => ?_⟩
    simp only [intStat]
    rw [decide_eq_true_iff, Int.cast_lt]
  obtain ⟨t1, t2, t3⟩ := stat_trained L col cap hcap batches hb maps hcol hnone vs hvs (by omega) (fun _ _ => trivial)
  obtain ⟨r1, r2⟩ := total_int get vs 0 (by unfold Fits; decide) hfit
  have hpre : (∀ p, p <+: vs → Fits (0 + (p.map CInt.toInt).sum)) ↔
      ∀ p, p <+: vs.map CInt.toInt → -2 ^ 63 ≤ p.sum ∧ p.sum < 2 ^ 63 := by
    constructor
    · intro h p hp
      rw [List.prefix_iff_eq_take.1 hp, ← List.map_take]
      have := h (vs.take p.length) (List.take_prefix _ _)
      rwa [zero_add] at this
    · intro h p hp
      rw [zero_add]
      exact h _ (hp.map _)
  rw [hpre] at r1 r2
  by_cases hall : ∀ p, p <+: vs.map CInt.toInt → -2 ^ 63 ≤ p.sum ∧ p.sum < 2 ^ 63
  swap
  · obtain ⟨t, ht⟩ := r2 hall
    exact ⟨.error .runtimeError, scaler_error _ hne hb hcol (t1 _ _ ht), .inl rfl, fun _ => rfl, fun t h => (by cases h),
      fun h => absurd h.2 hall⟩
  by_cases hvne : vs = []
  · exact ⟨.error .runtimeError, scaler_error _ hne hb hcol (t2 _ (r1 hall) hvne), .inl rfl, fun _ => rfl, fun t h => (by cases h),
      fun h => absurd (by rw [hvne]; rfl) h.1⟩
  obtain ⟨lo, hi, hlo, hhi, ht⟩ := t3 _ (r1 hall) hvne
  rw [zero_add] at ht
  obtain ⟨a, hc, hf, hnear, k1, k2⟩ := commit_int get hvne hlen hlo hhi hfit rfl (by
    have := hpre.2 hall vs (List.prefix_refl _)
    rwa [zero_add] at this)
  rw [hc] at ht
  have hlv : l = vs.map fun x => (CInt.toInt x : ℚ) := by rw [hl, List.map_map]; rfl
  rw [← hlv] at hnear
  have hll : l.length = vs.length := by rw [hlv, List.length_map]
  obtain ⟨r, g1, g2, g3, g4⟩ := scaler_result (k := intStat V get)
    (number := fun x : ι => ∀ v, get x = some v → (CInt.toInt v).natAbs ≤ 2 ^ 53)
    (val := fun x => (get x).map fun v => (CInt.toInt v : ℚ)) withMean withStd hcap hne hb hcol hnone hnone' ht
    (vs.map (intStat V get).toD) (by rw [hvs])
    (by
      intro x h
      exact Option.map_eq_none_iff.1 h)
    (by
      intro x q hm hq _
      obtain ⟨v, hv, rfl⟩ := Option.map_eq_some_iff.1 hq
      exact ⟨v, hv, hex v (hm v hv)⟩)
    l (by
      rw [hlv, List.map_map]
      refine List.map_congr_left fun v hv => ?_
      exact ((hex v (hsm v hv)).2).symm)
    (by rw [hlv]; simpa using hvne) (by omega)
    (by
      intro x hx
      obtain ⟨v, hv, rfl⟩ := List.mem_map.1 hx
      exact (hex v (hsm v hv)).1)
    (by
      intro q hq
      rw [hlv] at hq
      obtain ⟨v, hv, rfl⟩ := List.mem_map.1 hq
      have h1 : |(CInt.toInt v : ℚ)| ≤ 2 ^ 53 := by
        rw [← Int.cast_abs, Int.abs_eq_natAbs]
        exact_mod_cast hsm v hv
      exact le_trans h1 (pow_le_pow_right₀ (by norm_num) (by norm_num)))
    (by
      rw [hlv]
      refine ⟨⟨CInt.toInt lo, List.mem_map.2 ⟨lo, hlo.1, rfl⟩, ?_⟩, CInt.toInt hi, List.mem_map.2 ⟨hi, hhi.1, rfl⟩, ?_⟩
      · rw [← (hex lo (hsm lo hlo.1)).2, value_key, value_key a, fval_le]
        exact k1
      · rw [← (hex hi (hsm hi hhi.1)).2, value_key, value_key (ofInt _), fval_le]
        exact k2) hf
    (by
      refine le_trans hnear ?_
      have h1 : |mean l| * (1 / 2 ^ 52) ≤ meanAbs l * error l.length := by
        refine mul_le_mul (abs_mean_le l) ?_ (by positivity) (meanAbs_nonneg l)
        unfold error
        have : (0 : ℚ) ≤ l.length / 2 ^ 63 := by positivity
        norm_num at *
        linarith
      have h2 : (0 : ℚ) < 1 / 2 ^ 1074 := by positivity
      rw [mul_comm (error _)]
      generalize (1 : ℚ) / 2 ^ 1074 = w at *
      linarith)
  refine ⟨r, g1, g2, ?_, g3, fun _ => g4⟩
  rintro (h | h)
  · exact absurd (List.map_eq_nil_iff.1 h) hvne
  · exact absurd hall h

/-! ### Refused columns -/

/-- An infinity in the column: the training throws. -/
theorem C72_infinite {T : Type} [FloType T] [Lawful T] [Wider T F80] (withMean withStd : Bool)
    (col cap : Nat) (hcap : 0 < cap) (hcap64 : cap < 2 ^ 64) (batches : List (List T)) (hne : batches ≠ []) (hb : NoEmptyBatch batches)
    (maps : AnnotationMaps (FloAnnot T F80)) (hcol : col < maps.length)
    (hnone : getAnnotation FloAnnot.isStats maps col "StatisticalMetricsEstimator" = .ok none)
    (hinf : ∃ x ∈ batches.flatten.take cap, IsInf x) (X : Xf (StandardScaler F64) T T) :
    FeaturizerYields X (scaleComponents (floStat T) col cap) 2 (makeScaler withMean withStd col) batches maps (.error .runtimeError) :=
  scaler_error _ hne hb hcol (infinite_trained col cap hcap hcap64 batches hb maps hcol hnone hinf) X

/-- Whether the training of a scaler fails, by computation. -/
def refuses (k : StatInput ι V S) (xs : List ι) : Bool :=
  match statAll k (xs.filterMap k.get) ⟨none, 0, k.zero⟩ with
  | (.error _, _) => false
  | (.ok (), s) => match commit k s with
    | .error _ => false
    | .ok st => match (devLoop ((xs.filterMap k.get).map k.toD) ⟨Acc.start, st.average, 0⟩).1 with
      | .error .runtimeError => true
      | _ => false

theorem refused_of {k : StatInput ι V S} {xs : List ι} (h : refuses k xs = true) (withMean withStd : Bool) (col cap : Nat) (hcap : 0 < cap)
    (batches : List (List ι)) (hne : batches ≠ []) (hb : NoEmptyBatch batches) (hxs : batches.flatten.take cap = xs)
    (maps : AnnotationMaps (FloAnnot V S)) (hcol : col < maps.length)
    (hnone : getAnnotation FloAnnot.isStats maps col "StatisticalMetricsEstimator" = .ok none)
    (hnone' : getAnnotation FloAnnot.isDeviation maps col "StandardDeviationEstimator" = .ok none)
    (X : Xf (StandardScaler F64) ι ι) :
    FeaturizerYields X (scaleComponents k col cap) 2 (makeScaler withMean withStd col) batches maps (.error .runtimeError) := by
  have ht := trainEstimator_eq (statPolicy k FloAnnot.stats) (statsConfig col FloAnnot.isStats) cap hcap ⟨none, 0, k.zero⟩ batches hb maps
    hcol (fun _ => hnone)
  unfold refuses at h
  have hbegin : (statPolicy k (FloAnnot.stats (V := V) (S := S))).begin (maps.getD col []) ⟨none, 0, k.zero⟩ = (.ok true, ⟨none, 0, k.zero⟩) := rfl
  simp only [publishes, statsConfig, if_true, hbegin, fitAll_eq, hxs] at ht
  generalize statAll k (xs.filterMap k.get) ⟨none, 0, k.zero⟩ = r at h ht
  obtain ⟨_ | u, s⟩ := r
  · cases h
  simp only [statPolicy] at ht
  simp only at h
  generalize commit k s = c at h ht
  obtain _ | st := c
  · cases h
  simp only [Except.map] at ht
  simp only at h
  generalize hdl : devLoop ((xs.filterMap k.get).map k.toD) ⟨Acc.start, st.average, 0⟩ = q at h
  obtain ⟨e | u, s'⟩ := q
  swap
  · cases h
  have he : e = .runtimeError := by
    cases e <;> first | rfl | cases h
  subst he
  have hok := (addAnnotation_ok maps (FloAnnot.stats st) col "StatisticalMetricsEstimator" hcol)
  obtain ⟨maps₁, hm1⟩ : ∃ m, m = (addAnnotation (some (FloAnnot.stats st)) col "StatisticalMetricsEstimator" maps).2 := ⟨_, rfl⟩
  have hg1 : getAnnotation FloAnnot.isStats maps₁ col "StatisticalMetricsEstimator" = .ok (some (.stats st)) := by
    rw [hm1]
    exact getAnnotation_add_self maps _ col _ _ rfl hnone
  have hg2 : getAnnotation FloAnnot.isDeviation maps₁ col "StandardDeviationEstimator" = .ok none := by
    rw [hm1, getAnnotation_add_other maps _ col _ _ _ (by simp)]
    exact hnone'
  rw [← hm1] at hok
  have hcol1 : col < maps₁.length := by rw [hok.2]; exact hcol
  have ht2 := trainEstimator_eq (devPolicy k) (devConfig col FloAnnot.isDeviation) cap hcap ⟨Acc.start, zero false, 0⟩ batches hb
    maps₁ hcol1 (fun _ => hg2)
  have hbegin : (devPolicy k).begin (maps₁.getD col []) ⟨Acc.start, zero false, 0⟩ = (.ok true, ⟨Acc.start, st.average, 0⟩) := by
    simp only [devPolicy]
    rw [averageOf_of hcol1 hg1]
  simp only [publishes, devConfig, if_true, hbegin, devFit_all, hxs, hdl] at ht2
  exact featurizer_two X (c₀ := statComponent k col cap)
    (c₁ := ⟨devPolicy k, devConfig col FloAnnot.isDeviation, cap, ⟨Acc.start, zero false, 0⟩⟩)
    (makeScaler withMean withStd col) batches hne hb maps hcol hcol _ _ (ht.trans hok.1) _ maps₁ (fun _ => ht2)

/-- The numbers 0.1, 2.7 and 1.4. -/
def tenths : List F64 := [div (ofInt 1) (ofInt 10), div (ofInt 27) (ofInt 10), div (ofInt 14) (ofInt 10)]

theorem tenths_refused : refuses (floStat F64) tenths = true := by decide +kernel

/-- **C72** does not hold for all columns of moderate numbers: 0.1, 2.7, 1.4 (each rounded to the nearest `double`) is refused, because
the computed average differs from 1.4 by one unit in the last place, and the square of that is negligible. -/
theorem C72_refuted (withMean withStd : Bool) (col : Nat) (maps : AnnotationMaps (FloAnnot F64 F80)) (hcol : col < maps.length)
    (hnone : getAnnotation FloAnnot.isStats maps col "StatisticalMetricsEstimator" = .ok none)
    (hnone' : getAnnotation FloAnnot.isDeviation maps col "StandardDeviationEstimator" = .ok none) :
    ∃ x y z : F64, Rounded (1 / 10) x ∧ Rounded (27 / 10) y ∧ Rounded (14 / 10) z ∧ ∀ X : Xf (StandardScaler F64) F64 F64,
      FeaturizerYields X (scaleComponents (floStat F64) col 1000) 2 (makeScaler withMean withStd col) [[x, y, z]] maps
        (.error .runtimeError) := by
  have hten : Finite (ofInt 10 : F64) ∧ value (ofInt 10 : F64) = 10 := by
    have := ofInt_exact (T := F64) (z := 10) (by decide +kernel)
    exact ⟨this.1, by rw [this.2]; norm_num⟩
  have hr : ∀ z : Int, z.natAbs ≤ 2 * 2 ^ (fmt F64).frac → Rounded ((z : ℚ) / 10) (div (ofInt z) (ofInt 10) : F64) := by
    intro z hz
    have h1 := ofInt_exact (T := F64) hz
    have := div_rounded h1.1 hten.1 (by rw [hten.2]; norm_num)
    rwa [h1.2, hten.2] at this
  refine ⟨_, _, _, hr 1 (by decide +kernel) |> fun h => by simpa using h, hr 27 (by decide +kernel) |> fun h => by simpa using h,
    hr 14 (by decide +kernel) |> fun h => by simpa using h, fun X => ?_⟩
  exact refused_of tenths_refused withMean withStd col 1000 (by decide) _ (by simp) (by intro b hb; simp at hb; simp [hb]) rfl maps hcol
    hnone hnone' X

/-! ### The hypotheses hold -/

theorem example_mean : mean [3, -4] = -1 / 2 ∧ meanAbs [3, -4] = 7 / 2 ∧ squares [3, -4] = 49 / 2 := by
  have h1 : mean [3, -4] = -1 / 2 := by norm_num [mean]
  refine ⟨h1, by norm_num [meanAbs, sumAbs], ?_⟩
  unfold squares
  rw [h1]
  norm_num

theorem example_apart : Apart [3, -4] := by
  right
  intro q hq
  rw [example_mean.1, example_mean.2.1, example_mean.2.2]
  have hp : (1 : ℚ) / 2 ^ 1000 ≤ 7 / 2 := by
    refine le_trans ?_ (show (1 : ℚ) ≤ 7 / 2 by norm_num)
    rw [div_le_one (by positivity)]
    exact one_le_pow₀ (by norm_num)
  simp only [List.mem_cons, List.not_mem_nil, or_false] at hq
  have e1 : |(3 : ℚ) - -1 / 2| = 7 / 2 := by rw [abs_of_pos] <;> norm_num
  have e2 : |(-4 : ℚ) - -1 / 2| = 7 / 2 := by rw [abs_of_neg] <;> norm_num
  rcases hq with rfl | rfl
  · rw [e1]
    exact ⟨by norm_num, by norm_num [error], hp⟩
  · rw [e2]
    exact ⟨by norm_num, by norm_num [error], hp⟩

theorem example_moderate : ∀ q ∈ ([3, -4] : List ℚ), |q| ≤ 2 ^ 1020 := by
  intro q hq
  have h1 : (4 : ℚ) ≤ 2 ^ 1020 := by
    rw [show (4 : ℚ) = 2 ^ 2 by norm_num]
    exact pow_le_pow_right₀ (by norm_num) (by norm_num)
  generalize (2 : ℚ) ^ 1020 = A at *
  simp only [List.mem_cons, List.not_mem_nil, or_false] at hq
  rcases hq with rfl | rfl
  · rw [abs_of_pos (by norm_num)]; linarith
  · rw [abs_of_neg (by norm_num)]; linarith

/-- The column `3, NaN, -4` is not refused. -/
example : ∃ t : StandardScaler F64, ∃ m s, (∀ X : Xf (StandardScaler F64) F64 F64,
      FeaturizerYields X (scaleComponents (floStat F64) 0 9) 2 (makeScaler true true 0) [[ofInt 3, nan], [ofInt (-4)]] [[]] (.ok t)) ∧
    CentreAndScale true true [3, -4] m s ∧ ScalesBy m s (fun x : F64 => ¬ IsInf x) floNumber (execScaler (floStat F64) t) := by
  obtain ⟨r, h1, _, _, h2, h3, _⟩ := C72_float_partial .double true true 0 9 (by decide) [[ofInt 3, nan], [ofInt (-4)]] (by simp)
    (by intro b hb; simp at hb; rcases hb with rfl | rfl <;> simp) [[]] (by simp) rfl rfl example_finite [3, -4] example_numbers.symm
    (by norm_num) example_moderate
  obtain ⟨t, rfl⟩ := h3 (by simp) (by norm_num) example_negligible example_apart
  obtain ⟨m, s, h4, h5⟩ := h2 t rfl
  exact ⟨t, m, s, h1, h4, h5.1⟩

example (X : Xf (StandardScaler F64) F64 F64) :
    FeaturizerYields X (scaleComponents (floStat F64) 0 9) 2 (makeScaler true true 0) [[ofInt 3, infinity true]] [[]] (.error .runtimeError) :=
  C72_infinite true true 0 9 (by decide) (by decide) _ (by simp) (by intro b hb; simp at hb; simp [hb]) [[]] (by simp) rfl
    ⟨infinity true, by simp, by rw [← isInf_iff]; decide +kernel⟩ X

example : ∃ t : StandardScaler F64, ∃ m s, (∀ X : Xf (StandardScaler F64) Int32 Int32,
      FeaturizerYields X (scaleComponents (intStat Int32 some) 0 9) 2 (makeScaler true true 0) [[3], [-4]] [[]] (.ok t)) ∧
    CentreAndScale true true [3, -4] m s := by
  obtain ⟨r, h1, _, _, h2, h3⟩ := C72_integers_partial (V := Int32) some true true 0 9 (by decide) [[3], [-4]] (by simp)
    (by intro b hb; simp at hb; rcases hb with rfl | rfl <;> simp) [[]] (by simp) rfl rfl [3, -4] (by rfl)
    (by norm_num) (by decide) [3, -4] (by simp)
  obtain ⟨t, rfl⟩ := h3 ⟨by simp, by
    intro p hp
    rw [List.prefix_iff_eq_take.1 hp]
    generalize p.length = n
    match n with
    | 0 => simp
    | 1 => simp
    | n + 2 => simp⟩ example_apart
  obtain ⟨m, s, h4, h5⟩ := h2 t rfl
  exact ⟨t, m, s, h1, h4⟩

end Feat.FloatStats
