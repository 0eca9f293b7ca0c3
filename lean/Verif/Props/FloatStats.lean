import Verif.Proofs.IntStats
import Verif.Props.FloatNorms
/-
C71: the mean, minimum and maximum imputers in floating point arithmetic.
-/
namespace Feat.FloatStats
open FloatText FloatArith FloatNorms FloatScalers
variable {ι V S τ : Type}

/-! ### From the training to the featurizer -/

theorem featurizer_error {k : StatInput ι V S} {col cap : Nat} (mk : AnnotationMaps (FloAnnot V S) → Except Err τ)
    {batches : List (List ι)} (hne : batches ≠ []) (hb : NoEmptyBatch batches) {maps : AnnotationMaps (FloAnnot V S)}
    (hcol : col < maps.length) {e : Err}
    (ht : trainEstimator (statPolicy k FloAnnot.stats) (statsConfig col FloAnnot.isStats) cap ⟨none, 0, k.zero⟩ batches maps
      = (.error e, maps)) (X : Xf τ ι ι) :
    FeaturizerYields X (fun _ => statComponent k col cap) 1 mk batches maps (.error e) :=
  featurizer_one X (statComponent k col cap) mk batches hne hb maps hcol _ _ ht

theorem featurizer_stats {k : StatInput ι V S} {col cap : Nat} (mk : AnnotationMaps (FloAnnot V S) → Except Err τ)
    {batches : List (List ι)} (hne : batches ≠ []) (hb : NoEmptyBatch batches) {maps : AnnotationMaps (FloAnnot V S)}
    (hcol : col < maps.length) (hnone : getAnnotation FloAnnot.isStats maps col "StatisticalMetricsEstimator" = .ok none)
    {st : FloStats V S} {r : Except Err τ}
    (hmk : ∀ maps', getAnnotation FloAnnot.isStats maps' col "StatisticalMetricsEstimator" = .ok (some (.stats st)) → mk maps' = r)
    (ht : trainEstimator (statPolicy k FloAnnot.stats) (statsConfig col FloAnnot.isStats) cap ⟨none, 0, k.zero⟩ batches maps
      = addAnnotation (some (.stats st)) col "StatisticalMetricsEstimator" maps) (X : Xf τ ι ι) :
    FeaturizerYields X (fun _ => statComponent k col cap) 1 mk batches maps r := by
  have h := featurizer_one X (statComponent k col cap) mk batches hne hb maps hcol _ _
    (ht.trans (addAnnotation_ok maps _ col _ hcol).1)
  simp only [Except.bind] at h
  rw [hmk _ (getAnnotation_add_self maps _ col _ _ rfl hnone)] at h
  exact h

theorem makeMean_of {col : Nat} {maps : AnnotationMaps (FloAnnot V S)} {st : FloStats V S}
    (h : getAnnotation FloAnnot.isStats maps col "StatisticalMetricsEstimator" = .ok (some (.stats st))) :
    makeMean col maps = .ok st.average := by
  unfold makeMean
  rw [getAnnotationData_of h]

theorem makeExtreme_of {useMin : Bool} {col : Nat} {maps : AnnotationMaps (FloAnnot V S)} {st : FloStats V S}
    (h : getAnnotation FloAnnot.isStats maps col "StatisticalMetricsEstimator" = .ok (some (.stats st))) :
    makeExtreme useMin col maps = .ok (if useMin then st.min else st.max) := by
  unfold makeExtreme
  rw [getAnnotationData_of h]

/-! ### Floating point columns -/

/-- The floating point types, and the number of values up to which averages are certain to be in range: so many times a value is
always a `long double`. -/
inductive Column : (T : Type) → [FloType T] → Nat → Prop
  | float : Column F32 (2 ^ 40)
  | double : Column F64 (2 ^ 11)

theorem float_mean {T : Type} [FloType T] [Lawful T] [Wider T F80]
    (hD : ∀ x : T, Finite x → Finite (FloatArith.cast x : F64) ∧ value (FloatArith.cast x : F64) = value x)
    (N : Nat) (hN : N * (2 * 2 ^ (fmt T).frac) ≤ 2 * 2 ^ (fmt F80).frac)
    (col cap : Nat) (hcap : 0 < cap) (batches : List (List T)) (hne : batches ≠ []) (hb : NoEmptyBatch batches)
    (maps : AnnotationMaps (FloAnnot T F80)) (hcol : col < maps.length)
    (hnone : getAnnotation FloAnnot.isStats maps col "StatisticalMetricsEstimator" = .ok none)
    (hx : ∀ x ∈ batches.flatten.take cap, ¬ IsInf x)
    (l : List ℚ) (hl : l = numbers floNumber (batches.flatten.take cap)) (hlen : l.length ≤ 2 ^ 60) :
    ∃ r : Except Err F64,
      (∀ X : Xf F64 T T, FeaturizerYields X (fun _ => statComponent (floStat T) col cap) 1 (makeMean col) batches maps r) ∧
      (r = .error .runtimeError ∨ r = .error .invalidArgument ∨ ∃ a, r = .ok a) ∧
      (l = [] → r = .error .runtimeError) ∧
      (∀ a, r = .ok a → Within l a ∧ NearMean (l.length / 2 ^ 63 + 1 / 2 ^ 52) l a) ∧
      (l ≠ [] → l.length ≤ N → NoneNegligible (l.map fun q => |q|) → ∃ a, r = .ok a) ∧
      (l.length ≤ N → r ≠ .error .invalidArgument) := by
  rcases float_trained hD N hN col cap hcap batches hb maps hcol hnone hx l hl hlen with
    ⟨e, ht, he, h0, h1, h2⟩ | ⟨st, ht, hlne, _, _, _, _, _, _, _, hw, hnm⟩
  · refine ⟨.error e, featurizer_error _ hne hb hcol ht, ?_, fun h => by rw [h0 h], fun a h => by simp at h,
      fun h hle hnn => absurd hnn (h2 h hle), fun hle h => h1 hle (by simpa using h)⟩
    rcases he with rfl | rfl <;> simp
  · refine ⟨.ok st.average, featurizer_stats _ hne hb hcol hnone (fun maps' h => makeMean_of h) ht, .inr (.inr ⟨_, rfl⟩),
      fun h => absurd h hlne, fun a h => ?_, fun _ _ _ => ⟨_, rfl⟩, fun _ => by simp⟩
    simp only [Except.ok.injEq] at h
    subst h
    exact ⟨hw, hnm⟩

/-- `double` columns without infinities. The training ends with `runtime_error`, with `invalid_argument` or with an average that is
between the least and the greatest value and near the exact one; with up to `2^11` values the only reason for an exception is a value
that is negligible beside the others, or that there is no value. -/
theorem C71_double_partial (col cap : Nat) (hcap : 0 < cap) (batches : List (List F64)) (hne : batches ≠ []) (hb : NoEmptyBatch batches)
    (maps : AnnotationMaps (FloAnnot F64 F80)) (hcol : col < maps.length)
    (hnone : getAnnotation FloAnnot.isStats maps col "StatisticalMetricsEstimator" = .ok none)
    (hx : ∀ x ∈ batches.flatten.take cap, ¬ IsInf x)
    (l : List ℚ) (hl : l = numbers floNumber (batches.flatten.take cap)) (hlen : l.length ≤ 2 ^ 60) :
    ∃ r : Except Err F64,
      (∀ X : Xf F64 F64 F64, FeaturizerYields X (fun _ => statComponent (floStat F64) col cap) 1 (makeMean col) batches maps r) ∧
      (r = .error .runtimeError ∨ r = .error .invalidArgument ∨ ∃ a, r = .ok a) ∧
      (l = [] → r = .error .runtimeError) ∧
      (∀ a, r = .ok a → Within l a ∧ NearMean (l.length / 2 ^ 63 + 1 / 2 ^ 52) l a) ∧
      (l ≠ [] → l.length ≤ 2 ^ 11 → NoneNegligible (l.map fun q => |q|) → ∃ a, r = .ok a) ∧
      (l.length ≤ 2 ^ 11 → r ≠ .error .invalidArgument) :=
  float_mean (fun _ h => cast_self h) (2 ^ 11) (by decide +kernel) col cap hcap batches hne hb maps hcol hnone hx l hl hlen

/-- `float` columns: up to `2^40` values. -/
theorem C71_float_partial (col cap : Nat) (hcap : 0 < cap) (batches : List (List F32)) (hne : batches ≠ []) (hb : NoEmptyBatch batches)
    (maps : AnnotationMaps (FloAnnot F32 F80)) (hcol : col < maps.length)
    (hnone : getAnnotation FloAnnot.isStats maps col "StatisticalMetricsEstimator" = .ok none)
    (hx : ∀ x ∈ batches.flatten.take cap, ¬ IsInf x)
    (l : List ℚ) (hl : l = numbers floNumber (batches.flatten.take cap)) (hlen : l.length ≤ 2 ^ 60) :
    ∃ r : Except Err F64,
      (∀ X : Xf F64 F32 F32, FeaturizerYields X (fun _ => statComponent (floStat F32) col cap) 1 (makeMean col) batches maps r) ∧
      (r = .error .runtimeError ∨ r = .error .invalidArgument ∨ ∃ a, r = .ok a) ∧
      (l = [] → r = .error .runtimeError) ∧
      (∀ a, r = .ok a → Within l a ∧ NearMean (l.length / 2 ^ 63 + 1 / 2 ^ 52) l a) ∧
      (l ≠ [] → l.length ≤ 2 ^ 40 → NoneNegligible (l.map fun q => |q|) → ∃ a, r = .ok a) ∧
      (l.length ≤ 2 ^ 40 → r ≠ .error .invalidArgument) :=
  float_mean (fun _ h => cast_exact h) (2 ^ 40) (by decide +kernel) col cap hcap batches hne hb maps hcol hnone hx l hl hlen

/-- The minimum and maximum imputers: the result is exact, but there are the same exceptions. -/
theorem C71_extreme_partial {T : Type} [FloType T] [Lawful T] [Wider T F80] {N : Nat} (hT : Column T N) (useMin : Bool)
    (col cap : Nat) (hcap : 0 < cap) (batches : List (List T)) (hne : batches ≠ []) (hb : NoEmptyBatch batches)
    (maps : AnnotationMaps (FloAnnot T F80)) (hcol : col < maps.length)
    (hnone : getAnnotation FloAnnot.isStats maps col "StatisticalMetricsEstimator" = .ok none)
    (hx : ∀ x ∈ batches.flatten.take cap, ¬ IsInf x)
    (l : List ℚ) (hl : l = numbers floNumber (batches.flatten.take cap)) (hlen : l.length ≤ 2 ^ 60) :
    ∃ r : Except Err T,
      (∀ X : Xf T T T, FeaturizerYields X (fun _ => statComponent (floStat T) col cap) 1 (makeExtreme useMin col) batches maps r) ∧
      (r = .error .runtimeError ∨ r = .error .invalidArgument ∨ ∃ a, r = .ok a) ∧
      (l = [] → r = .error .runtimeError) ∧
      (∀ a, r = .ok a → Finite a ∧ value a ∈ l ∧ ∀ q ∈ l, if useMin then value a ≤ q else q ≤ value a) ∧
      (l ≠ [] → l.length ≤ N → NoneNegligible (l.map fun q => |q|) → ∃ a, r = .ok a) ∧
      (l.length ≤ N → r ≠ .error .invalidArgument) := by
  have hD : ∀ x : T, Finite x → Finite (FloatArith.cast x : F64) ∧ value (FloatArith.cast x : F64) = value x := by
    cases hT with
    | float => exact fun _ h => cast_exact h
    | double => exact fun _ h => cast_self h
  have hN : N * (2 * 2 ^ (fmt T).frac) ≤ 2 * 2 ^ (fmt F80).frac := by
    cases hT with
    | float => decide +kernel
    | double => decide +kernel
  rcases float_trained hD N hN col cap hcap batches hb maps hcol hnone hx l hl hlen with
    ⟨e, ht, he, h0, h1, h2⟩ | ⟨st, ht, hlne, _, f1, m1, m2, f2, m3, m4, _, _⟩
  · refine ⟨.error e, featurizer_error _ hne hb hcol ht, ?_, fun h => by rw [h0 h], fun a h => by simp at h,
      fun h hle hnn => absurd hnn (h2 h hle), fun hle h => h1 hle (by simpa using h)⟩
    rcases he with rfl | rfl <;> simp
  · refine ⟨.ok (if useMin then st.min else st.max), featurizer_stats _ hne hb hcol hnone (fun maps' h => makeExtreme_of h) ht,
      .inr (.inr ⟨_, rfl⟩), fun h => absurd h hlne, fun a h => ?_, fun _ _ _ => ⟨_, rfl⟩, fun _ => by simp⟩
    simp only [Except.ok.injEq] at h
    subst h
    cases useMin
    · exact ⟨f2, m3, m4⟩
    · exact ⟨f1, m1, m2⟩

theorem infinite_trained_of {α T : Type} [FloType T] [Lawful T] [Wider T F80] (wrap : FloStats T F80 → α) (kind : α → Bool)
    (col cap : Nat) (hcap : 0 < cap) (hcap64 : cap < 2 ^ 64) (batches : List (List T)) (hb : NoEmptyBatch batches)
    (maps : AnnotationMaps α) (hcol : col < maps.length)
    (hnone : getAnnotation kind maps col "StatisticalMetricsEstimator" = .ok none)
    (hinf : ∃ x ∈ batches.flatten.take cap, IsInf x) :
    trainEstimator (statPolicy (floStat T) wrap) (statsConfig col kind) cap ⟨none, 0, (floStat T).zero⟩ batches maps
      = (.error .runtimeError, maps) := by
  have hget : ∀ x v, (floStat T).get x = some v → v = x ∧ isNaN x = false := by
    intro x v h
    simp only [floStat] at h
    cases hn : isNaN x
    · rw [hn] at h
      simp only [Bool.false_eq_true, if_false, Option.some.injEq] at h
      exact ⟨h.symm, rfl⟩
    · rw [hn] at h
      simp at h
  have hlen : ((batches.flatten.take cap).filterMap (floStat T).get).length < 2 ^ 64 := by
    have h1 := List.length_filterMap_le (floStat T).get (batches.flatten.take cap)
    have h2 := List.length_take_le cap batches.flatten
    omega
  obtain ⟨b, hb'⟩ := total_inf ((batches.flatten.take cap).filterMap (floStat T).get) (by
      intro v hv
      obtain ⟨x, _, hx⟩ := List.mem_filterMap.1 hv
      obtain ⟨rfl, h⟩ := hget x v hx
      exact h) (by
      obtain ⟨x, hm, hi⟩ := hinf
      refine ⟨x, List.mem_filterMap.2 ⟨x, hm, ?_⟩, hi⟩
      have := isNaN_of_inf ((isInf_iff x).2 hi)
      simp only [floStat, this]
      rfl) (floStat T).zero (finite_zero (T := F80) false)
  have ht := trainEstimator_run (statPolicy (floStat T) wrap) (fun _ _ => rfl)
    (statsConfig col kind) cap hcap ⟨none, 0, (floStat T).zero⟩ batches hb maps hcol rfl hnone
  rw [fitAll_eq] at ht
  obtain ⟨st, hst⟩ := (statAll_eq (floStat T) _ ⟨none, 0, (floStat T).zero⟩ (by simpa using hlen)).1 _ _ hb'
  rw [hst] at ht
  exact ht

theorem infinite_trained {T : Type} [FloType T] [Lawful T] [Wider T F80]
    (col cap : Nat) (hcap : 0 < cap) (hcap64 : cap < 2 ^ 64) (batches : List (List T)) (hb : NoEmptyBatch batches)
    (maps : AnnotationMaps (FloAnnot T F80)) (hcol : col < maps.length)
    (hnone : getAnnotation FloAnnot.isStats maps col "StatisticalMetricsEstimator" = .ok none)
    (hinf : ∃ x ∈ batches.flatten.take cap, IsInf x) :
    trainEstimator (statPolicy (floStat T) FloAnnot.stats) (statsConfig col FloAnnot.isStats) cap ⟨none, 0, (floStat T).zero⟩ batches maps
      = (.error .runtimeError, maps) :=
  infinite_trained_of _ _ col cap hcap hcap64 batches hb maps hcol hnone hinf

/-- An infinity in the column: the training throws, whatever is made of the statistics. -/
theorem C71_infinite {T : Type} [FloType T] [Lawful T] [Wider T F80] (mk : AnnotationMaps (FloAnnot T F80) → Except Err τ)
    (col cap : Nat) (hcap : 0 < cap) (hcap64 : cap < 2 ^ 64) (batches : List (List T)) (hne : batches ≠ []) (hb : NoEmptyBatch batches)
    (maps : AnnotationMaps (FloAnnot T F80)) (hcol : col < maps.length)
    (hnone : getAnnotation FloAnnot.isStats maps col "StatisticalMetricsEstimator" = .ok none)
    (hinf : ∃ x ∈ batches.flatten.take cap, IsInf x) (X : Xf τ T T) :
    FeaturizerYields X (fun _ => statComponent (floStat T) col cap) 1 mk batches maps (.error .runtimeError) :=
  featurizer_error mk hne hb hcol (infinite_trained col cap hcap hcap64 batches hb maps hcol hnone hinf) X

/-- What the mean imputer does with its inputs. -/
theorem C71_impute {T : Type} [FloType T] [Lawful T] [Wider T F80] {N : Nat} (hT : Column T N) (a : F64) (x : T) :
    (IsNaN x → execMean (floStat T) a x = a) ∧
    (Finite x → Finite (execMean (floStat T) a x) ∧ value (execMean (floStat T) a x) = value x) := by
  constructor
  · intro h
    rw [← isNaN_iff] at h
    simp only [execMean, floStat, h, if_true]
  · intro h
    simp only [execMean, floStat, Finite.not_nan h, Bool.false_eq_true, if_false]
    cases hT with
    | float => exact cast_exact h
    | double => exact cast_self h

/-! ### Integer columns -/

/-- Integer columns, of the values of a type or of optional values, that fit `int64_t`. -/
theorem C71_integers_partial [CInt V] (get : ι → Option V)
    (col cap : Nat) (hcap : 0 < cap) (batches : List (List ι)) (hne : batches ≠ []) (hb : NoEmptyBatch batches)
    (maps : AnnotationMaps (FloAnnot V Int)) (hcol : col < maps.length)
    (hnone : getAnnotation FloAnnot.isStats maps col "StatisticalMetricsEstimator" = .ok none)
    (zs : List Int) (hzs : zs = ((batches.flatten.take cap).filterMap get).map CInt.toInt) (hlen : zs.length ≤ 2 ^ 60)
    (hv : ∀ z ∈ zs, -2 ^ 63 ≤ z ∧ z < 2 ^ 63) :
    ((zs = [] ∨ ¬ ∀ p, p <+: zs → -2 ^ 63 ≤ p.sum ∧ p.sum < 2 ^ 63) → ∀ X : Xf F64 ι ι,
      FeaturizerYields X (fun _ => statComponent (intStat V get) col cap) 1 (makeMean col) batches maps (.error .runtimeError)) ∧
    ((zs ≠ [] ∧ ∀ p, p <+: zs → -2 ^ 63 ≤ p.sum ∧ p.sum < 2 ^ 63) → ∃ a : F64,
      (∀ X : Xf F64 ι ι, FeaturizerYields X (fun _ => statComponent (intStat V get) col cap) 1 (makeMean col) batches maps (.ok a)) ∧
      Finite a ∧ |value a - mean (zs.map fun z : Int => (z : ℚ))| ≤ |mean (zs.map fun z : Int => (z : ℚ))| * (1 / 2 ^ 52) ∧
      ((∀ z ∈ zs, z.natAbs ≤ 2 ^ 53) → Within (zs.map fun z : Int => (z : ℚ)) a)) := by
  obtain ⟨vs, hvs⟩ : ∃ vs, vs = (batches.flatten.take cap).filterMap (intStat V get).get := ⟨_, rfl⟩
  have hzs' : zs = vs.map CInt.toInt := by rw [hzs, hvs]; rfl
  clear hzs
  subst hzs'
  rw [List.length_map] at hlen
  have hfit : ∀ v ∈ vs, Fits (CInt.toInt v) := fun v hm => hv _ (List.mem_map.2 ⟨v, hm, rfl⟩)
  have L : StatLawful (intStat V get) (fun _ => True) (fun x => (CInt.toInt x : ℚ)) := by
    refine ⟨fun x y _ _ => ?_⟩
    simp only [intStat]
    rw [decide_eq_true_iff, Int.cast_lt]
  obtain ⟨t1, t2, t3⟩ := stat_trained L col cap hcap batches hb maps hcol hnone vs hvs (by omega) (fun _ _ => trivial)
  obtain ⟨r1, r2⟩ := total_int get vs 0 (by unfold Fits; decide) hfit
  have hpre : (∀ p, p <+: vs → Fits (0 + (p.map CInt.toInt).sum)) ↔
      ∀ p, p <+: vs.map CInt.toInt → -2 ^ 63 ≤ p.sum ∧ p.sum < 2 ^ 63 := by
    constructor
    · intro h p hp
      rw [List.prefix_iff_eq_take.1 hp, ← List.map_take]
      have := h (vs.take p.length) (List.take_prefix _ _)
      rwa [zero_add] at this
    · intro h p hp
      rw [zero_add]
      exact h _ (hp.map _)
  rw [hpre] at r1 r2
  constructor
  · intro h
    by_cases hall : ∀ p, p <+: vs.map CInt.toInt → -2 ^ 63 ≤ p.sum ∧ p.sum < 2 ^ 63
    · have he : vs = [] := by
        rcases h with h | h
        · simpa using h
        · exact absurd hall h
      exact featurizer_error _ hne hb hcol (t2 _ (r1 hall) he)
    · obtain ⟨t, ht⟩ := r2 hall
      exact featurizer_error _ hne hb hcol (t1 _ _ ht)
  · rintro ⟨hzne, hall⟩
    have hvne : vs ≠ [] := by simpa using hzne
    obtain ⟨lo, hi, hlo, hhi, ht⟩ := t3 _ (r1 hall) hvne
    rw [zero_add] at ht
    obtain ⟨a, hc, hf, hnear, k1, k2⟩ := commit_int get hvne hlen hlo hhi hfit rfl (by
      have := hpre.2 hall vs (List.prefix_refl _)
      rwa [zero_add] at this)
    rw [hc] at ht
    rw [List.map_map]
    refine ⟨a, featurizer_stats (makeMean col) hne hb hcol hnone (fun maps' h => makeMean_of h) ht, hf, hnear, ?_⟩
    intro hsmall
    have hex : ∀ v ∈ vs, value (ofInt (CInt.toInt v) : F64) = CInt.toInt v := fun v hm =>
      (ofInt_exact (hsmall _ (List.mem_map.2 ⟨v, hm, rfl⟩))).2
    refine ⟨⟨CInt.toInt lo, List.mem_map.2 ⟨lo, hlo.1, rfl⟩, ?_⟩, CInt.toInt hi, List.mem_map.2 ⟨hi, hhi.1, rfl⟩, ?_⟩
    · rw [← hex lo hlo.1, value_key, value_key a, fval_le]
      exact k1
    · rw [← hex hi hhi.1, value_key, value_key (ofInt _), fval_le]
      exact k2

/-- What the mean imputer does with integers: the nearest `double`. -/
theorem C71_impute_integers [CInt V] (get : ι → Option V) (a : F64) (x : ι) :
    (get x = none → execMean (intStat V get) a x = a) ∧
    (∀ v, get x = some v → Rounded (CInt.toInt v : ℚ) (execMean (intStat V get) a x)) := by
  constructor
  · intro h
    simp only [execMean, intStat, h]
  · intro v h
    simp only [execMean, intStat, h]
    exact ofInt_rounded _

/-! ### Refused columns -/

/-- In the middle between two numbers the even one is taken. -/
theorem rnd_middle {F : Fmt} (h : F.Good) {q : ℚ} (hq : 0 ≤ q) {m : Nat} (hm : m % 2 = 0) (h0 : 0 < m)
    (ht : 2 * (q * 2 ^ F.scale) = F.mag (m - 1) + F.mag m) : rnd F q = (min m F.inf : Nat) := by
  refine rnd_of_near h hq fun m' => ⟨?_, fun _ _ => hm⟩
  have h1 : (F.mag (m - 1) : ℚ) ≤ F.mag m := by exact_mod_cast (Fmt.mag_mono F).monotone (show _ ≤ _ by omega)
  rw [abs_of_nonneg (by linarith)]
  rcases Nat.lt_or_ge m' m with hlt | hge
  · have h2 : (F.mag m' : ℚ) ≤ F.mag (m - 1) := by exact_mod_cast (Fmt.mag_mono F).monotone (show _ ≤ _ by omega)
    rw [abs_of_nonpos (by linarith)]
    linarith
  · have h2 : (F.mag m : ℚ) ≤ F.mag m' := by exact_mod_cast (Fmt.mag_mono F).monotone hge
    rw [abs_of_nonneg (by linarith)]
    linarith

theorem total_append {k : StatInput ι V S} (xs ys : List V) : ∀ {s t : S}, total k xs s = (.ok (), t) →
    total k (xs ++ ys) s = total k ys t := by
  induction xs with
  | nil =>
    intro s t h
    simp only [total, Prod.mk.injEq, true_and] at h
    rw [h]; rfl
  | cons x xs ih =>
    intro s t h
    simp only [total, List.cons_append] at h ⊢
    generalize k.step s x = r at h ⊢
    obtain ⟨_ | u, s'⟩ := r
    · cases h
    · exact ih h

/-- `2^53 - 1`. -/
theorem value_top : Finite (ofInt (2 ^ 53 - 1) : F64) ∧ value (ofInt (2 ^ 53 - 1) : F64) = 2 ^ 53 - 1 := by
  have h := ofInt_exact (T := F64) (z := 2 ^ 53 - 1) (by decide +kernel)
  exact ⟨h.1, by rw [h.2]; norm_num⟩

/-- Where the sums round up. -/
theorem add_top {a : F80} (ha : Finite a) {j : Nat} (hj : j < 2048) (hv : value a = 2 ^ 64 + j * 2 ^ 53 - 2048) :
    Finite (add a (FloatArith.cast (ofInt (2 ^ 53 - 1) : F64))) ∧
    value (add a (FloatArith.cast (ofInt (2 ^ 53 - 1) : F64))) = 2 ^ 64 + (j + 1 : Nat) * 2 ^ 53 - 2048 := by
  obtain ⟨hf, hM⟩ := value_top
  obtain ⟨hcf, hcv⟩ := cast_exact (S := F64) (T := F80) hf
  have hk := key_add ha hcf
  rw [hcv, hM, hv] at hk
  obtain ⟨k, hkd⟩ : ∃ k, k = 2 ^ 63 + (j + 1) * 2 ^ 52 - 1024 := ⟨_, rfl⟩
  have hkq : (k : ℚ) = 2 ^ 63 + (j + 1) * 2 ^ 52 - 1024 := by
    rw [hkd, Nat.cast_sub (by omega)]
    push_cast
    ring
  have hP : 2 ^ (fmt F80).frac = 2 ^ 63 := rfl
  have hm1 : (fmt F80).mag (((fmt F80).scale + 1) * 2 ^ (fmt F80).frac + k) = k * 2 ^ ((fmt F80).scale + 1) :=
    Fmt.mag_line (fmt F80) _ _ (by rw [hP]; omega) (.inr (by rw [hP]; omega))
  have hm2 : (fmt F80).mag (((fmt F80).scale + 1) * 2 ^ (fmt F80).frac + k - 1) = (k - 1) * 2 ^ ((fmt F80).scale + 1) := by
    rw [Nat.add_sub_assoc (by omega)]
    exact Fmt.mag_line (fmt F80) _ _ (by rw [hP]; omega) (.inr (by rw [hP]; omega))
  have hlt : ((fmt F80).scale + 1) * 2 ^ (fmt F80).frac + k < (fmt F80).inf := by
    rw [show (fmt F80).scale = 16445 from rfl, show (fmt F80).inf = 32767 * 2 ^ 63 by decide +kernel, hP]
    omega
  have hr := rnd_middle (Lawful.good (T := F80)) (q := 2 ^ 64 + (j : ℚ) * 2 ^ 53 - 2048 + (2 ^ 53 - 1))
    (by have : (0 : ℚ) ≤ j := Nat.cast_nonneg j
        norm_num
        linarith)
    (m := ((fmt F80).scale + 1) * 2 ^ (fmt F80).frac + k) (by rw [hP, hkd]; omega) (by omega) (by
      rw [hm1, hm2]
      push_cast [Nat.cast_sub (show 1 ≤ k by omega)]
      rw [hkq, pow_succ]
      ring)
  rw [hr, Nat.min_eq_left hlt.le] at hk
  have hfin : Finite (add a (FloatArith.cast (ofInt (2 ^ 53 - 1) : F64))) := by
    rw [finite_key, hk, Int.natAbs_natCast]; exact hlt
  refine ⟨hfin, ?_⟩
  rw [value_key, hk, fval_nat, hm1]
  push_cast
  rw [pow_succ, ← mul_assoc, mul_right_comm, mul_div_assoc, div_self (by positivity), hkq]
  ring

/-- The sum of up to 4096 copies. -/
theorem total_top (j : Nat) (hj : j ≤ 2048) : ∃ s, total (floStat F64) (List.replicate (2048 + j) (ofInt (2 ^ 53 - 1)))
    (FloatArith.zero false) = (.ok (), s) ∧ Finite s ∧ value s = 2 ^ 64 + j * 2 ^ 53 - 2048 := by
  obtain ⟨hf, hM⟩ := value_top
  induction j with
  | zero =>
    have hlen : (List.replicate (2048 + 0) (ofInt (2 ^ 53 - 1) : F64)).length = 2048 := List.length_replicate
    have hmem : ∀ v ∈ List.replicate (2048 + 0) (ofInt (2 ^ 53 - 1) : F64), v = ofInt (2 ^ 53 - 1) := fun v h => List.eq_of_mem_replicate h
    obtain ⟨L, hL⟩ : ∃ L, L = List.replicate (2048 + 0) (ofInt (2 ^ 53 - 1) : F64) := ⟨_, rfl⟩
    have hsum : sumAbs (L.map value) = 2048 * (2 ^ 53 - 1) := by
      rw [hL, List.map_replicate, hM, sumAbs, List.map_replicate, List.sum_replicate, abs_of_pos (by norm_num)]
      norm_num
    rw [← hL] at hlen hmem ⊢
    rcases total_near (2048 * (2 ^ 53 - 1)) (by
        have := long_large
        refine lt_of_le_of_lt ?_ this
        have h5 : (2 : ℚ) ^ 100 ≤ 2 ^ 5000 := pow_le_pow_right₀ (by norm_num) (by norm_num)
        generalize (2 : ℚ) ^ 5000 = P at h5 ⊢
        norm_num at h5 ⊢
        linarith) L (FloatArith.zero false) 0 0 0 (finite_zero _) (by simp) (by simp [value_zero]) (fun v h => by rw [hmem v h]; exact hf)
        (by rw [hsum]; norm_num) (by rw [hlen]; norm_num) with ⟨b, -, v, hv, h0, h1⟩ | ⟨b, hb, hbf, -⟩
    · rw [hmem v hv, hM] at h1
      norm_num at h1
    · obtain ⟨-, h1, h2⟩ := total_between hf hf L _ b 0 (finite_zero _) (by rw [hlen]; decide +kernel)
        (fun v h => by rw [hmem v h]; exact ⟨hf, le_refl _, le_refl _⟩) (by simp [value_zero]) (by simp [value_zero]) hb
      refine ⟨b, hb, hbf, ?_⟩
      rw [hlen, hM] at h1 h2
      push_cast at h1 h2
      norm_num at h1 h2 ⊢
      linarith
  | succ j ih =>
    obtain ⟨s, hs, hsf, hsv⟩ := ih (by omega)
    obtain ⟨h1, h2⟩ := add_top hsf (by omega) hsv
    refine ⟨_, ?_, h1, h2⟩
    rw [← add_assoc, List.replicate_succ', total_append _ _ hs]
    have hstep : (floStat F64).step s (ofInt (2 ^ 53 - 1)) = (.ok (), add s (FloatArith.cast (ofInt (2 ^ 53 - 1) : F64))) := by
      simp only [floStat]
      have hne : eq (add s (FloatArith.cast (ofInt (2 ^ 53 - 1) : F64))) s = false := by
        rw [← Bool.not_eq_true, eq_iff h1 hsf, h2, hsv]
        push_cast
        intro h
        linarith
      rw [hne, Finite.not_inf h1]
      rfl
    simp only [total, hstep]

/-- The average of 4096 copies. -/
theorem commit_top {x : F64} (hf : Finite x) (hM : value x = 2 ^ 53 - 1) {s : F80} (hsf : Finite s) (hsv : value s = 2 ^ 65 - 2048)
    {n : Nat} (hlen : n = 4096) : commit (floStat F64) ⟨some (x, x), n, s⟩ = .error .invalidArgument := by
  obtain ⟨hnf, hnv⟩ := count_exact (n := n) (by omega)
  have hdk : key (div s (ofInt (n : Int))) = rnd (fmt F80) (2 ^ 53 - 1 / 2) := by
    rw [key_div hsf hnf (by rw [hnv, hlen]; norm_num), hnv, hsv, hlen]
    norm_num
  have hlong : fval (fmt F80) (rnd (fmt F80) (2 ^ 53 - 1 / 2)) = 2 ^ 53 - 1 / 2 ∧
      (rnd (fmt F80) (2 ^ 53 - 1 / 2)).natAbs < (fmt F80).inf := by
    have e : (2 ^ 53 - 1 / 2 : ℚ) = fval (fmt F80) ((fmt F80).nearest (2 ^ 54 - 1) 2 : Nat) := by
      rw [fval_nat, show (fmt F80).mag ((fmt F80).nearest (2 ^ 54 - 1) 2) = (2 ^ 54 - 1) * 2 ^ 16444 by decide +kernel,
        show (fmt F80).scale = 16445 by decide +kernel, show (2 : ℚ) ^ 16445 = 2 * 2 ^ 16444 from pow_succ' 2 16444]
      push_cast
      rw [mul_div_mul_right _ _ (by positivity)]
      norm_num
    rw [e, rnd_fval Lawful.good (by decide +kernel)]
    exact ⟨rfl, by decide +kernel⟩
  have hdf : Finite (div s (ofInt (n : Int))) := by rw [finite_key, hdk]; exact hlong.2
  have hdv : value (div s (ofInt (n : Int))) = 2 ^ 53 - 1 / 2 := by rw [value_key, hdk]; exact hlong.1
  have hak : key (FloatArith.cast (div s (ofInt (n : Int))) : F64) = rnd (fmt F64) (2 ^ 53) := by
    rw [key_cast hdf, hdv]
    decide +kernel
  have h53 : key (ofInt (2 ^ 53) : F64) = rnd (fmt F64) (2 ^ 53) := by
    rw [key_ofInt]; norm_num
  obtain ⟨h53f, h53v⟩ := ofInt_exact (T := F64) (z := 2 ^ 53) (by decide +kernel)
  have haf : Finite (FloatArith.cast (div s (ofInt (n : Int))) : F64) := by
    rw [finite_key, hak, ← h53, ← finite_key]; exact h53f
  have hav : value (FloatArith.cast (div s (ofInt (n : Int))) : F64) = 2 ^ 53 := by
    rw [value_key, hak, ← h53, ← value_key, h53v]; norm_num
  obtain ⟨hcf, hcv⟩ := cast_self hf
  obtain ⟨hlf, hlv⟩ := cast_exact (S := F64) (T := F80) finite_largest
  have h1 : FloatArith.lt x x = false := by
    rw [← Bool.not_eq_true, lt_iff hf hf]; exact lt_irrefl _
  have h2 : FloatArith.lt (FloatArith.cast (largest : F64) : F80) (div s (ofInt (n : Int))) = false := by
    rw [← Bool.not_eq_true, lt_iff hlf hdf, hlv, hdv, not_lt]
    have := value_le_largest h53f
    rw [h53v] at this
    norm_num at this ⊢
    linarith
  have h3 : FloatArith.lt (FloatArith.cast x : F64) (FloatArith.cast (div s (ofInt (n : Int)))) = true := by
    rw [lt_iff hcf haf, hcv, hav, hM]
    norm_num
  unfold commit
  rw [if_neg (by show ¬ n = 0; omega)]
  have h4 : ¬ (floStat F64).lt x x = true := ne_true_of_eq_false h1
  have h5 : ¬ (floStat F64).overflow s n = true := by
    simp only [floStat, h2]
    exact Bool.false_ne_true
  have h6 : FloatArith.lt ((floStat F64).toD x) ((floStat F64).average s n) = true := h3
  simp only [if_neg h4, if_neg h5, h6, Bool.true_or, if_true]

/-- What is wanted is that the training accepts a column of equal numbers. Instead it throws `invalid_argument` for a column of 4096
times the number `2^53 - 1`, because the computed average is `2^53`. -/
theorem C71_average_refuted (mk : AnnotationMaps (FloAnnot F64 F80) → Except Err τ) (col : Nat) (maps : AnnotationMaps (FloAnnot F64 F80))
    (hcol : col < maps.length)
    (hnone : getAnnotation FloAnnot.isStats maps col "StatisticalMetricsEstimator" = .ok none) (X : Xf τ F64 F64) :
    Finite (ofInt (2 ^ 53 - 1) : F64) ∧ value (ofInt (2 ^ 53 - 1) : F64) = 2 ^ 53 - 1 ∧
    FeaturizerYields X (fun _ => statComponent (floStat F64) col 4096) 1 mk [List.replicate 4096 (ofInt (2 ^ 53 - 1))] maps
      (.error .invalidArgument) := by
  obtain ⟨hf, hM⟩ := value_top
  refine ⟨hf, hM, ?_⟩
  have hb : NoEmptyBatch [List.replicate 4096 (ofInt (2 ^ 53 - 1) : F64)] := by
    intro b hb
    rw [List.mem_singleton] at hb
    rw [hb]
    intro h
    have := congrArg List.length h
    rw [List.length_replicate] at this
    cases this
  obtain ⟨L, hL⟩ : ∃ L, L = List.replicate 4096 (ofInt (2 ^ 53 - 1) : F64) := ⟨_, rfl⟩
  have hlen : L.length = 4096 := by rw [hL, List.length_replicate]
  have hmem : ∀ v ∈ L, v = ofInt (2 ^ 53 - 1) := fun v h => List.eq_of_mem_replicate (hL ▸ h)
  have hne : L ≠ [] := by intro h; rw [h] at hlen; simp at hlen
  have hget : L.filterMap (floStat F64).get = L := by
    have : ∀ xs : List F64, (∀ v ∈ xs, v = ofInt (2 ^ 53 - 1)) → xs.filterMap (floStat F64).get = xs := by
      intro xs
      induction xs with
      | nil => intro _; rfl
      | cons x xs ih =>
        intro h
        have hx := h x (by simp)
        rw [List.filterMap_cons_some (b := x), ih fun v hv => h v (by simp [hv])]
        rw [hx]
        simp only [floStat, Finite.not_nan hf]
        rfl
    exact this L hmem
  obtain ⟨s, hs, hsf, hsv⟩ := total_top 2048 (le_refl _)
  rw [← hL] at hb ⊢
  rw [show 2048 + 2048 = 4096 from rfl, ← hL] at hs
  obtain ⟨-, -, t3⟩ := stat_trained (flo_lawful (T := F64)) col 4096 (by norm_num) [L] hb maps hcol hnone L (by
      rw [List.flatten_cons, List.flatten_nil, List.append_nil, List.take_of_length_le (by omega), hget]) (by omega)
    (fun v h => by rw [hmem v h]; exact hf)
  obtain ⟨lo, hi, hlo, hhi, ht⟩ := t3 _ hs hne
  refine featurizer_error mk (by simp) hb hcol ?_ X
  rw [ht]
  have elo := hmem lo hlo.1
  have ehi := hmem hi hhi.1
  rw [← elo] at hf hM
  rw [← elo] at ehi
  subst ehi
  rw [commit_top hf hM hsf (by rw [hsv]; norm_num) hlen]

/-- A number that is not zero but at most `2^-65` times the number before it, at the beginning of a column: the training throws
`runtime_error`, whatever is made of the statistics. -/
theorem C71_absorbed_refuted {T : Type} [FloType T] [Lawful T] [Wider T F80] (mk : AnnotationMaps (FloAnnot T F80) → Except Err τ)
    {x y : T} (hx : Finite x) (hy : Finite y) (hy0 : 0 < value y) (hxy : value y ≤ value x / 2 ^ 65)
    (col cap : Nat) (hcap : 2 ≤ cap) (hcap64 : cap < 2 ^ 64) (batch : List T) (batches : List (List T)) (hb : NoEmptyBatch batches)
    (maps : AnnotationMaps (FloAnnot T F80)) (hcol : col < maps.length)
    (hnone : getAnnotation FloAnnot.isStats maps col "StatisticalMetricsEstimator" = .ok none) (X : Xf τ T T) :
    FeaturizerYields X (fun _ => statComponent (floStat T) col cap) 1 mk ((x :: y :: batch) :: batches) maps
      (.error .runtimeError) := by
  obtain ⟨hxf, hxv⟩ := cast_exact (S := T) (T := F80) hx
  obtain ⟨hyf, hyv⟩ := cast_exact (S := T) (T := F80) hy
  have hx0 : 0 < value x := by
    by_contra h
    have := div_nonpos_of_nonpos_of_nonneg (not_lt.1 h) (show (0 : ℚ) ≤ 2 ^ 65 by positivity)
    linarith
  have hk : key (add (FloatArith.zero false : F80) (FloatArith.cast x)) = key (FloatArith.cast x : F80) := by
    rw [key_add (finite_zero _) hxf, value_zero, zero_add, rnd_value hxf]
  have hzf : Finite (add (FloatArith.zero false : F80) (FloatArith.cast x)) := by rw [finite_key, hk, ← finite_key]; exact hxf
  have hzv : value (add (FloatArith.zero false : F80) (FloatArith.cast x)) = value x := by rw [value_key, hk, ← value_key, hxv]
  obtain ⟨a, ha⟩ : ∃ a, a = add (FloatArith.zero false : F80) (FloatArith.cast x) := ⟨_, rfl⟩
  have hka := add_absorbs (a := a) (d := (FloatArith.cast y : F80)) (ha ▸ hzf) hyf (by rw [hyv]; exact hy0.le)
    (by rw [ha, hzv, hyv]; exact hxy)
  rw [← ha] at hzf hzv
  have haf : Finite (add a (FloatArith.cast y : F80)) := by rw [finite_key, hka, ← finite_key]; exact hzf
  have e1 : (floStat T).step (FloatArith.zero false) x = (.ok (), a) := by
    have hne : eq a (FloatArith.zero false) = false := by
      rw [← Bool.not_eq_true, eq_iff hzf (finite_zero _), hzv, value_zero]
      exact hx0.ne'
    simp only [floStat]
    rw [← ha, hne, Finite.not_inf hzf]
    rfl
  have e2 : (floStat T).step a y = (.error .runtimeError, a) := by
    have heq : eq (add a (FloatArith.cast y)) a = true := by
      rw [eq_iff haf hzf, value_key, hka, ← value_key]
    have hne : eq y (FloatArith.zero false) = false := by
      rw [← Bool.not_eq_true, eq_iff hy (finite_zero _), value_zero]
      exact hy0.ne'
    simp only [floStat]
    rw [heq, hne]
    rfl
  have hb' : NoEmptyBatch ((x :: y :: batch) :: batches) := by
    intro b h
    rw [List.mem_cons] at h
    rcases h with rfl | h
    · simp
    · exact hb b h
  obtain ⟨c, rfl⟩ : ∃ c, cap = c + 2 := ⟨cap - 2, by omega⟩
  have hget : ∀ z : T, Finite z → (floStat T).get z = some z := by
    intro z hz
    simp only [floStat, Finite.not_nan hz]
    rfl
  obtain ⟨vs, hvs⟩ : ∃ vs, vs = (((x :: y :: batch) :: batches).flatten.take (c + 2)).filterMap (floStat T).get := ⟨_, rfl⟩
  have hlen : vs.length < 2 ^ 64 := by
    rw [hvs]
    have h1 := List.length_filterMap_le (floStat T).get (((x :: y :: batch) :: batches).flatten.take (c + 2))
    have h2 := List.length_take_le (c + 2) ((x :: y :: batch) :: batches).flatten
    omega
  have ht := trainEstimator_run (statPolicy (floStat T) FloAnnot.stats) (fun _ _ => rfl)
    (statsConfig col FloAnnot.isStats) (c + 2) (by omega) ⟨none, 0, (floStat T).zero⟩ _ hb' maps hcol rfl hnone
  rw [fitAll_eq, ← hvs] at ht
  obtain ⟨st, hst⟩ := (statAll_eq (floStat T) vs ⟨none, 0, (floStat T).zero⟩ (by simpa using hlen)).1 .runtimeError a (by
    rw [hvs, List.flatten_cons, List.cons_append, List.cons_append, List.take_succ_cons, List.take_succ_cons,
      List.filterMap_cons_some (hget x hx), List.filterMap_cons_some (hget y hy)]
    show total (floStat T) _ (FloatArith.zero false) = _
    simp only [total, e1, e2])
  rw [hst] at ht
  exact featurizer_error mk (by simp) hb' hcol ht X

/-! ### The hypotheses hold -/

theorem floNumber_finite {T : Type} [FloType T] [Lawful T] {x : T} (hx : Finite x) : floNumber x = some (value x) := by
  unfold floNumber
  rw [if_neg]
  intro h
  have : isNaN x = true := (isNaN_iff x).2 h
  rw [Finite.not_nan hx] at this
  cases this

/-- `3, NaN, -4`. -/
theorem example_numbers : numbers floNumber ([[ofInt 3, nan], [ofInt (-4)]].flatten.take 9 : List F64) = [3, -4] := by
  have h3 := ofInt_exact (T := F64) (z := 3) (by decide +kernel)
  have h4 := ofInt_exact (T := F64) (z := -4) (by decide +kernel)
  have hnan : floNumber (nan : F64) = none := floNumber_none.2 (by decide +kernel)
  have e : ([[ofInt 3, nan], [ofInt (-4)]].flatten.take 9 : List F64) = [ofInt 3, nan, ofInt (-4)] := rfl
  rw [e]
  simp [numbers, floNumber_finite h3.1, floNumber_finite h4.1, hnan, h3.2, h4.2]

theorem example_finite : ∀ x ∈ ([[ofInt 3, nan], [ofInt (-4)]].flatten.take 9 : List F64), ¬ IsInf x := by
  intro x hx
  have e : ([[ofInt 3, nan], [ofInt (-4)]].flatten.take 9 : List F64) = [ofInt 3, nan, ofInt (-4)] := rfl
  rw [e] at hx
  rw [← isInf_iff]
  simp only [List.mem_cons, List.not_mem_nil, or_false] at hx
  rcases hx with rfl | rfl | rfl <;> decide +kernel

theorem example_negligible : NoneNegligible (([3, -4] : List ℚ).map fun q => |q|) := by
  refine ⟨by norm_num, ?_⟩
  intro q hq
  simp at hq
  rcases hq with rfl | rfl <;> (right; norm_num [sumAbs])

example : ∃ a : F64, (∀ X : Xf F64 F64 F64, FeaturizerYields X (fun _ => statComponent (floStat F64) 0 9) 1 (makeMean 0)
      [[ofInt 3, nan], [ofInt (-4)]] [[]] (.ok a)) ∧
    Within [3, -4] a ∧ NearMean (2 / 2 ^ 63 + 1 / 2 ^ 52) [3, -4] a := by
  obtain ⟨r, h1, _, _, h2, h3, _⟩ := C71_double_partial 0 9 (by decide) [[ofInt 3, nan], [ofInt (-4)]] (by simp)
    (by intro b hb; simp at hb; rcases hb with rfl | rfl <;> simp) [[]] (by simp) rfl example_finite _ rfl (by
      rw [example_numbers]; norm_num)
  rw [example_numbers] at h2 h3
  obtain ⟨a, rfl⟩ := h3 (by simp) (by norm_num) example_negligible
  exact ⟨a, h1, h2 a rfl⟩

example : ∃ a : F64, (∀ X : Xf F64 F64 F64, FeaturizerYields X (fun _ => statComponent (floStat F64) 0 9) 1 (makeExtreme true 0)
      [[ofInt 3, nan], [ofInt (-4)]] [[]] (.ok a)) ∧ value a = -4 := by
  obtain ⟨r, h1, _, _, h2, h3, _⟩ := C71_extreme_partial .double true 0 9 (by decide) [[ofInt 3, nan], [ofInt (-4)]] (by simp)
    (by intro b hb; simp at hb; rcases hb with rfl | rfl <;> simp) [[]] (by simp) rfl example_finite _ rfl (by
      rw [example_numbers]; norm_num)
  rw [example_numbers] at h2 h3
  obtain ⟨a, rfl⟩ := h3 (by simp) (by norm_num) example_negligible
  obtain ⟨_, h4, h5⟩ := h2 a rfl
  refine ⟨a, h1, ?_⟩
  have := h5 (-4) (by simp)
  simp at h4 this
  rcases h4 with h4 | h4
  · rw [h4] at this; norm_num at this
  · exact h4

example (X : Xf F64 F64 F64) : FeaturizerYields X (fun _ => statComponent (floStat F64) 0 9) 1 (makeMean 0)
    [[ofInt 3, infinity true]] [[]] (.error .runtimeError) :=
  C71_infinite (makeMean 0) 0 9 (by decide) (by decide) _ (by simp) (by intro b hb; simp at hb; simp [hb]) [[]] (by simp) rfl
    ⟨infinity true, by simp, by rw [← isInf_iff]; decide +kernel⟩ X

/-- The minimum imputer refuses the column `2^65, 1`. -/
example (X : Xf F64 F64 F64) : FeaturizerYields X (fun _ => statComponent (floStat F64) 0 9) 1 (makeExtreme true 0)
    [[ofInt (2 ^ 65), ofInt 1]] [[]] (.error .runtimeError) :=
  C71_absorbed_refuted (makeExtreme true 0) value_big.1 FloatScalers.value_one.1 (by rw [FloatScalers.value_one.2]; norm_num)
    (by rw [FloatScalers.value_one.2, value_big.2]; norm_num) 0 9 (by decide) (by decide) [] [] (by intro b hb; simp at hb) [[]]
    (by simp) rfl X

example (X : Xf F64 F64 F64) : FeaturizerYields X (fun _ => statComponent (floStat F64) 0 4096) 1 (makeMean 0)
    [List.replicate 4096 (ofInt (2 ^ 53 - 1))] [[]] (.error .invalidArgument) :=
  (C71_average_refuted (makeMean 0) 0 [[]] (by simp) rfl X).2.2

example : ∃ a : F64, (∀ X : Xf F64 (Option Int8) (Option Int8), FeaturizerYields X
      (fun _ => statComponent (intStat Int8 id) 0 9) 1 (makeMean 0) [[some 3, none], [some (-4)]] [[]] (.ok a)) ∧
    |value a - mean [3, -4]| ≤ |mean [3, -4]| * (1 / 2 ^ 52) ∧ Within [3, -4] a := by
  have e : (([[some 3, none], [some (-4)]].flatten.take 9).filterMap id).map (CInt.toInt (T := Int8)) = [3, -4] := by decide
  obtain ⟨-, h⟩ := C71_integers_partial (V := Int8) id 0 9 (by decide) [[some 3, none], [some (-4)]] (by simp)
    (by intro b hb; simp at hb; rcases hb with rfl | rfl <;> simp) [[]] (by simp) rfl [3, -4] e.symm (by simp)
    (by intro z hz; simp at hz; rcases hz with rfl | rfl <;> norm_num)
  obtain ⟨a, h1, _, h2, h3⟩ := h ⟨by simp, by
    intro p hp
    rw [List.prefix_iff_eq_take] at hp
    have : p.length = 0 ∨ p.length = 1 ∨ 2 ≤ p.length := by omega
    rcases this with h | h | h
    · rw [h] at hp; rw [hp]; norm_num
    · rw [h] at hp; rw [hp]; norm_num
    · rw [List.take_of_length_le (by simpa using h)] at hp; rw [hp]; norm_num⟩
  have h4 := h3 (by intro z hz; simp at hz; rcases hz with rfl | rfl <;> norm_num)
  norm_num at h2 h4 ⊢
  exact ⟨a, h1, h2, h4⟩

end Feat.FloatStats
