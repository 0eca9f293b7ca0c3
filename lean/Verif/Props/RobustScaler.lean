import Verif.Props.Scalers
/-
C27 robust scaling.
-/
namespace Feat
variable {V F T α : Type}

/-- **C27** (robust scaling: the quantile range) The constructor accepts exactly: no range at all, or two limits
within [0, 100] in order; everything else is rejected with `invalid_argument`. -/
theorem C27_quantile_range [Field F] [LinearOrder F] [IsStrictOrderedRing F] (qMin qMax : Option F) :
    (qMin = none ∧ qMax = none → checkRange qMin qMax = .ok none) ∧
    (∀ a b, qMin = some a → qMax = some b → 0 ≤ a → a ≤ b → b ≤ 100 →
      checkRange qMin qMax = .ok (some (a, b))) ∧
    (¬ (qMin = none ∧ qMax = none) →
      (¬ ∃ a b, qMin = some a ∧ qMax = some b ∧ 0 ≤ a ∧ a ≤ b ∧ b ≤ 100) →
      checkRange qMin qMax = .error .invalidArgument) := by
  refine ⟨?_, ?_, ?_⟩
  · rintro ⟨rfl, rfl⟩
    simp [checkRange]
  · rintro a b rfl rfl h1 h2 h3
    have ha : ¬ a < 0 := not_lt.2 h1
    have ha' : ¬ 100 < a := not_lt.2 (le_trans h2 h3)
    have hb : ¬ b < 0 := not_lt.2 (le_trans h1 h2)
    have hb' : ¬ 100 < b := not_lt.2 h3
    simp [checkRange, ha, ha', hb, hb', not_lt.2 h2]
  · intro hn hall
    match qMin, qMax with
    | none, none => exact absurd ⟨rfl, rfl⟩ hn
    | some a, none => by_cases h : a < 0 ∨ 100 < a <;> simp [checkRange, h]
    | none, some b => by_cases h : b < 0 ∨ 100 < b <;> simp [checkRange, h]
    | some a, some b =>
      unfold checkRange
      by_cases h1 : a < 0 ∨ 100 < a
      · simp [h1]
      · by_cases h2 : b < 0 ∨ 100 < b
        · simp [h2]
        · by_cases h3 : b < a
          · simp [h3]
          · simp only [not_or, not_lt] at h1 h2 h3
            exact absurd ⟨a, b, rfl, rfl, h1.1, h3, h2.2⟩ hall

/-- What robust scaling of the values means: subtract `m`, the median of the values (0 without centering), then
divide by `w`, the given part of the range of the values (1 without a range), unless that is zero. -/
def RobustScaled [LinearOrder V] [Field F] [LinearOrder F] (toF : V → F) (centering : Bool)
    (range : Option (F × F)) (values : List V) (f : F → FVal F) : Prop :=
  ∃ m w : F,
    (centering = true → IsMedian true (fun a b => (a + b) / 2) (values.map toF) m) ∧
    (centering = false → m = 0) ∧
    (range = none → w = 1) ∧
    (∀ a b, range = some (a, b) → ∃ lo ∈ values, ∃ hi ∈ values, (∀ v ∈ values, lo ≤ v ∧ v ≤ hi) ∧
      w = (toF hi - toF lo) * ((b - a) / 100)) ∧
    ∀ x, (w ≠ 0 → f x = .num ((x - m) / w)) ∧ (w = 0 → f x = .num (x - m))

private theorem filterMap_toF (val : T → V) (toF : V → F) (xs : List (Option T)) :
    xs.filterMap (fun x => x.map fun x => toF (val x)) = (xs.filterMap (fun x => x.map val)).map toF := by
  induction xs with
  | nil => rfl
  | cons x xs ih => cases x <;> simp [ih]

private theorem robust_trained [LinearOrder V] [Add V] [Zero V] [Field F] [LinearOrder F] [IsStrictOrderedRing F]
    (k : SumKind V F) (val : T → V) (widthSub : V → V → Except Err F) (centering : Bool)
    (range : Option (F × F)) (col cap : Nat) (hcap : 0 < cap) (batches : List (List (Option T)))
    (hne : batches ≠ []) (hb : NoEmptyBatch batches) (maps : AnnotationMaps (NumAnnot V F))
    (hcol : col < maps.length)
    (hnone : getAnnotation NumAnnot.isMedian maps col "MedianEstimator" = .ok none)
    (hnone' : getAnnotation NumAnnot.isStats maps col "StatisticalMetricsEstimator" = .ok none)
    (hvalues : (batches.flatten.take cap).filterMap (fun x => x.map val) ≠ [])
    (hstats : ∀ maps : AnnotationMaps (NumAnnot V F), col < maps.length →
      getAnnotation NumAnnot.isStats maps col "StatisticalMetricsEstimator" = .ok none → ∃ r maps',
      trainEstimator (statsPolicy k val .stats) (statsConfig col NumAnnot.isStats) cap (StatsState.new k)
        batches maps = (.ok (), maps') ∧
      getAnnotation NumAnnot.isStats maps' col "StatisticalMetricsEstimator" = .ok (some (.stats r)) ∧
      IsStats k.toF ((batches.flatten.take cap).filterMap (fun x => x.map val)) r)
    (hwidth : ∀ a b, a ∈ (batches.flatten.take cap).filterMap (fun x => x.map val) →
      b ∈ (batches.flatten.take cap).filterMap (fun x => x.map val) → a ≤ b → range ≠ none →
      widthSub b a = .ok (k.toF b - k.toF a)) :
    ∃ t : RobustScaler F,
      (∀ X : Xf (RobustScaler F) (Option T) (Option T),
        FeaturizerYields X (robustComponents k val col cap) 2 (makeRobustScaler widthSub centering range col)
          batches maps (.ok t)) ∧
      RobustScaled k.toF centering range ((batches.flatten.take cap).filterMap (fun x => x.map val))
        (fun x => t.exec (some x)) ∧
      t.exec none = .nan := by
  have hmed := C22_median (fun x => k.toF (val x)) true (fun a b => (a + b) / 2) 0 (NumAnnot.median (V := V) (F := F))
    NumAnnot.isMedian (fun _ => rfl) col cap hcap batches hb maps hcol hnone
  simp only at hmed
  rw [filterMap_toF, if_neg (by simpa using hvalues)] at hmed
  obtain ⟨m, maps₁, ht1, hg1, hm⟩ := hmed
  have ho1 := trainEstimator_other _ _ cap hcap _ batches hb maps hcol hnone _ _ ht1
  obtain ⟨r, maps₂, ht2, hg2, hr⟩ := hstats maps₁ (by rw [ho1.1]; exact hcol)
    (by rw [← hnone']; exact ho1.2 _ _ (by simp [medianConfig]))
  have ho2 := trainEstimator_other _ (statsConfig col NumAnnot.isStats) cap hcap _ batches hb maps₁
    (by rw [ho1.1]; exact hcol) (by rw [← hnone']; exact ho1.2 _ _ (by simp [medianConfig, statsConfig])) _ _ ht2
  have hgm : getAnnotationData NumAnnot.isMedian maps₂ col "MedianEstimator" = .ok (.median m) := by
    apply getAnnotationData_of
    rw [← hg1]
    exact ho2.2 _ _ (by simp [statsConfig])
  have hmin : r.min ∈ (batches.flatten.take cap).filterMap (fun x => x.map val) := hr.min_mem
  have hscale : ∃ w, robustScale widthSub range col maps₂ = .ok w ∧ (range = none → w = 1) ∧
      ∀ a b, range = some (a, b) → w = (k.toF r.max - k.toF r.min) * ((b - a) / 100) := by
    rcases range with _ | ⟨a, b⟩
    · exact ⟨1, rfl, fun _ => rfl, by simp⟩
    · refine ⟨(k.toF r.max - k.toF r.min) * ((b - a) / 100), ?_, by simp, ?_⟩
      · simp only [robustScale]
        rw [getAnnotationData_of hg2]
        simp only
        rw [hwidth _ _ hr.min_mem hr.max_mem (hr.le_max _ hr.min_mem) (by simp)]
      · rintro a' b' h; cases h; rfl
  obtain ⟨w, hw, hw1, hw2⟩ := hscale
  refine ⟨⟨if centering then m else 0, w⟩, fun X => ?_, ?_, rfl⟩
  · have hy := featurizer_two X (mk := makeRobustScaler widthSub centering range col) (batches := batches)
      (hne := hne) (hb := hb) (maps := maps)
      (c₀ := ⟨medianPolicy (fun x => k.toF (val x)) true (fun a b => (a + b) / 2) 0 .median,
        medianConfig col NumAnnot.isMedian, cap, ⟨[], []⟩⟩)
      (c₁ := ⟨statsPolicy k val .stats, statsConfig col NumAnnot.isStats, cap, StatsState.new k⟩)
      hcol hcol _ _ ht1 _ _ (fun _ => ht2)
    have hmk : makeRobustScaler widthSub centering range col maps₂
        = .ok ⟨if centering then m else 0, w⟩ := by
      unfold makeRobustScaler
      rw [hgm, hw]
      cases centering <;> rfl
    simp only [Except.bind] at hy
    rw [hmk] at hy
    exact hy
  · refine ⟨if centering then m else 0, w, ?_, ?_, hw1, ?_, ?_⟩
    · intro hc; rw [if_pos hc]; exact hm
    · intro hc; rw [hc]; rfl
    · intro a b hab
      exact ⟨r.min, hr.min_mem, r.max, hr.max_mem, fun v hv => ⟨hr.min_le v hv, hr.le_max v hv⟩, hw2 a b hab⟩
    · intro x
      constructor
      · intro h; simp [RobustScaler.exec, h, fdiv]
      · intro h; simp [RobustScaler.exec, h]

/-- **C27** (robust scaling; part: integer inputs that fit `int64_t`, with running sums that fit `int64_t`, and — if a
range is requested for a type that is not promoted — a spread of at most the type's largest value; see
`C27_robust_int32`) A robust scaler trained through its public calls on any batches with at least one value
subtracts the median and divides by the requested part of the range, and never divides by zero. -/
theorem C27_robust_integers_partial [CInt T] [Field F] [LinearOrder F] [IsStrictOrderedRing F] (promotes : Bool)
    (hlo0 : CInt.lo T ≤ 0) (centering : Bool)
    (range : Option (F × F)) (col cap : Nat) (hcap : 0 < cap) (hcap64 : cap < 2 ^ 64)
    (batches : List (List (Option T)))
    (hne : batches ≠ []) (hb : NoEmptyBatch batches) (maps : AnnotationMaps (NumAnnot Int F))
    (hcol : col < maps.length)
    (hnone : getAnnotation NumAnnot.isMedian maps col "MedianEstimator" = .ok none)
    (hnone' : getAnnotation NumAnnot.isStats maps col "StatisticalMetricsEstimator" = .ok none)
    (hvalues : (batches.flatten.take cap).filterMap (fun x => x.map CInt.toInt) ≠ [])
    (hfit : ∀ v ∈ (batches.flatten.take cap).filterMap (fun x => x.map CInt.toInt), -2 ^ 63 ≤ v ∧ v < 2 ^ 63)
    (hsums : ∀ p, p <+: (batches.flatten.take cap).filterMap (fun x => x.map CInt.toInt) →
      -2 ^ 63 ≤ p.sum ∧ p.sum < 2 ^ 63)
    (hspread : promotes = false → ∀ a b,
      a ∈ (batches.flatten.take cap).filterMap (fun x => x.map CInt.toInt) →
      b ∈ (batches.flatten.take cap).filterMap (fun x => x.map CInt.toInt) → b - a ≤ CInt.hi T) :
    ∃ t : RobustScaler F,
      (∀ X : Xf (RobustScaler F) (Option T) (Option T),
        FeaturizerYields X (robustComponents intSum CInt.toInt col cap) 2
          (makeRobustScaler (promotedSub T promotes) centering range col) batches maps (.ok t)) ∧
      RobustScaled (fun v : Int => (v : F)) centering range
        ((batches.flatten.take cap).filterMap (fun x => x.map CInt.toInt)) (fun x => t.exec (some x)) ∧
      t.exec none = .nan :=
  robust_trained intSum CInt.toInt (promotedSub T promotes) centering range col cap hcap batches hne hb maps hcol
    hnone hnone' hvalues
    (fun maps hc hn => (C23_integers_partial CInt.toInt NumAnnot.stats NumAnnot.isStats (fun _ => rfl) col cap hcap
      hcap64 batches hb maps hc hn hfit).2 ⟨hvalues, hsums⟩)
    (by
      intro a b ha hb hab _
      unfold promotedSub
      cases hp : promotes with
      | true => simp [intSum]
      | false =>
        have hs := hspread hp a b ha hb
        simp only [Bool.false_eq_true, if_false, CInt.arith]
        rw [if_neg (by rintro ⟨_, h⟩; exact h ⟨by omega, by omega⟩)]
        simp only [Except.map, intSum]
        rw [CInt.toInt_ofInt _ (by omega) hs]
        simp)

/-- **C27** (robust scaling of floating point inputs, exact arithmetic) -/
theorem C27_robust_exact [Field F] [LinearOrder F] [IsStrictOrderedRing F] (centering : Bool)
    (range : Option (F × F)) (col cap : Nat) (hcap : 0 < cap) (hcap64 : cap < 2 ^ 64)
    (batches : List (List (Option F)))
    (hne : batches ≠ []) (hb : NoEmptyBatch batches) (maps : AnnotationMaps (NumAnnot F F))
    (hcol : col < maps.length)
    (hnone : getAnnotation NumAnnot.isMedian maps col "MedianEstimator" = .ok none)
    (hnone' : getAnnotation NumAnnot.isStats maps col "StatisticalMetricsEstimator" = .ok none)
    (hvalues : (batches.flatten.take cap).filterMap id ≠ []) :
    ∃ t : RobustScaler F,
      (∀ X : Xf (RobustScaler F) (Option F) (Option F),
        FeaturizerYields X (robustComponents exactSum id col cap) 2
          (makeRobustScaler (fun a b => .ok (a - b)) centering range col) batches maps (.ok t)) ∧
      RobustScaled id centering range ((batches.flatten.take cap).filterMap id) (fun x => t.exec (some x)) ∧
      t.exec none = .nan := by
  have hid : (fun x : Option F => x.map id) = id := by funext x; simp
  have h := robust_trained exactSum (id : F → F) (fun a b => .ok (a - b)) centering range col cap hcap batches hne hb
    maps hcol hnone hnone' (by rw [hid]; exact hvalues)
    (fun maps hc hn => (C23_exact (id : F → F) NumAnnot.stats NumAnnot.isStats (fun _ => rfl) col cap hcap
      hcap64 batches hb maps hc hn).2 (by rw [hid]; exact hvalues))
    (fun a b _ _ _ _ => rfl)
  rw [hid] at h
  exact h

/-- **C27** fails for `int32_t` (and `int64_t`): with a quantile range, computing the scale for values that spread over
more than the largest value is undefined behaviour. -/
theorem C27_robust_int32 (hi lo : Int) (h : 2147483647 < hi - lo) :
    promotedSub (F := Rat) Int32 false hi lo = .error .ub := by
  unfold promotedSub
  simp only [Bool.false_eq_true, if_false, CInt.arith]
  rw [if_pos ⟨rfl, fun hh => by
    have : hi - lo ≤ 2147483647 := hh.2
    omega⟩]
  rfl

/-- Without values, training throws `runtime_error`. -/
theorem C27_robust_no_values [LinearOrder V] [Field F] [LinearOrder F] [IsStrictOrderedRing F]
    (k : SumKind V F) (val : T → V) (widthSub : V → V → Except Err F) (centering : Bool)
    (range : Option (F × F)) (col cap : Nat) (hcap : 0 < cap) (batches : List (List (Option T)))
    (hne : batches ≠ []) (hb : NoEmptyBatch batches) (maps : AnnotationMaps (NumAnnot V F))
    (hcol : col < maps.length)
    (hnone : getAnnotation NumAnnot.isMedian maps col "MedianEstimator" = .ok none)
    (hvalues : (batches.flatten.take cap).filterMap (fun x => x.map val) = [])
    (X : Xf (RobustScaler F) (Option T) (Option T)) :
    FeaturizerYields X (robustComponents k val col cap) 2 (makeRobustScaler widthSub centering range col)
      batches maps (.error .runtimeError) := by
  have hmed := C22_median (fun x => k.toF (val x)) true (fun a b => (a + b) / 2) 0 (NumAnnot.median (V := V) (F := F))
    NumAnnot.isMedian (fun _ => rfl) col cap hcap batches hb maps hcol hnone
  simp only at hmed
  rw [filterMap_toF, if_pos (by simp [hvalues])] at hmed
  have hy := featurizer_two X (mk := makeRobustScaler widthSub centering range col) (batches := batches)
      (hne := hne) (hb := hb) (maps := maps)
      (c₀ := ⟨medianPolicy (fun x => k.toF (val x)) true (fun a b => (a + b) / 2) 0 .median,
        medianConfig col NumAnnot.isMedian, cap, ⟨[], []⟩⟩)
      (c₁ := ⟨statsPolicy k val .stats, statsConfig col NumAnnot.isStats, cap, StatsState.new k⟩)
      hcol hcol _ _ hmed (.ok ()) maps (fun h => by cases h)
  simp only [Except.bind] at hy
  exact hy

/-! Non-vacuity: 1, 2, 9 with centering and the quantile range 25–75: 4 is mapped to (4 − 2)/(8 · 1/2). -/
example : ∃ t : RobustScaler Rat, RobustScaled id true (some (25, 75)) [1, 9, 2] (fun x => t.exec (some x)) ∧
    t.exec (some 4) = .num (1 / 2) := by
  obtain ⟨t, _, h, _⟩ := C27_robust_exact (F := Rat) true (some (25, 75)) 0 9 (by decide) (by decide)
    [[some 1, none], [some 9, some 2]] (by simp)
    (by intro b hb; simp at hb; rcases hb with rfl | rfl <;> simp) [[]] (by simp) rfl rfl (by simp)
  have h : RobustScaled id true (some (25, 75)) [1, 9, 2] (fun x => t.exec (some x)) := h
  refine ⟨t, h, ?_⟩
  obtain ⟨m, w, h1, _, _, h2, h3⟩ := h
  have h4 : IsMedian true (fun a b : Rat => (a + b) / 2) [1, 9, 2] 2 :=
    ⟨[1, 2, 9], by decide +kernel, by decide +kernel, 2, 2, rfl, rfl, by norm_num⟩
  have hm := C22_unique true _ _ _ (List.Perm.refl _) m 2 (h1 rfl) h4
  obtain ⟨lo, hlo, hi, hhi, hbd, hw⟩ := h2 25 75 rfl
  have hlo1 : lo = 1 := le_antisymm (hbd 1 (by simp)).1 (by
    simp at hlo; rcases hlo with rfl | rfl | rfl <;> norm_num)
  have hhi1 : hi = 9 := le_antisymm (by
    simp at hhi; rcases hhi with rfl | rfl | rfl <;> norm_num) (hbd 9 (by simp)).2
  subst hm hlo1 hhi1
  have hw4 : w = 4 := by rw [hw]; norm_num
  have := (h3 4).1 (by rw [hw4]; norm_num)
  simp only at this
  rw [this, hw4]
  norm_num

end Feat
