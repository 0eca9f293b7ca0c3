import Verif.Props.RobustScaler
import Mathlib.Algebra.BigOperators.Group.List.Basic
import Mathlib.Analysis.Real.Sqrt
/-
C27 standard scaling.
-/
namespace Feat
variable {V F T α : Type}

/-- The average of a list of numbers. -/
def meanOf [Field F] (l : List F) : F := l.sum / (l.length : F)

/-- What standard scaling of the values means: `x ↦ (x − m)/s` with a positive `s`.  With centering, the scaled
values have sum (hence mean) zero; without, `m` is 0.  With deviation scaling, the scaled values have variance
1 unless all values are equal; in that case, and without deviation scaling, `s` is 1. -/
def StandardScaled [Field F] [LinearOrder F] (withMean withStd : Bool) (values : List F) (f : F → FVal F) :
    Prop :=
  ∃ m s : F, 0 < s ∧ (∀ x, f x = .num ((x - m) / s)) ∧
    (withMean = true → (values.map fun x => (x - m) / s).sum = 0) ∧
    (withMean = false → m = 0) ∧
    (withStd = true → (∃ v ∈ values, ∃ w ∈ values, v ≠ w) →
      let scaled := values.map fun x => (x - m) / s
      meanOf (scaled.map fun y => (y - meanOf scaled) ^ 2) = 1) ∧
    (withStd = true → (∀ v ∈ values, ∀ w ∈ values, v = w) → s = 1) ∧
    (withStd = false → s = 1)

private theorem dev_run [Field F] [LinearOrder F] (sqrt : F → F) (toF : T → F)
    (avg : List (String × List α) → Except Err F) (wrap : F → Nat → α) (m : F) (xs : List (Option T)) :
    ∀ s : DevState F, s.average = m → s.count + xs.length < 2 ^ 64 →
    (devPolicy sqrt toF avg wrap).fitAll xs s = (.ok (),
      ⟨s.squares + ((xs.filterMap (fun x => x.map toF)).map fun v => (v - m) ^ 2).sum,
        s.hasInput || !(xs.filterMap (fun x => x.map toF)).isEmpty, m,
        s.count + (xs.filterMap (fun x => x.map toF)).length⟩) := by
  induction xs with
  | nil => intro s hs _; obtain ⟨a, b, c, d⟩ := s; simp only at hs; subst hs; simp [Policy.fitAll]
  | cons x xs ih =>
    intro s hs hl
    simp only [List.length_cons] at hl
    cases x with
    | none =>
      simp only [Policy.fitAll, List.filterMap_cons, Option.map_none]
      exact ih s hs (by omega)
    | some x =>
      have hf : (devPolicy sqrt toF avg wrap).fit (some x) s
          = (.ok (), ⟨s.squares + |toF x - m| ^ 2, true, m, s.count + 1⟩) := by
        simp only [devPolicy]
        rw [if_neg (by omega), hs]
      simp only [Policy.fitAll, hf]
      rw [ih _ rfl (by simp only; omega)]
      simp only [List.filterMap_cons, Option.map_some, List.map_cons, List.sum_cons, List.length_cons,
        List.isEmpty_cons, Bool.not_false, Bool.or_true, Bool.true_or, sq_abs, Prod.mk.injEq, true_and,
        DevState.mk.injEq]
      exact ⟨by ring, by omega⟩

private theorem averageOf_eq (maps : AnnotationMaps (NumAnnot V F)) (col : Nat) (hcol : col < maps.length)
    (r : Stats V F)
    (h : getAnnotation NumAnnot.isStats maps col "StatisticalMetricsEstimator" = .ok (some (.stats r))) :
    averageOf (maps.getD col []) = .ok r.average := by
  unfold averageOf
  have h2 : getAnnotation NumAnnot.isStats [maps.getD col []] 0 "StatisticalMetricsEstimator"
      = getAnnotation NumAnnot.isStats maps col "StatisticalMetricsEstimator" := by
    unfold getAnnotation
    have : ¬ col ≥ maps.length := by omega
    simp [this]
  rw [getAnnotationData_of (h2.trans h)]

/-- `sqrt` behaves like a square root. -/
structure IsSqrt [Field F] [LinearOrder F] (sqrt : F → F) : Prop where
  nonneg : ∀ x, 0 ≤ sqrt x
  square : ∀ x, 0 ≤ x → sqrt x ^ 2 = x

private theorem sum_sq_nonneg [Field F] [LinearOrder F] [IsStrictOrderedRing F] (l : List F) (m : F) :
    0 ≤ (l.map fun v => (v - m) ^ 2).sum := by
  induction l with
  | nil => simp
  | cons a l ih => simp only [List.map_cons, List.sum_cons]; have := sq_nonneg (a - m); linarith

private theorem sum_sq_zero [Field F] [LinearOrder F] [IsStrictOrderedRing F] (l : List F) (m : F)
    (h : (l.map fun v => (v - m) ^ 2).sum = 0) : ∀ v ∈ l, v = m := by
  induction l with
  | nil => simp
  | cons a l ih =>
    simp only [List.map_cons, List.sum_cons] at h
    have h1 := sq_nonneg (a - m)
    have h2 := sum_sq_nonneg l m
    have h3 : (a - m) ^ 2 = 0 := by linarith
    have h4 : (l.map fun v => (v - m) ^ 2).sum = 0 := by linarith
    intro v hv
    rcases List.mem_cons.1 hv with rfl | hv
    · exact sub_eq_zero.1 (pow_eq_zero_iff (two_ne_zero) |>.1 h3)
    · exact ih h4 v hv

private theorem sum_shift [Field F] (l : List F) (m s : F) :
    (l.map fun x => (x - m) / s).sum = (l.sum - (l.length : F) * m) / s := by
  induction l with
  | nil => simp
  | cons a l ih =>
    simp only [List.map_cons, List.sum_cons, ih, List.length_cons, Nat.cast_add, Nat.cast_one]
    rw [← add_div]
    congr 1
    ring

private theorem sum_scale [Field F] (l : List F) (μ s : F) :
    (l.map fun x => ((x - μ) / s) ^ 2).sum = (l.map fun x => (x - μ) ^ 2).sum / s ^ 2 := by
  induction l with
  | nil => simp
  | cons a l ih =>
    simp only [List.map_cons, List.sum_cons, ih]
    rw [add_div, div_pow]

private theorem scaled_variance [Field F] [LinearOrder F] [IsStrictOrderedRing F] (values : List F)
    (hne : values ≠ []) (m s : F) (hs : 0 < s)
    (hvar : s ^ 2 * (values.length : F) = (values.map fun v => (v - meanOf values) ^ 2).sum) :
    meanOf ((values.map fun x => (x - m) / s).map
      fun y => (y - meanOf (values.map fun x => (x - m) / s)) ^ 2) = 1 := by
  have hn : (values.length : F) ≠ 0 := by
    have : values.length ≠ 0 := fun h => hne (List.length_eq_zero_iff.1 h)
    exact_mod_cast this
  have hmean : meanOf (values.map fun x => (x - m) / s) = (meanOf values - m) / s := by
    unfold meanOf
    rw [sum_shift, List.length_map]
    field_simp
  have h1 : (values.map fun x => (x - m) / s).map
      (fun y => (y - meanOf (values.map fun x => (x - m) / s)) ^ 2)
      = values.map fun x => ((x - meanOf values) / s) ^ 2 := by
    rw [hmean, List.map_map]
    apply List.map_congr_left
    intro x _
    simp only [Function.comp]
    congr 1
    rw [← sub_div]
    congr 1
    ring
  rw [h1]
  unfold meanOf at hvar ⊢
  rw [sum_scale, ← hvar, List.length_map]
  have : s ≠ 0 := ne_of_gt hs
  field_simp

private theorem standard_trained [LinearOrder V] [Add V] [Zero V] [Field F] [LinearOrder F]
    [IsStrictOrderedRing F]
    (k : SumKind V F) (hsumF : ∀ l : List V, k.toF l.sum = (l.map k.toF).sum)
    (sqrt : F → F) (hsqrt : IsSqrt sqrt) (val : T → V) (withMean withStd : Bool)
    (col cap : Nat) (hcap : 0 < cap) (hcap64 : cap < 2 ^ 64) (batches : List (List (Option T)))
    (hne : batches ≠ []) (hb : NoEmptyBatch batches) (maps : AnnotationMaps (NumAnnot V F))
    (hcol : col < maps.length)
    (hnone : getAnnotation NumAnnot.isDeviation maps col "StandardDeviationEstimator" = .ok none)
    (hnone' : getAnnotation NumAnnot.isStats maps col "StatisticalMetricsEstimator" = .ok none)
    (hvalues : (batches.flatten.take cap).filterMap (fun x => x.map val) ≠ [])
    (hstats : ∃ r maps',
      trainEstimator (statsPolicy k val .stats) (statsConfig col NumAnnot.isStats) cap (StatsState.new k)
        batches maps = (.ok (), maps') ∧
      getAnnotation NumAnnot.isStats maps' col "StatisticalMetricsEstimator" = .ok (some (.stats r)) ∧
      IsStats k.toF ((batches.flatten.take cap).filterMap (fun x => x.map val)) r) :
    ∃ t : StandardScaler F,
      (∀ X : Xf (StandardScaler F) (Option T) (Option T),
        FeaturizerYields X (standardComponents k sqrt val col cap) 2 (makeStandardScaler withMean withStd col)
          batches maps (.ok t)) ∧
      StandardScaled withMean withStd (((batches.flatten.take cap).filterMap (fun x => x.map val)).map k.toF)
        (fun x => t.exec (some x)) ∧
      t.exec none = .nan := by
  obtain ⟨r, maps₁, ht1, hg1, hr⟩ := hstats
  have ho1 := trainEstimator_other _ (statsConfig col NumAnnot.isStats) cap hcap _ batches hb maps hcol hnone' _ _ ht1
  have hcol1 : col < maps₁.length := by rw [ho1.1]; exact hcol
  have hnone1 : getAnnotation NumAnnot.isDeviation maps₁ col "StandardDeviationEstimator" = .ok none := by
    rw [← hnone]; exact ho1.2 _ _ (by simp [statsConfig])
  generalize hvs : (batches.flatten.take cap).filterMap (fun x => x.map val) = vs at *
  have hfl : (batches.flatten.take cap).filterMap (fun x => x.map fun x => k.toF (val x)) = vs.map k.toF := by
    rw [← hvs]
    generalize batches.flatten.take cap = xs
    induction xs with
    | nil => rfl
    | cons x xs ih => cases x <;> simp [ih]
  generalize hfs : vs.map k.toF = values at *
  have hvne : values ≠ [] := by rw [← hfs]; simpa using hvalues
  have hlen : values.length = vs.length := by rw [← hfs]; simp
  have hmean : r.average = meanOf values := by
    rw [hr.average, hsumF, hfs, ← hlen]; rfl
  have hn : (0 : F) < (values.length : F) := by
    have : 0 < values.length := List.length_pos_of_ne_nil hvne
    exact_mod_cast this
  -- the deviation
  have ht2 := trainEstimator_eq (devPolicy sqrt (fun x => k.toF (val x)) averageOf (NumAnnot.deviation (V := V)))
    (devConfig col NumAnnot.isDeviation) cap hcap ⟨0, false, 0, 0⟩ batches hb maps₁ hcol1 (fun _ => hnone1)
  have hbegin : (devPolicy sqrt (fun x => k.toF (val x)) averageOf (NumAnnot.deviation (V := V))).begin
      (maps₁.getD col []) ⟨0, false, 0, 0⟩ = (.ok true, ⟨0, false, meanOf values, 0⟩) := by
    simp only [devPolicy]
    rw [averageOf_eq maps₁ col hcol1 r hg1, hmean]
  have hfit := dev_run sqrt (fun x => k.toF (val x)) averageOf (NumAnnot.deviation (V := V)) (meanOf values)
    (batches.flatten.take cap) ⟨0, false, meanOf values, 0⟩ rfl (by
      have : (batches.flatten.take cap).length ≤ cap := by simp
      simp only
      omega)
  rw [hfl] at hfit
  simp only [zero_add, Bool.false_or] at hfit
  have hemp : values.isEmpty = false := by
    cases hv : values with
    | nil => exact absurd hv hvne
    | cons => rfl
  rw [hemp] at hfit
  simp only [publishes, devConfig, if_true, hbegin, hfit] at ht2
  have hS := sum_sq_nonneg values (meanOf values)
  generalize hSS : (values.map fun v => (v - meanOf values) ^ 2).sum = S at *
  have hd0 : 0 ≤ sqrt S / sqrt (values.length : F) := div_nonneg (hsqrt.nonneg _) (hsqrt.nonneg _)
  have hcomplete : (devPolicy sqrt (fun x => k.toF (val x)) averageOf (NumAnnot.deviation (V := V))).complete
      maps₁ ⟨S, !false, meanOf values, values.length⟩
      = (.ok (.deviation (sqrt S / sqrt (values.length : F)) values.length), ⟨S, !false, meanOf values, values.length⟩) := by
    simp only [devPolicy]
    rw [if_neg (by simp), if_neg (by
      have := List.length_pos_of_ne_nil hvne
      omega), if_neg (not_lt.2 hd0)]
  rw [hcomplete] at ht2
  simp only at ht2
  have hok := (addAnnotation_ok maps₁
    (NumAnnot.deviation (V := V) (sqrt S / sqrt (values.length : F)) values.length) col
    "StandardDeviationEstimator" hcol1).1
  have hg2 : getAnnotation NumAnnot.isDeviation (addAnnotation (some
      (NumAnnot.deviation (V := V) (sqrt S / sqrt (values.length : F)) values.length)) col
      "StandardDeviationEstimator" maps₁).2 col "StandardDeviationEstimator"
      = .ok (some (.deviation (sqrt S / sqrt (values.length : F)) values.length)) :=
    getAnnotation_add_self maps₁ _ col _ _ rfl hnone1
  have hg1' : getAnnotation NumAnnot.isStats (addAnnotation (some
      (NumAnnot.deviation (V := V) (sqrt S / sqrt (values.length : F)) values.length)) col
      "StandardDeviationEstimator" maps₁).2 col "StatisticalMetricsEstimator" = .ok (some (.stats r)) := by
    rw [getAnnotation_add_other maps₁ _ col _ _ _ (by simp)]
    exact hg1
  generalize hd : sqrt S / sqrt (values.length : F) = d at *
  -- the transformer
  have hsn : 0 < sqrt (values.length : F) := by
    rcases lt_or_eq_of_le (hsqrt.nonneg (values.length : F)) with h | h
    · exact h
    · have := hsqrt.square _ (le_of_lt hn)
      rw [← h] at this
      simp at this
      exact absurd this (ne_of_lt hn)
  have hd2 : d ^ 2 * (values.length : F) = S := by
    rw [← hd, div_pow, hsqrt.square _ hS, hsqrt.square _ (le_of_lt hn)]
    field_simp
  let m : F := if withMean then meanOf values else 0
  let d' : F := if withStd then d else 1
  let s : F := if d' = 0 then 1 else d'
  have hd'0 : 0 ≤ d' := by
    show 0 ≤ (if withStd then d else 1)
    split
    · exact hd0
    · exact zero_le_one
  have hs : 0 < s := by
    show 0 < (if d' = 0 then 1 else d')
    split
    · exact zero_lt_one
    · rename_i h; exact lt_of_le_of_ne hd'0 (Ne.symm h)
  refine ⟨⟨m, s⟩, fun X => ?_, ?_, rfl⟩
  · have hy := featurizer_two X (mk := makeStandardScaler withMean withStd col) (batches := batches)
      (hne := hne) (hb := hb) (maps := maps)
      (c₀ := ⟨statsPolicy k val .stats, statsConfig col NumAnnot.isStats, cap, StatsState.new k⟩)
      (c₁ := ⟨devPolicy sqrt (fun x => k.toF (val x)) averageOf .deviation, devConfig col NumAnnot.isDeviation,
        cap, ⟨0, false, 0, 0⟩⟩)
      hcol hcol _ _ ht1 _ _ (fun _ => ht2.trans hok)
    have hmk : makeStandardScaler withMean withStd col (addAnnotation (some
        (NumAnnot.deviation (V := V) d values.length)) col "StandardDeviationEstimator" maps₁).2
        = .ok ⟨m, s⟩ := by
      unfold makeStandardScaler
      rw [getAnnotationData_of hg1', getAnnotationData_of hg2]
      simp only [hmean]
      have hnew : StandardScaler.new m s = .ok ⟨m, s⟩ := by
        unfold StandardScaler.new
        rw [if_neg (not_lt.2 (le_of_lt hs))]
      cases withMean <;> cases withStd <;> exact hnew
    simp only [Except.bind] at hy
    rw [hmk] at hy
    exact hy
  · refine ⟨m, s, hs, ?_, ?_, ?_, ?_, ?_, ?_⟩
    · intro x; simp [StandardScaler.exec, fdiv, ne_of_gt hs]
    · intro h
      have hm : m = meanOf values := by show (if withMean then _ else _) = _; rw [if_pos h]
      rw [sum_shift, hm]
      unfold meanOf
      field_simp
      simp
    · intro h; show (if withMean then _ else _) = _; rw [h]; rfl
    · rintro h ⟨v, hv, w, hw, hvw⟩
      have hdne : d ≠ 0 := by
        intro h0
        have hS0 : S = 0 := by rw [← hd2, h0]; ring
        rw [hS0] at hSS
        have := sum_sq_zero values _ hSS
        exact hvw ((this v hv).trans (this w hw).symm)
      have hsd : s = d := by
        show (if (if withStd then d else 1) = 0 then 1 else (if withStd then d else 1)) = d
        rw [if_pos h, if_neg hdne]
      exact scaled_variance values hvne m s hs (by rw [hsd, hd2, hSS])
    · intro h hall
      have hS0 : S = 0 := by
        obtain ⟨a, l, rfl⟩ := List.exists_cons_of_ne_nil hvne
        have hrep : a :: l = List.replicate (a :: l).length a := by
          apply List.eq_replicate_of_mem
          intro b hb
          exact hall b hb a (by simp)
        have hma : meanOf (a :: l) = a := by
          rw [hrep]
          unfold meanOf
          simp only [List.sum_replicate, List.length_replicate, nsmul_eq_mul]
          field_simp
        rw [← hSS, hma]
        apply List.sum_eq_zero
        intro x hx
        obtain ⟨y, hy, rfl⟩ := List.mem_map.1 hx
        rw [hall y hy a (by simp)]
        simp
      have hd00 : d = 0 := by
        rw [hS0] at hd2
        rcases mul_eq_zero.1 hd2 with h0 | h0
        · exact pow_eq_zero_iff (two_ne_zero) |>.1 h0
        · exact absurd h0 (ne_of_gt hn)
      show (if (if withStd then d else 1) = 0 then 1 else (if withStd then d else 1)) = 1
      rw [if_pos h, if_pos hd00]
    · intro h
      show (if (if withStd then d else 1) = 0 then 1 else (if withStd then d else 1)) = 1
      rw [h]
      simp

/-- **C27** (standard scaling; part: integer inputs that fit `int64_t` with running sums that fit `int64_t`; otherwise
training throws, see C23) A standard scaler trained through its public calls on any batches with at least one
value centers and scales the training data as requested and never divides by zero. -/
theorem C27_standard_integers_partial [Field F] [LinearOrder F] [IsStrictOrderedRing F] (sqrt : F → F)
    (hsqrt : IsSqrt sqrt) (val : T → Int) (withMean withStd : Bool)
    (col cap : Nat) (hcap : 0 < cap) (hcap64 : cap < 2 ^ 64) (batches : List (List (Option T)))
    (hne : batches ≠ []) (hb : NoEmptyBatch batches) (maps : AnnotationMaps (NumAnnot Int F))
    (hcol : col < maps.length)
    (hnone : getAnnotation NumAnnot.isDeviation maps col "StandardDeviationEstimator" = .ok none)
    (hnone' : getAnnotation NumAnnot.isStats maps col "StatisticalMetricsEstimator" = .ok none)
    (hvalues : (batches.flatten.take cap).filterMap (fun x => x.map val) ≠ [])
    (hfit : ∀ v ∈ (batches.flatten.take cap).filterMap (fun x => x.map val), -2 ^ 63 ≤ v ∧ v < 2 ^ 63)
    (hsums : ∀ p, p <+: (batches.flatten.take cap).filterMap (fun x => x.map val) →
      -2 ^ 63 ≤ p.sum ∧ p.sum < 2 ^ 63) :
    ∃ t : StandardScaler F,
      (∀ X : Xf (StandardScaler F) (Option T) (Option T),
        FeaturizerYields X (standardComponents intSum sqrt val col cap) 2
          (makeStandardScaler withMean withStd col) batches maps (.ok t)) ∧
      StandardScaled withMean withStd
        (((batches.flatten.take cap).filterMap (fun x => x.map val)).map fun v : Int => (v : F))
        (fun x => t.exec (some x)) ∧
      t.exec none = .nan :=
  standard_trained intSum (by
      intro l
      simp only [intSum]
      induction l with
      | nil => simp
      | cons a l ih => simp [ih]) sqrt hsqrt val withMean withStd col cap hcap hcap64 batches hne hb maps hcol
    hnone hnone' hvalues
    ((C23_integers_partial val NumAnnot.stats NumAnnot.isStats (fun _ => rfl) col cap hcap
      hcap64 batches hb maps hcol hnone' hfit).2 ⟨hvalues, hsums⟩)

/-- **C27** (standard scaling of floating point inputs, exact arithmetic) -/
theorem C27_standard_exact [Field F] [LinearOrder F] [IsStrictOrderedRing F] (sqrt : F → F)
    (hsqrt : IsSqrt sqrt) (withMean withStd : Bool)
    (col cap : Nat) (hcap : 0 < cap) (hcap64 : cap < 2 ^ 64) (batches : List (List (Option F)))
    (hne : batches ≠ []) (hb : NoEmptyBatch batches) (maps : AnnotationMaps (NumAnnot F F))
    (hcol : col < maps.length)
    (hnone : getAnnotation NumAnnot.isDeviation maps col "StandardDeviationEstimator" = .ok none)
    (hnone' : getAnnotation NumAnnot.isStats maps col "StatisticalMetricsEstimator" = .ok none)
    (hvalues : (batches.flatten.take cap).filterMap id ≠ []) :
    ∃ t : StandardScaler F,
      (∀ X : Xf (StandardScaler F) (Option F) (Option F),
        FeaturizerYields X (standardComponents exactSum sqrt id col cap) 2
          (makeStandardScaler withMean withStd col) batches maps (.ok t)) ∧
      StandardScaled withMean withStd ((batches.flatten.take cap).filterMap id) (fun x => t.exec (some x)) ∧
      t.exec none = .nan := by
  have hid : (fun x : Option F => x.map id) = id := by funext x; simp
  have h := standard_trained exactSum (fun l => by simp [exactSum]) sqrt hsqrt (id : F → F) withMean withStd col cap
    hcap hcap64 batches hne hb maps hcol hnone hnone' (by rw [hid]; exact hvalues)
    ((C23_exact (id : F → F) NumAnnot.stats NumAnnot.isStats (fun _ => rfl) col cap hcap
      hcap64 batches hb maps hcol hnone').2 (by rw [hid]; exact hvalues))
  rw [hid] at h
  simpa [exactSum] using h

/-! Non-vacuity: over the reals, 1 and 3 are mapped to −1 and 1. -/
example : IsSqrt Real.sqrt := ⟨Real.sqrt_nonneg, fun _ h => Real.sq_sqrt h⟩

example : ∃ t : StandardScaler ℝ, StandardScaled true true [1, 3] (fun x => t.exec (some x)) ∧
    ∃ s, 0 < s ∧ t.exec (some 1) = .num (-1 / s) ∧ t.exec (some 3) = .num (1 / s) := by
  obtain ⟨t, _, h, _⟩ := C27_standard_exact (F := ℝ) Real.sqrt
    ⟨Real.sqrt_nonneg, fun _ h => Real.sq_sqrt h⟩ true true 0 9 (by decide) (by decide)
    [[some 1, none], [some 3]] (by simp)
    (by intro b hb; simp at hb; rcases hb with rfl | rfl <;> simp) [[]] (by simp) rfl rfl (by simp)
  have h : StandardScaled true true [1, 3] (fun x => t.exec (some x)) := h
  refine ⟨t, h, ?_⟩
  obtain ⟨m, s, hs, hf, h1, _, _⟩ := h
  have h1 := h1 rfl
  simp only [List.map_cons, List.map_nil, List.sum_cons, List.sum_nil, add_zero] at h1
  have hm : m = 2 := by
    rw [← add_div, div_eq_zero_iff] at h1
    rcases h1 with h1 | h1
    · linarith
    · exact absurd h1 (ne_of_gt hs)
  simp only at hf
  refine ⟨s, hs, ?_, ?_⟩
  · rw [hf 1, hm]; norm_num
  · rw [hf 3, hm]; norm_num

end Feat
