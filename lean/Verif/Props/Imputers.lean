import Verif.Model.Fills
import Verif.Proofs.ComponentPipeline
import Verif.Props.Categorical
import Verif.Props.Statistics
import Verif.Props.Scalers
import Verif.Props.Median
/-
C34 value imputers and null indicators.
-/
namespace Feat
variable {A V F T K : Type}

/-- Executing the transformer `t` on any series outputs, for each row, its value if it is not null and `value` if it is;
nothing else is output, nothing throws and the transformer does not change. -/
def Replaces {T : Type} (X : Xf T (Option A) V) (t : T) (cast : A → V) (value : V) : Prop :=
  ∀ xs : List (Option A), ∃ outs, X.runAll t xs = ⟨outs, none, t⟩ ∧ outs.length = xs.length ∧
    ∀ i : Nat, (xs[i]? = some none → outs[i]? = some value) ∧
      ∀ a, xs[i]? = some (some a) → outs[i]? = some (cast a)

private theorem ofFun_runAll {T I O : Type} (f : T → I → O) (t : T) (xs : List I) :
    (Xf.ofFun fun t x => .ok (f t x)).runAll t xs = ⟨xs.map (f t), none, t⟩ := by
  have h : (Xf.ofFun fun t x => .ok (f t x)).execAll t xs = ⟨xs.map (f t), none, t⟩ := by
    induction xs with
    | nil => rfl
    | cons x xs ih =>
      have he : (Xf.ofFun fun t x => .ok (f t x)).exec t x = ⟨[f t x], none, t⟩ := rfl
      simp only [Xf.execAll, he, ih]
      simp
  unfold Xf.runAll
  rw [h]
  simp [Xf.ofFun, noFlush]

/-- **C34** A value imputer replaces exactly the nulls. -/
theorem C34_replaces (cast : A → V) (value : V) : Replaces (imputeXf cast) value cast value := by
  intro xs
  refine ⟨_, ofFun_runAll _ value xs, by simp, fun i => ⟨fun h => ?_, fun a h => ?_⟩⟩
  · rw [List.getElem?_map, h]; rfl
  · rw [List.getElem?_map, h]; rfl

/-- **C34** Missing dummies are 1 exactly for the nulls and 0 otherwise. -/
theorem C34_missing_dummies : Replaces (missingDummiesXf (A := A)) () (fun _ => 0) 1 := by
  intro xs
  refine ⟨_, ofFun_runAll _ () xs, by simp, fun i => ⟨fun h => ?_, fun a h => ?_⟩⟩
  · rw [List.getElem?_map, h]; rfl
  · rw [List.getElem?_map, h]; rfl

/-- **C34** Imputation markers are true exactly for the nulls and false otherwise. -/
theorem C34_imputation_marker : Replaces (imputationMarkerXf (A := A)) () (fun _ => false) true := by
  intro xs
  refine ⟨_, ofFun_runAll _ () xs, by simp, fun i => ⟨fun h => ?_, fun a h => ?_⟩⟩
  · rw [List.getElem?_map, h]; rfl
  · rw [List.getElem?_map, h]; rfl

/-! ### Trained imputers -/

private theorem stats_featurizer {τ : Type} [LinearOrder V] [Field F] [LinearOrder F] (k : SumKind V F)
    (val : T → V) (col cap : Nat)
    (mk : AnnotationMaps (NumAnnot V F) → Except Err τ) (get : Stats V F → τ)
    (hmk : ∀ maps s, getAnnotation NumAnnot.isStats maps col "StatisticalMetricsEstimator"
      = .ok (some (.stats s)) → mk maps = .ok (get s))
    (batches : List (List (Option T))) (hne : batches ≠ []) (hb : NoEmptyBatch batches)
    (maps : AnnotationMaps (NumAnnot V F)) (hcol : col < maps.length) :
    (∀ e maps', trainEstimator (statsPolicy k val NumAnnot.stats) (statsConfig col NumAnnot.isStats) cap
        (StatsState.new k) batches maps = (.error e, maps') →
      ∀ X : Xf τ (Option T) (Option T),
        FeaturizerYields X (fun _ => statsComponent k val col cap) 1 mk batches maps (.error e)) ∧
    (∀ r maps', trainEstimator (statsPolicy k val NumAnnot.stats) (statsConfig col NumAnnot.isStats) cap
        (StatsState.new k) batches maps = (.ok (), maps') →
      getAnnotation NumAnnot.isStats maps' col "StatisticalMetricsEstimator" = .ok (some (.stats r)) →
      ∀ X : Xf τ (Option T) (Option T),
        FeaturizerYields X (fun _ => statsComponent k val col cap) 1 mk batches maps (.ok (get r))) := by
  constructor
  · intro e maps' ht X
    exact featurizer_one X (statsComponent k val col cap) mk batches hne hb maps hcol _ _ ht
  · intro r maps' ht hget X
    have h := featurizer_one X (statsComponent k val col cap) mk batches hne hb maps hcol _ _ ht
    simp only [Except.bind] at h
    rw [hmk maps' r hget] at h
    exact h

private theorem mean_mk (col : Nat) (maps : AnnotationMaps (NumAnnot V F)) (s : Stats V F)
    (h : getAnnotation NumAnnot.isStats maps col "StatisticalMetricsEstimator" = .ok (some (.stats s))) :
    makeMeanImputer col maps = .ok s.average := by
  unfold makeMeanImputer
  rw [getAnnotationData_of h]

private theorem minMax_mk (useMin : Bool) (col : Nat) (maps : AnnotationMaps (NumAnnot V F)) (s : Stats V F)
    (h : getAnnotation NumAnnot.isStats maps col "StatisticalMetricsEstimator" = .ok (some (.stats s))) :
    makeMinMaxImputer useMin col maps = .ok (if useMin then s.min else s.max) := by
  unfold makeMinMaxImputer
  rw [getAnnotationData_of h]

/-- **C34** A mean imputer trained through its public calls on floating point data (exact arithmetic) fills the nulls
with the average of the non-null training values; without any it throws. -/
theorem C34_mean [Field F] [LinearOrder F] [IsStrictOrderedRing F] (val : T → F)
    (col cap : Nat) (hcap : 0 < cap) (hcap64 : cap < 2 ^ 64) (batches : List (List (Option T)))
    (hne : batches ≠ []) (hb : NoEmptyBatch batches) (maps : AnnotationMaps (NumAnnot F F))
    (hcol : col < maps.length)
    (hnone : getAnnotation NumAnnot.isStats maps col "StatisticalMetricsEstimator" = .ok none) :
    let values := (batches.flatten.take cap).filterMap (fun x => x.map val)
    (values = [] → ∀ X : Xf F (Option T) (Option T),
      FeaturizerYields X (fun _ => statsComponent exactSum val col cap) 1 (makeMeanImputer col) batches maps
        (.error .runtimeError)) ∧
    (values ≠ [] → ∃ t : F, t = values.sum / (values.length : F) ∧
      (∀ X : Xf F (Option T) (Option T),
        FeaturizerYields X (fun _ => statsComponent exactSum val col cap) 1 (makeMeanImputer col) batches maps
          (.ok t)) ∧
      Replaces (imputeXf val) t val (values.sum / (values.length : F))) := by
  intro values
  have h := C23_exact val NumAnnot.stats NumAnnot.isStats (fun _ => rfl) col cap hcap hcap64 batches hb maps hcol
    hnone
  obtain ⟨f1, f2⟩ := stats_featurizer exactSum val col cap (makeMeanImputer col) Stats.average
    (mean_mk col) batches hne hb maps hcol
  refine ⟨fun hv => f1 _ _ (h.1 hv), fun hv => ?_⟩
  obtain ⟨r, maps', ht, hget, hr⟩ := h.2 hv
  have ha : r.average = values.sum / (values.length : F) := hr.average
  exact ⟨r.average, ha, f2 r maps' ht hget, by rw [← ha]; exact C34_replaces _ _⟩

/-- **C34** A mean imputer on integers (any type but `uint64_t` above 2⁶³−1): the exact average of the non-null training
values; it throws without values or if a partial sum does not fit 64 bits. -/
theorem C34_mean_integers_partial [Field F] [LinearOrder F] [IsStrictOrderedRing F] (val : T → Int)
    (col cap : Nat) (hcap : 0 < cap) (hcap64 : cap < 2 ^ 64) (batches : List (List (Option T)))
    (hne : batches ≠ []) (hb : NoEmptyBatch batches) (maps : AnnotationMaps (NumAnnot Int F))
    (hcol : col < maps.length)
    (hnone : getAnnotation NumAnnot.isStats maps col "StatisticalMetricsEstimator" = .ok none)
    (hv : ∀ v ∈ (batches.flatten.take cap).filterMap (fun x => x.map val), -2 ^ 63 ≤ v ∧ v < 2 ^ 63) :
    let values := (batches.flatten.take cap).filterMap (fun x => x.map val)
    ((values = [] ∨ ¬ ∀ p, p <+: values → -2 ^ 63 ≤ p.sum ∧ p.sum < 2 ^ 63) →
      ∀ X : Xf F (Option T) (Option T),
      FeaturizerYields X (fun _ => statsComponent intSum val col cap) 1 (makeMeanImputer col) batches maps
        (.error .runtimeError)) ∧
    ((values ≠ [] ∧ ∀ p, p <+: values → -2 ^ 63 ≤ p.sum ∧ p.sum < 2 ^ 63) →
      ∃ t : F, t = ((values.sum : Int) : F) / (values.length : F) ∧
      (∀ X : Xf F (Option T) (Option T),
        FeaturizerYields X (fun _ => statsComponent intSum val col cap) 1 (makeMeanImputer col) batches maps
          (.ok t)) ∧
      Replaces (imputeXf fun x => (val x : F)) t (fun x => (val x : F)) t) := by
  intro values
  have h := C23_integers_partial (F := F) val NumAnnot.stats NumAnnot.isStats (fun _ => rfl) col cap hcap hcap64
    batches hb maps hcol hnone hv
  obtain ⟨f1, f2⟩ := stats_featurizer (intSum (F := F)) val col cap (makeMeanImputer col) Stats.average
    (mean_mk col) batches hne hb maps hcol
  refine ⟨fun hv => f1 _ _ (h.1 hv), fun hv => ?_⟩
  obtain ⟨r, maps', ht, hget, hr⟩ := h.2 hv
  exact ⟨r.average, hr.average, f2 r maps' ht hget, C34_replaces _ _⟩

/-- **C34** A min/max imputer fills the nulls with the least or greatest non-null training value; without any it throws. -/
theorem C34_min_max [Field F] [LinearOrder F] [IsStrictOrderedRing F] (val : T → F) (useMin : Bool)
    (col cap : Nat) (hcap : 0 < cap) (hcap64 : cap < 2 ^ 64) (batches : List (List (Option T)))
    (hne : batches ≠ []) (hb : NoEmptyBatch batches) (maps : AnnotationMaps (NumAnnot F F))
    (hcol : col < maps.length)
    (hnone : getAnnotation NumAnnot.isStats maps col "StatisticalMetricsEstimator" = .ok none) :
    let values := (batches.flatten.take cap).filterMap (fun x => x.map val)
    (values = [] → ∀ X : Xf F (Option T) (Option T),
      FeaturizerYields X (fun _ => statsComponent exactSum val col cap) 1 (makeMinMaxImputer useMin col) batches
        maps (.error .runtimeError)) ∧
    (values ≠ [] → ∃ t ∈ values, (useMin = true → ∀ v ∈ values, t ≤ v) ∧ (useMin = false → ∀ v ∈ values, v ≤ t) ∧
      (∀ X : Xf F (Option T) (Option T),
        FeaturizerYields X (fun _ => statsComponent exactSum val col cap) 1 (makeMinMaxImputer useMin col) batches
          maps (.ok t)) ∧
      Replaces (imputeXf val) t val t) := by
  intro values
  have h := C23_exact val NumAnnot.stats NumAnnot.isStats (fun _ => rfl) col cap hcap hcap64 batches hb maps hcol
    hnone
  obtain ⟨f1, f2⟩ := stats_featurizer exactSum val col cap (makeMinMaxImputer useMin col)
    (fun s => if useMin then s.min else s.max) (minMax_mk useMin col) batches hne hb maps hcol
  refine ⟨fun hv => f1 _ _ (h.1 hv), fun hv => ?_⟩
  obtain ⟨r, maps', ht, hget, hr⟩ := h.2 hv
  refine ⟨_, ?_, ?_, ?_, f2 r maps' ht hget, C34_replaces _ _⟩
  · split
    · exact hr.min_mem
    · exact hr.max_mem
  · intro hu; simp only [hu, if_true]; exact hr.min_le
  · intro hu; simp only [hu, Bool.false_eq_true, if_false]; exact hr.le_max

/-- **C34** The same for integers (any type but `uint64_t` above 2⁶³−1), where training also throws if a partial sum does
not fit 64 bits. -/
theorem C34_min_max_integers_partial [Field F] [LinearOrder F] [IsStrictOrderedRing F] (val : T → Int)
    (useMin : Bool) (col cap : Nat) (hcap : 0 < cap) (hcap64 : cap < 2 ^ 64) (batches : List (List (Option T)))
    (hne : batches ≠ []) (hb : NoEmptyBatch batches) (maps : AnnotationMaps (NumAnnot Int F))
    (hcol : col < maps.length)
    (hnone : getAnnotation NumAnnot.isStats maps col "StatisticalMetricsEstimator" = .ok none)
    (hv : ∀ v ∈ (batches.flatten.take cap).filterMap (fun x => x.map val), -2 ^ 63 ≤ v ∧ v < 2 ^ 63) :
    let values := (batches.flatten.take cap).filterMap (fun x => x.map val)
    ((values = [] ∨ ¬ ∀ p, p <+: values → -2 ^ 63 ≤ p.sum ∧ p.sum < 2 ^ 63) →
      ∀ X : Xf Int (Option T) (Option T),
      FeaturizerYields X (fun _ => statsComponent (intSum (F := F)) val col cap) 1 (makeMinMaxImputer useMin col)
        batches maps (.error .runtimeError)) ∧
    ((values ≠ [] ∧ ∀ p, p <+: values → -2 ^ 63 ≤ p.sum ∧ p.sum < 2 ^ 63) →
      ∃ t ∈ values, (useMin = true → ∀ v ∈ values, t ≤ v) ∧ (useMin = false → ∀ v ∈ values, v ≤ t) ∧
      (∀ X : Xf Int (Option T) (Option T),
        FeaturizerYields X (fun _ => statsComponent (intSum (F := F)) val col cap) 1
          (makeMinMaxImputer useMin col) batches maps (.ok t)) ∧
      Replaces (imputeXf val) t val t) := by
  intro values
  have h := C23_integers_partial (F := F) val NumAnnot.stats NumAnnot.isStats (fun _ => rfl) col cap hcap hcap64
    batches hb maps hcol hnone hv
  obtain ⟨f1, f2⟩ := stats_featurizer (intSum (F := F)) val col cap (makeMinMaxImputer useMin col)
    (fun s => if useMin then s.min else s.max) (minMax_mk useMin col) batches hne hb maps hcol
  refine ⟨fun hv => f1 _ _ (h.1 hv), fun hv => ?_⟩
  obtain ⟨r, maps', ht, hget, hr⟩ := h.2 hv
  refine ⟨_, ?_, ?_, ?_, f2 r maps' ht hget, C34_replaces _ _⟩
  · split
    · exact hr.min_mem
    · exact hr.max_mem
  · intro hu; simp only [hu, if_true]; exact hr.min_le
  · intro hu; simp only [hu, Bool.false_eq_true, if_false]; exact hr.le_max

/-- **C34** A median imputer fills the nulls with the median of the non-null training values, as converted to the output
type; without any it throws. -/
theorem C34_median [LinearOrder F] (cast : T → F) (interpolate : Bool) (mean : F → F → F) (zero : F)
    (col cap : Nat) (hcap : 0 < cap) (batches : List (List (Option T)))
    (hne : batches ≠ []) (hb : NoEmptyBatch batches) (maps : AnnotationMaps (NumAnnot V F))
    (hcol : col < maps.length)
    (hnone : getAnnotation NumAnnot.isMedian maps col "MedianEstimator" = .ok none) :
    let values := (batches.flatten.take cap).filterMap (fun x => x.map cast)
    (values = [] → ∀ X : Xf F (Option T) (Option T),
      FeaturizerYields X (fun _ => medianComponent cast interpolate mean zero col cap) 1 (makeMedianImputer col)
        batches maps (.error .runtimeError)) ∧
    (values ≠ [] → ∃ t, IsMedian interpolate mean values t ∧
      (∀ X : Xf F (Option T) (Option T),
        FeaturizerYields X (fun _ => medianComponent cast interpolate mean zero col cap) 1 (makeMedianImputer col)
          batches maps (.ok t)) ∧
      Replaces (imputeXf cast) t cast t) := by
  intro values
  have h := C22_median cast interpolate mean zero (NumAnnot.median (V := V)) NumAnnot.isMedian (fun _ => rfl) col cap
    hcap batches hb maps hcol hnone
  simp only at h
  split at h
  · rename_i he
    refine ⟨fun _ X => ?_, fun hv => absurd he hv⟩
    exact featurizer_one X (medianComponent cast interpolate mean zero col cap) _ batches hne hb maps hcol _ _ h
  · rename_i he
    refine ⟨fun hv => absurd hv he, fun _ => ?_⟩
    obtain ⟨m, maps', ht, hget, hm⟩ := h
    refine ⟨m, hm, fun X => ?_, C34_replaces _ _⟩
    have h := featurizer_one X (medianComponent cast interpolate mean zero col cap) (makeMedianImputer col) batches
      hne hb maps hcol _ _ ht
    simp only [Except.bind] at h
    unfold makeMedianImputer at h
    rw [getAnnotationData_of hget] at h
    exact h

/-- **C34** A mode or categorical imputer trained on fewer than 2³² items fills the nulls with the most frequent non-null
training value (the first seen among those); without any non-null value it throws. -/
theorem C34_mode [DecidableEq K] (it : IterOrder (Option K) UInt32) (col cap : Nat) (hcap : 0 < cap)
    (batches : List (List (Option K))) (hne : batches ≠ []) (hb : NoEmptyBatch batches)
    (hlen : (batches.flatten.take cap).length < 2 ^ 32)
    (maps : AnnotationMaps (CatAnnot (Option K))) (hcol : col < maps.length)
    (hn₁ : getAnnotation CatAnnot.isHistogram maps col "HistogramEstimator" = .ok none)
    (hn₂ : getAnnotation CatAnnot.isOrder maps col "OrderEstimator" = .ok none)
    (hn₃ : getAnnotation CatAnnot.isMode maps col "ModeEstimator" = .ok none) :
    ((∀ x ∈ batches.flatten.take cap, x = none) → ∀ X : Xf K (Option K) (Option K),
      FeaturizerYields X (modeComponents it col cap) 3 (makeModeImputer col) batches maps (.error .runtimeError)) ∧
    ((∃ x ∈ batches.flatten.take cap, x ≠ none) → ∃ t : K,
      IsMode Option.isSome (batches.flatten.take cap) (some t) ∧
      (∀ X : Xf K (Option K) (Option K),
        FeaturizerYields X (modeComponents it col cap) 3 (makeModeImputer col) batches maps (.ok t)) ∧
      Replaces (imputeXf id) t id t) := by
  have hne' : batches.flatten.take cap ≠ [] := by
    rcases batches with _ | ⟨b, bs⟩
    · exact absurd rfl hne
    · obtain ⟨x, xs, rfl⟩ := List.exists_cons_of_ne_nil (hb b (by simp))
      cases cap with
      | zero => omega
      | succ c => simp
  obtain ⟨maps₁, maps₂, h1, h2, h3⟩ := C21_mode it Option.isSome col cap cap hcap hcap batches batches batches hb hb hb
    rfl hne' hlen maps hcol hn₁ hn₂ hn₃
  split at h3
  · rename_i hany
    obtain ⟨x, hx, hxs⟩ := List.any_eq_true.1 hany
    refine ⟨fun h => ?_, fun _ => ?_⟩
    · rw [h x hx] at hxs; cases hxs
    · obtain ⟨maps₃, k, h4, h5, h6⟩ := h3
      obtain ⟨t, rfl⟩ := Option.isSome_iff_exists.1 h6.ok
      refine ⟨t, h6, fun X => ?_, C34_replaces _ _⟩
      have h := featurizer_three X ⟨histogramPolicy, histogramConfig col, cap, UMap.empty⟩
        ⟨orderPolicy, orderConfig col, cap, UMap.empty⟩ ⟨modePolicy it Option.isSome col, modeConfig col, cap, ()⟩
        (makeModeImputer col) batches hne hb maps hcol hcol hcol maps₁ maps₂ maps₃ _ h1 h2 h4
      simp only [Except.bind] at h
      unfold makeModeImputer at h
      rw [getAnnotationData_of h5] at h
      exact h
  · rename_i hany
    refine ⟨fun _ X => ?_, fun ⟨x, hx, hn⟩ => ?_⟩
    · exact featurizer_three X ⟨histogramPolicy, histogramConfig col, cap, UMap.empty⟩
        ⟨orderPolicy, orderConfig col, cap, UMap.empty⟩ ⟨modePolicy it Option.isSome col, modeConfig col, cap, ()⟩
        (makeModeImputer col) batches hne hb maps hcol hcol hcol maps₁ maps₂ maps₂ _ h1 h2 h3
    · exfalso
      apply hany
      refine List.any_eq_true.2 ⟨x, hx, ?_⟩
      cases x with
      | none => exact absurd rfl hn
      | some _ => rfl

/-! Non-vacuity. -/
example : ((imputeXf id).runAll 7 [some 1, none, some 3]).outs = [1, 7, 3] ∧
    (missingDummiesXf.runAll () [some 1, none, some 3]).outs = [0, 1, 0] := by decide

example (X : Xf Rat (Option Rat) (Option Rat)) :
    FeaturizerYields X (fun _ => statsComponent exactSum (id : Rat → Rat) 0 9) 1 (makeMeanImputer 0)
      [[some 3, none], [some (-5), some 4]] [[]] (.ok (2 / 3)) := by
  obtain ⟨t, ht, h, _⟩ := (C34_mean (id : Rat → Rat) 0 9 (by decide) (by decide) [[some 3, none], [some (-5), some 4]]
    (by simp) (by intro b hb; simp at hb; rcases hb with rfl | rfl <;> simp) [[]] (by simp) rfl).2 (by simp)
  have h2 : t = 2 / 3 := by rw [ht]; simp only [List.flatten]; decide +kernel
  rw [← h2]
  exact h X

example (it : IterOrder (Option String) UInt32) (X : Xf String (Option String) (Option String)) :
    FeaturizerYields X (modeComponents it 0 9) 3 (makeModeImputer 0)
      [[some "b", none], [none, some "a", none, some "a", some "b"]] [[]] (.ok "b") := by
  obtain ⟨t, ht, h, _⟩ := (C34_mode it 0 9 (by decide) [[some "b", none], [none, some "a", none, some "a", some "b"]]
    (by simp) (by intro b hb; simp at hb; rcases hb with rfl | rfl <;> simp) (by decide) [[]] (by simp) rfl rfl
    rfl).2 ⟨some "b", by decide, by decide⟩
  have h2 : t = "b" := by
    apply Decidable.byContradiction
    intro hn
    have h3 := ht.occurs
    simp at h3
    rcases h3 with rfl | rfl | rfl
    · exact hn rfl
    · have := ht.firstSeen (some "b") (by decide) rfl (by decide) (by decide)
      revert this
      decide
    · exact hn rfl
  subst h2
  exact h X

end Feat
