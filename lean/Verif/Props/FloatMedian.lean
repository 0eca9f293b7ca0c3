import Verif.Proofs.FloatMedian
import Verif.Props.Median
/-
C75: the median imputer in floating point arithmetic.
-/
namespace Feat.FloatMedian
open FloatText FloatArith FloatStats FloatNorms FloatScalers
variable {ι V S T τ : Type}

/-! ### From the training to the featurizer -/

theorem makeMedian_of {col : Nat} {maps : AnnotationMaps (MedAnnot V S T)} {m : T}
    (h : getAnnotation MedAnnot.isMedian maps col "MedianEstimator" = .ok (some (.median m))) : makeMedian col maps = .ok m := by
  unfold makeMedian
  rw [getAnnotationData_of h]

theorem imputer_error [FloType T] {get : ι → Option T} {col cap : Nat} {batches : List (List ι)} (hne : batches ≠ [])
    (hb : NoEmptyBatch batches) {maps : AnnotationMaps (MedAnnot V S T)} (hcol : col < maps.length) {e : Err}
    (ht : trainEstimator (medianPolicy get MedAnnot.median) (medianConfig col MedAnnot.isMedian) cap ⟨[], []⟩ batches maps
      = (.error e, maps)) (X : Xf T ι ι) :
    FeaturizerYields X (fun _ => medianComponent get col cap) 1 (makeMedian col) batches maps (.error e) :=
  featurizer_one X (medianComponent get col cap) (makeMedian col) batches hne hb maps hcol _ _ ht

theorem imputer_median [FloType T] {get : ι → Option T} {col cap : Nat} {batches : List (List ι)} (hne : batches ≠ [])
    (hb : NoEmptyBatch batches) {maps : AnnotationMaps (MedAnnot V S T)} (hcol : col < maps.length)
    (hnone : getAnnotation MedAnnot.isMedian maps col "MedianEstimator" = .ok none) {m : T}
    (ht : trainEstimator (medianPolicy get MedAnnot.median) (medianConfig col MedAnnot.isMedian) cap ⟨[], []⟩ batches maps
      = addAnnotation (some (.median m)) col "MedianEstimator" maps) (X : Xf T ι ι) :
    FeaturizerYields X (fun _ => medianComponent get col cap) 1 (makeMedian col) batches maps (.ok m) := by
  have h := featurizer_one X (medianComponent get col cap) (makeMedian col) batches hne hb maps hcol _ _
    (ht.trans (addAnnotation_ok maps _ col _ hcol).1)
  simp only [Except.bind] at h
  rw [makeMedian_of (getAnnotation_add_self maps _ col _ _ rfl hnone)] at h
  exact h

/-! ### Two values in the middle -/

section
variable [FloType T] [Lawful T]

theorem middle_ok (hT : ∀ x : T, Finite x → Finite (FloatArith.cast x : F64) ∧ value (FloatArith.cast x : F64) = value x)
    {a b : T} (ha : Finite a) (hb : Finite b) (hle : value a ≤ value b) (hs : |value a + value b| < tooLarge F64) :
    Finite (middle a b) ∧ value a ≤ value (middle a b) ∧ value (middle a b) ≤ value b ∧
      ∃ d : F64, IsNearest ((value a + value b) / 2) d ∧ IsNearest (value d) (middle a b) := by
  obtain ⟨fa, ea⟩ := hT a ha
  obtain ⟨fb, eb⟩ := hT b hb
  have hk := half_sum fa fb (by rw [ea, eb]; exact hs)
  rw [ea, eb] at hk
  obtain ⟨d, hd⟩ : ∃ d, d = div (add (FloatArith.cast a : F64) (FloatArith.cast b)) (ofInt 2) := ⟨_, rfl⟩
  have hm : middle a b = FloatArith.cast d := by rw [hd]; rfl
  rw [← hd] at hk
  have hdf : Finite d := by
    rw [finite_key, hk]
    refine rnd_finite (lt_of_le_of_lt ?_ hs)
    rw [abs_div, abs_of_pos (show (0 : ℚ) < 2 by norm_num)]
    have := abs_nonneg (value a + value b)
    linarith
  have d1 : value a ≤ value d := by
    rw [← ea, value_key, value_key d, fval_le, hk, ← rnd_value fa, ea]
    exact rnd_mono Lawful.good (by linarith)
  have d2 : value d ≤ value b := by
    rw [← eb, value_key, value_key (FloatArith.cast b), fval_le, hk, ← rnd_value fb, eb]
    exact rnd_mono Lawful.good (by linarith)
  have hkm : key (middle a b) = rnd (fmt T) (value d) := by rw [hm]; exact key_cast hdf
  have k1 : key a ≤ key (middle a b) := by
    rw [hkm, ← rnd_value ha]
    exact rnd_mono Lawful.good d1
  have k2 : key (middle a b) ≤ key b := by
    rw [hkm, ← rnd_value hb]
    exact rnd_mono Lawful.good d2
  have hf := finite_between ha hb k1 k2
  refine ⟨hf, ?_, ?_, d, nearest_of_key hk hdf, nearest_of_key hkm hf⟩
  · rw [value_key, value_key (middle a b), fval_le]; exact k1
  · rw [value_key, value_key b, fval_le]; exact k2

/-- From the values of a column to its median. -/
theorem isMedian_of (hT : ∀ x : T, Finite x → Finite (FloatArith.cast x : F64) ∧ value (FloatArith.cast x : F64) = value x)
    {vs : List T} {a b m : T} (hfin : ∀ v ∈ vs, Finite v) (hmid : Middles (vs.map value) (value a) (value b))
    (hodd : vs.length % 2 = 1 → m = a ∧ value b = value a) (heven : vs.length % 2 = 0 → m = middle a b)
    (hs : vs.length % 2 = 1 ∨ |value a + value b| < tooLarge F64) : IsMedian (vs.map value) m := by
  have hfa : ∀ x : T, value x ∈ vs.map value → Finite x := by
    intro x hx
    obtain ⟨v, hv, he⟩ := List.mem_map.1 hx
    rw [finite_key]
    rw [value_key, value_key x, fval_inj] at he
    rw [← he, ← finite_key]
    exact hfin v hv
  obtain ⟨s, hp, hst, h1, h2⟩ := hmid
  have fa := hfa a (hp.mem_iff.1 (List.mem_of_getElem? h1))
  have fb := hfa b (hp.mem_iff.1 (List.mem_of_getElem? h2))
  have hle : value a ≤ value b := by
    rw [List.getElem?_eq_some_iff] at h1 h2
    obtain ⟨l1, h1⟩ := h1
    obtain ⟨l2, h2⟩ := h2
    rw [← h1, ← h2]
    rcases Nat.lt_or_ge ((s.length - 1) / 2) (s.length / 2) with h | h
    · exact List.pairwise_iff_getElem.1 hst _ _ l1 l2 h
    · have : (s.length - 1) / 2 = s.length / 2 := by omega
      simp only [this, le_refl]
  refine ⟨value a, value b, ⟨s, hp, hst, h1, h2⟩, ?_⟩
  rcases Nat.mod_two_eq_zero_or_one vs.length with he | ho
  · rw [heven he]
    rcases hs with hs | hs
    · omega
    · exact middle_ok hT fa fb hle hs
  · obtain ⟨rfl, hba⟩ := hodd ho
    obtain ⟨cf, cv⟩ := hT m fa
    refine ⟨fa, le_rfl, hle, FloatArith.cast m, ?_, ?_⟩
    · rw [hba, add_self_div_two, ← cv]
      exact nearest_of_key (rnd_value cf).symm cf
    · rw [cv]
      exact nearest_of_key (rnd_value fa).symm fa

omit [Lawful T] in
/-- The values of a floating point column. -/
theorem floGet_values {U : Type} [FloType U] [Lawful U]
    (hU : ∀ x : U, Finite x → Finite (FloatArith.cast x : T) ∧ value (FloatArith.cast x : T) = value x)
    (xs : List U) (hx : ∀ x ∈ xs, ¬ IsInf x) :
    (∀ v ∈ xs.filterMap (floGet : U → Option T), Finite v) ∧
      (xs.filterMap (floGet : U → Option T)).map value = numbers floNumber xs := by
  obtain ⟨hfin, hval⟩ := flo_values xs hx
  have e : xs.filterMap (floGet : U → Option T) = (xs.filterMap (floStat U).get).map FloatArith.cast := by
    rw [List.map_filterMap]
    refine List.filterMap_congr fun x _ => ?_
    simp only [floGet, floStat]
    split <;> rfl
  rw [e, List.map_map, ← hval]
  constructor
  · intro v hv
    obtain ⟨x, hm, rfl⟩ := List.mem_map.1 hv
    exact (hU x (hfin x hm)).1
  · exact List.map_congr_left fun x hm => (hU x (hfin x hm)).2

end

/-! ### Floating point columns -/

theorem middles_bound {l : List ℚ} {lo hi B : ℚ} (h : Middles l lo hi) (hB : ∀ q ∈ l, |q| ≤ B) : |lo + hi| ≤ 2 * B := by
  obtain ⟨s, hp, _, h1, h2⟩ := h
  have b1 := hB lo (hp.mem_iff.1 (List.mem_of_getElem? h1))
  have b2 := hB hi (hp.mem_iff.1 (List.mem_of_getElem? h2))
  linarith [abs_add_le lo hi]

theorem tooLarge_twice : 2 * tooLarge F32 < tooLarge F64 := by
  unfold tooLarge
  rw [show Binary.frac F32 = 23 from rfl, show Binary.frac F64 = 52 from rfl, show bias F32 = 127 from rfl, show bias F64 = 1023 from rfl]
  norm_num
  have h : (2 : ℚ) ^ 129 ≤ 2 ^ 970 := pow_le_pow_right₀ (by norm_num) (by norm_num)
  have h2 : (680564713559467323275078790916285136896 : ℚ) < 2 ^ 129 := by norm_num
  generalize (2 : ℚ) ^ 970 = C at *
  generalize (2 : ℚ) ^ 129 = B at *
  linarith

theorem large_66 : (2 : ℚ) ^ 66 < tooLarge F64 := by
  refine lt_trans ?_ tooLarge_lt
  unfold tooLarge
  rw [show Binary.frac F32 = 23 from rfl, show bias F32 = 127 from rfl]
  norm_num

/-- Integers as `double`. -/
theorem int_double {z : Int} (hz : |z| ≤ 2 ^ 64) : Finite (ofInt z : F64) ∧ |value (ofInt z : F64)| ≤ 2 ^ 65 := by
  have hq : |(z : ℚ)| ≤ 2 ^ 64 := by
    rw [← Int.cast_abs]
    exact_mod_cast hz
  have hfin := rnd_finite (T := F64) (q := z) (lt_of_le_of_lt (le_trans hq (by norm_num)) large_66)
  have hf : Finite (ofInt z : F64) := by rw [finite_key, key_ofInt]; exact hfin
  refine ⟨hf, ?_⟩
  rw [value_key, key_ofInt]
  have h1 : (1 : ℚ) / 2 / 2 ^ (fmt F64).scale ≤ 1 := by
    rw [div_le_one (by positivity)]
    exact le_trans (by norm_num) (one_le_pow₀ (by norm_num))
  have h2 : |(z : ℚ)| / 2 ^ ((fmt F64).frac + 1) ≤ 2 ^ 64 / 1 := by
    apply div_le_div₀ (by norm_num) hq (by norm_num)
    exact one_le_pow₀ (by norm_num)
  have h3 := abs_sub_abs_le_abs_sub (fval (fmt F64) (rnd (fmt F64) z)) (z : ℚ)
  rcases rnd_error Lawful.good hfin with h | h
  · generalize (1 : ℚ) / 2 / 2 ^ (fmt F64).scale = u at *
    norm_num at *
    linarith
  · generalize |(z : ℚ)| / 2 ^ ((fmt F64).frac + 1) = u at *
    norm_num at *
    linarith

theorem cast_inf {U T : Type} [FloType U] [FloType T] [Lawful U] [Lawful T] {x : U} (hi : isInf x = true) : isInf (FloatArith.cast x : T) = true := by
  unfold FloatArith.cast
  rw [if_neg (by rw [isNaN_of_inf hi]; simp), if_pos hi]
  exact isInf_make _

theorem float_bound {x : F32} (hx : Finite x) : |value x| ≤ tooLarge F32 :=
  ((rnd_finite_iff (T := F32) (q := value x)).1 (by rw [rnd_value hx, ← finite_key]; exact hx)).le

/-- `float` columns without infinities: the imputer of a column with values has their median. -/
theorem C75_float (col cap : Nat) (hcap : 0 < cap) (batches : List (List F32)) (hne : batches ≠ []) (hb : NoEmptyBatch batches)
    (maps : AnnotationMaps (MedAnnot V S F64)) (hcol : col < maps.length)
    (hnone : getAnnotation MedAnnot.isMedian maps col "MedianEstimator" = .ok none)
    (hx : ∀ x ∈ batches.flatten.take cap, ¬ IsInf x)
    (l : List ℚ) (hl : l = numbers floNumber (batches.flatten.take cap)) :
    (l = [] → ∀ X : Xf F64 F32 F32,
      FeaturizerYields X (fun _ => medianComponent floGet col cap) 1 (makeMedian col) batches maps (.error .runtimeError)) ∧
    (l ≠ [] → ∃ m : F64, IsMedian l m ∧ ∀ X : Xf F64 F32 F32,
      FeaturizerYields X (fun _ => medianComponent floGet col cap) 1 (makeMedian col) batches maps (.ok m)) := by
  obtain ⟨hfin, hval⟩ := floGet_values (T := F64) (U := F32) (fun _ h => cast_exact h) _ hx
  obtain ⟨t1, t2⟩ := median_trained (T := F64) floGet MedAnnot.median MedAnnot.isMedian col cap hcap batches hb maps hcol hnone _ rfl
    (fun v hv => Finite.not_nan (hfin v hv))
  rw [← hl] at hval
  have hlne : (batches.flatten.take cap).filterMap (floGet : F32 → Option F64) = [] ↔ l = [] := by
    rw [← hval, List.map_eq_nil_iff]
  rw [hlne] at t1
  constructor
  · intro h X
    exact imputer_error hne hb hcol (t1 h) X
  · intro h
    obtain ⟨a, b, m, ht, hmid, _, _, ho, he⟩ := t2 (by rwa [Ne, hlne])
    refine ⟨m, ?_, fun X => imputer_median hne hb hcol hnone ht X⟩
    have hsmall : ∀ q ∈ l, |q| ≤ tooLarge F32 := by
      obtain ⟨f1, f2⟩ := flo_values _ hx
      rw [← hl] at f2
      intro q hq
      rw [← f2] at hq
      obtain ⟨x, hm, rfl⟩ := List.mem_map.1 hq
      exact float_bound (f1 x hm)
    have := isMedian_of (fun _ h => cast_self h) hfin hmid ho he
      (.inr (lt_of_le_of_lt (middles_bound hmid (by rw [hval]; exact hsmall)) tooLarge_twice))
    rwa [hval] at this

/-- `double` columns without infinities: the imputer has the median, unless the sum of the two values in the middle is too large for
a `double`: then it is infinite. -/
theorem C75_double_partial (col cap : Nat) (hcap : 0 < cap) (batches : List (List F64)) (hne : batches ≠ []) (hb : NoEmptyBatch batches)
    (maps : AnnotationMaps (MedAnnot V S F64)) (hcol : col < maps.length)
    (hnone : getAnnotation MedAnnot.isMedian maps col "MedianEstimator" = .ok none)
    (hx : ∀ x ∈ batches.flatten.take cap, ¬ IsInf x)
    (l : List ℚ) (hl : l = numbers floNumber (batches.flatten.take cap)) :
    (l = [] → ∀ X : Xf F64 F64 F64,
      FeaturizerYields X (fun _ => medianComponent floGet col cap) 1 (makeMedian col) batches maps (.error .runtimeError)) ∧
    (l ≠ [] → ∃ (m : F64) (lo hi : ℚ), Middles l lo hi ∧
      (l.length % 2 = 1 ∨ |lo + hi| < tooLarge F64 → IsMedian l m) ∧
      (l.length % 2 = 0 → tooLarge F64 ≤ |lo + hi| → IsInf m) ∧ ∀ X : Xf F64 F64 F64,
      FeaturizerYields X (fun _ => medianComponent floGet col cap) 1 (makeMedian col) batches maps (.ok m)) := by
  obtain ⟨hfin, hval⟩ := floGet_values (T := F64) (U := F64) (fun _ h => cast_self h) _ hx
  obtain ⟨t1, t2⟩ := median_trained (T := F64) floGet MedAnnot.median MedAnnot.isMedian col cap hcap batches hb maps hcol hnone _ rfl
    (fun v hv => Finite.not_nan (hfin v hv))
  rw [← hl] at hval
  have hlne : (batches.flatten.take cap).filterMap (floGet : F64 → Option F64) = [] ↔ l = [] := by
    rw [← hval, List.map_eq_nil_iff]
  have hlen : l.length = ((batches.flatten.take cap).filterMap (floGet : F64 → Option F64)).length := by
    rw [← hval, List.length_map]
  rw [hlne] at t1
  constructor
  · intro h X
    exact imputer_error hne hb hcol (t1 h) X
  · intro h
    obtain ⟨a, b, m, ht, hmid, ha, hb', ho, he⟩ := t2 (by rwa [Ne, hlne])
    refine ⟨m, value a, value b, by rwa [hval] at hmid, ?_, ?_, fun X => imputer_median hne hb hcol hnone ht X⟩
    · intro hs
      have := isMedian_of (fun _ h => cast_self h) hfin hmid ho he (by rwa [← hlen])
      rwa [hval] at this
    · intro hev hs
      rw [he (by rwa [← hlen])]
      obtain ⟨s, hp, _, h1, h2⟩ := hmid
      have hfa : ∀ x : F64, value x ∈ ((batches.flatten.take cap).filterMap (floGet : F64 → Option F64)).map value → Finite x := by
        intro x hx
        obtain ⟨v, hv, he⟩ := List.mem_map.1 hx
        rw [finite_key]
        rw [value_key, value_key x, fval_inj] at he
        rw [← he, ← finite_key]
        exact hfin v hv
      have fa := hfa a (hp.mem_iff.1 (List.mem_of_getElem? h1))
      have fb := hfa b (hp.mem_iff.1 (List.mem_of_getElem? h2))
      obtain ⟨ca, ea⟩ := cast_self fa
      obtain ⟨cb, eb⟩ := cast_self fb
      have hi := half_over ca cb (by rw [ea, eb]; exact hs)
      rw [← isInf_iff] at hi ⊢
      exact cast_inf hi

/-! ### Integer columns -/

/-- Integer columns, nullable or not: the imputer has the median of the `double`s nearest to the values, which are the values up to
`2^53`. -/
theorem C75_integers [CInt V] (get : ι → Option V)
    (col cap : Nat) (hcap : 0 < cap) (batches : List (List ι)) (hne : batches ≠ []) (hb : NoEmptyBatch batches)
    (maps : AnnotationMaps (MedAnnot V S F64)) (hcol : col < maps.length)
    (hnone : getAnnotation MedAnnot.isMedian maps col "MedianEstimator" = .ok none)
    (zs : List Int) (hzs : zs = ((batches.flatten.take cap).filterMap get).map CInt.toInt)
    (hv : ∀ z ∈ zs, |z| ≤ 2 ^ 64) :
    (zs = [] → ∀ X : Xf F64 ι ι,
      FeaturizerYields X (fun _ => medianComponent (intGet get) col cap) 1 (makeMedian col) batches maps (.error .runtimeError)) ∧
    (zs ≠ [] → ∃ (m : F64) (l : List ℚ),
      List.Forall₂ (fun (z : Int) (q : ℚ) => ∃ d : F64, IsNearest (z : ℚ) d ∧ q = value d) zs l ∧ IsMedian l m ∧
      ((∀ z ∈ zs, |z| ≤ 2 ^ 53) → IsMedian (zs.map fun z : Int => (z : ℚ)) m) ∧ ∀ X : Xf F64 ι ι,
      FeaturizerYields X (fun _ => medianComponent (intGet get) col cap) 1 (makeMedian col) batches maps (.ok m)) := by
  have hvs : (batches.flatten.take cap).filterMap (intGet get : ι → Option F64) = zs.map fun z => ofInt z := by
    rw [hzs, List.map_map, List.map_filterMap]
    rfl
  have hbound : ∀ z ∈ zs, Finite (ofInt z : F64) ∧ |value (ofInt z : F64)| ≤ 2 ^ 65 := fun z hz => int_double (hv z hz)
  have hfin : ∀ v ∈ (batches.flatten.take cap).filterMap (intGet get : ι → Option F64), Finite v := by
    rw [hvs]
    intro v hv
    obtain ⟨z, hz, rfl⟩ := List.mem_map.1 hv
    exact (hbound z hz).1
  obtain ⟨t1, t2⟩ := median_trained (T := F64) (intGet get) MedAnnot.median MedAnnot.isMedian col cap hcap batches hb maps hcol hnone _ rfl
    (fun v hv => Finite.not_nan (hfin v hv))
  have hnil : (batches.flatten.take cap).filterMap (intGet get : ι → Option F64) = [] ↔ zs = [] := by
    rw [hvs, List.map_eq_nil_iff]
  rw [hnil] at t1
  constructor
  · intro h X
    exact imputer_error hne hb hcol (t1 h) X
  · intro h
    obtain ⟨a, b, m, ht, hmid, _, _, ho, he⟩ := t2 (by rwa [Ne, hnil])
    have hmed := isMedian_of (fun _ h => cast_self h) hfin hmid ho he
      (.inr (lt_of_le_of_lt (middles_bound hmid (B := 2 ^ 65) (by
        rw [hvs]
        intro q hq
        obtain ⟨v, hv, rfl⟩ := List.mem_map.1 hq
        obtain ⟨z, hz, rfl⟩ := List.mem_map.1 hv
        exact (hbound z hz).2)) (by have := large_66; rwa [← pow_succ']))) 
    rw [hvs, List.map_map] at hmed
    refine ⟨m, _, ?_, hmed, ?_, fun X => imputer_median hne hb hcol hnone ht X⟩
    · rw [List.forall₂_map_right_iff, List.forall₂_same]
      intro z hz
      exact ⟨ofInt z, nearest_of_key (key_ofInt z) (hbound z hz).1, rfl⟩
    · intro hsm
      rwa [List.map_congr_left (g := fun z : Int => (z : ℚ))] at hmed
      intro z hz
      exact (ofInt_exact (by have := hsm z hz; rw [Int.abs_eq_natAbs] at this; exact_mod_cast this)).2

/-- What the median imputer does with its inputs. -/
theorem C75_impute (m : F64) :
    (∀ x : F32, IsNaN x → execMedian floGet m x = m) ∧ (∀ x : F64, IsNaN x → execMedian floGet m x = m) ∧
    (∀ x : F32, Finite x → Finite (execMedian floGet m x) ∧ value (execMedian floGet m x) = value x) ∧
    (∀ x : F64, Finite x → Finite (execMedian floGet m x) ∧ value (execMedian floGet m x) = value x) := by
  refine ⟨fun x h => ?_, fun x h => ?_, fun x h => ?_, fun x h => ?_⟩
  · rw [← isNaN_iff] at h
    simp only [execMedian, floGet, h, if_true, Option.getD_none]
  · rw [← isNaN_iff] at h
    simp only [execMedian, floGet, h, if_true, Option.getD_none]
  · simp only [execMedian, floGet, Finite.not_nan h, Bool.false_eq_true, if_false, Option.getD_some]
    exact cast_exact h
  · simp only [execMedian, floGet, Finite.not_nan h, Bool.false_eq_true, if_false, Option.getD_some]
    exact cast_self h

/-- What it does with integers. -/
theorem C75_impute_integers [CInt V] (get : ι → Option V) (m : F64) (x : ι) :
    (get x = none → execMedian (intGet get) m x = m) ∧
    (∀ v, get x = some v → Rounded (CInt.toInt v : ℚ) (execMedian (intGet get) m x)) := by
  constructor
  · intro h
    simp only [execMedian, intGet, h, Option.map_none, Option.getD_none]
  · intro v h
    simp only [execMedian, intGet, h, Option.map_some, Option.getD_some]
    exact ofInt_rounded _

/-! ### Too large -/

/-- The claim is false for `double` columns with large values: two values whose sum is too large have an infinite median, although
both may be the same number. -/
theorem C75_overflow_refuted {x y : F64} (hx : Finite x) (hy : Finite y) (hs : tooLarge F64 ≤ |value x + value y|)
    (col cap : Nat) (hcap : 2 ≤ cap) (maps : AnnotationMaps (MedAnnot V S F64)) (hcol : col < maps.length)
    (hnone : getAnnotation MedAnnot.isMedian maps col "MedianEstimator" = .ok none) :
    ∃ m : F64, IsInf m ∧ ∀ X : Xf F64 F64 F64,
      FeaturizerYields X (fun _ => medianComponent floGet col cap) 1 (makeMedian col) [[x, y]] maps (.ok m) := by
  have hcol' : ([[x, y]].flatten.take cap : List F64) = [x, y] := by
    rw [List.take_of_length_le] <;> simp
    omega
  have hl : numbers floNumber ([[x, y]].flatten.take cap) = [value x, value y] := by
    rw [hcol']
    simp [numbers, floNumber_finite hx, floNumber_finite hy]
  obtain ⟨-, h⟩ := C75_double_partial col cap (by omega) [[x, y]] (by simp) (by intro b hb; simp at hb; simp [hb]) maps hcol hnone
    (by
      rw [hcol']
      intro z hz
      rw [← isInf_iff]
      simp only [List.mem_cons, List.not_mem_nil, or_false] at hz
      rcases hz with rfl | rfl
      · simp [Finite.not_inf hx]
      · simp [Finite.not_inf hy]) _ hl.symm
  obtain ⟨m, lo, hi, ⟨s, hp, _, h1, h2⟩, _, hinf, hy'⟩ := h (by simp)
  refine ⟨m, hinf (by simp) ?_, hy'⟩
  have hlen := hp.length_eq
  simp only [List.length_cons, List.length_nil] at hlen
  obtain ⟨p, q, rfl⟩ := List.length_eq_two.1 hlen
  simp at h1 h2
  rw [← h1, ← h2]
  have := hp.sum_eq
  simp at this
  rwa [this]

theorem value_largest_twice : tooLarge F64 ≤ |value (largest : F64) + value (largest : F64)| := by
  by_contra h
  have h1 := (rnd_finite_iff (T := F64)).2 (not_le.1 h)
  have h2 : fval (fmt F64) ((fmt F64).inf : Int) ≤ value (largest : F64) + value (largest : F64) := by
    rw [value_key, key_largest]
    rw [fval_nat, fval_nat, ← add_div]
    have h4 : (fmt F64).mag (fmt F64).inf ≤ (fmt F64).mag ((fmt F64).inf - 1) + (fmt F64).mag ((fmt F64).inf - 1) := by decide +kernel
    generalize (fmt F64).mag (fmt F64).inf = A at h4 ⊢
    generalize (fmt F64).mag ((fmt F64).inf - 1) = B at h4 ⊢
    refine div_le_div_of_nonneg_right ?_ (by positivity)
    exact_mod_cast h4
  have h3 := rnd_mono (F := fmt F64) Lawful.good h2
  rw [rnd_fval Lawful.good (by simp)] at h3
  omega

/-! ### Truth values -/

theorem sorted_bool (l : List Bool) : l.Pairwise (· ≤ ·) → ∀ (i : Nat) b, l[i]? = some b → (b = true ↔ l.count false ≤ i) := by
  induction l with
  | nil => intro _ i b h; simp at h
  | cons x l ih =>
    intro hs i b h
    rw [List.pairwise_cons] at hs
    cases x
    · rw [List.count_cons_self]
      cases i with
      | zero => simp at h; simp [← h]
      | succ i =>
        rw [List.getElem?_cons_succ] at h
        rw [ih hs.2 i b h]
        omega
    · have hall : ∀ y ∈ l, y = true := fun y hy => by
        have := hs.1 y hy
        revert this
        cases y <;> decide
      have h0 : (true :: l).count false = 0 := by
        rw [List.count_eq_zero]
        intro h
        rcases List.mem_cons.1 h with h | h
        · cases h
        · cases hall _ h
      have hb : b = true := by
        rcases List.mem_cons.1 (List.mem_of_getElem? h) with h | h
        · exact h
        · exact hall b h
      rw [h0, hb]
      simp

/-- `bool` columns: the median is true if there are at least as many true as false values. -/
theorem C75_bool {α : Type} (wrap : Bool → α) (kind : α → Bool) (hkind : ∀ v, kind (wrap v) = true)
    (col cap : Nat) (hcap : 0 < cap) (batches : List (List (Option Bool))) (hb : NoEmptyBatch batches)
    (maps : AnnotationMaps α) (hcol : col < maps.length)
    (hnone : getAnnotation kind maps col "MedianEstimator" = .ok none)
    (values : List Bool) (hv : values = (batches.flatten.take cap).filterMap id) :
    (values = [] → trainEstimator (boolPolicy wrap) (medianConfig col kind) cap ⟨[], []⟩ batches maps = (.error .runtimeError, maps)) ∧
    (values ≠ [] → ∃ maps', trainEstimator (boolPolicy wrap) (medianConfig col kind) cap ⟨[], []⟩ batches maps = (.ok (), maps') ∧
      getAnnotation kind maps' col "MedianEstimator" = .ok (some (wrap (decide (values.count false ≤ values.count true))))) := by
  have h := C22_median (id : Bool → Bool) true (fun a b => a || b) false wrap kind hkind col cap hcap batches hb maps hcol hnone
  have e : (batches.flatten.take cap).filterMap (fun x => x.map (id : Bool → Bool)) = values := by
    rw [hv]
    exact List.filterMap_congr fun x _ => by cases x <;> rfl
  simp only at h
  rw [e] at h
  constructor
  · intro hn
    rw [if_pos hn] at h
    exact h
  · intro hn
    rw [if_neg hn] at h
    obtain ⟨m, maps', h1, h2, s, hp, hs, lo, up, hlo, hup, hm⟩ := h
    refine ⟨maps', h1, ?_⟩
    have hpos : values.length ≠ 0 := fun h0 => hn (List.length_eq_zero_iff.1 h0)
    have hlen := hp.length_eq
    have hcount : values.count false + values.count true = s.length := by
      rw [hlen]
      have := List.length_eq_countP_add_countP (p := fun b : Bool => b == false) (l := values)
      have e2 : values.countP (fun a => decide ¬(a == false) = true) = values.count true := by
        unfold List.count
        exact List.countP_congr fun b _ => by cases b <;> simp
      rw [this, e2]
      rfl
    have l1 := sorted_bool s hs _ _ hlo
    have l2 := sorted_bool s hs _ _ hup
    rw [hp.count_eq] at l1 l2
    have : m = decide (values.count false ≤ values.count true) := by
      rw [Bool.eq_iff_iff, decide_eq_true_iff, hm]
      by_cases hev : s.length % 2 = 0
      · rw [if_pos ⟨rfl, hev⟩, Bool.or_eq_true, l1, l2]
        omega
      · rw [if_neg (fun h => hev h.2), l1]
        omega
    rw [← this]
    exact h2

/-! ### Examples -/

example : ∃ m : F64, IsMedian [3, -4] m ∧ ∀ X : Xf F64 F64 F64,
    FeaturizerYields X (fun _ => medianComponent floGet 0 9) 1 (makeMedian 0) [[ofInt 3, nan], [ofInt (-4)]]
      ([[]] : AnnotationMaps (MedAnnot F64 F80 F64)) (.ok m) := by
  obtain ⟨-, h⟩ := C75_double_partial (V := F64) (S := F80) 0 9 (by decide) [[ofInt 3, nan], [ofInt (-4)]] (by simp)
    (by intro b hb; simp at hb; rcases hb with rfl | rfl <;> simp) [[]] (by simp) rfl example_finite _ rfl
  rw [example_numbers] at h
  obtain ⟨m, lo, hi, hmid, hm, _, hy⟩ := h (by simp)
  refine ⟨m, hm (.inr ?_), hy⟩
  have := middles_bound hmid (B := 4) (by
    intro q hq
    simp at hq
    rcases hq with rfl | rfl <;> norm_num)
  exact lt_of_le_of_lt this (lt_of_le_of_lt (by norm_num) large_66)

/-- The median of the largest `double` and the largest `double` is infinite. -/
example : Finite (largest : F64) ∧ ∃ m : F64, IsInf m ∧ ∀ X : Xf F64 F64 F64,
    FeaturizerYields X (fun _ => medianComponent floGet 0 9) 1 (makeMedian 0) [[largest, largest]]
      ([[]] : AnnotationMaps (MedAnnot F64 F80 F64)) (.ok m) :=
  ⟨finite_largest, C75_overflow_refuted finite_largest finite_largest value_largest_twice 0 9 (by decide) [[]] (by simp) rfl⟩

example : ∃ m : F64, IsMedian [3, 5, -4] m ∧ ∀ X : Xf F64 (Option Int8) (Option Int8),
    FeaturizerYields X (fun _ => medianComponent (intGet (V := Int8) id) 0 9) 1 (makeMedian 0) [[some 3, none, some 5], [some (-4)]]
      ([[]] : AnnotationMaps (MedAnnot Int8 Int F64)) (.ok m) := by
  have e : (([[some 3, none, some 5], [some (-4)]].flatten.take 9).filterMap id).map (CInt.toInt (T := Int8)) = [3, 5, -4] := by decide
  obtain ⟨-, h⟩ := C75_integers (V := Int8) (S := Int) id 0 9 (by decide) [[some 3, none, some 5], [some (-4)]] (by simp)
    (by intro b hb; simp at hb; rcases hb with rfl | rfl <;> simp) [[]] (by simp) rfl [3, 5, -4] e.symm (by decide)
  obtain ⟨m, l, _, _, hm, hy⟩ := h (by simp)
  have := hm (by decide)
  norm_num at this
  exact ⟨m, this, hy⟩

/-- Of one true and one false value the median is true. -/
example : ∃ maps', trainEstimator (boolPolicy id) (medianConfig 0 fun _ => true) 9 ⟨[], []⟩ [[some true, none], [some false]] [[]]
      = (.ok (), maps') ∧ getAnnotation (fun _ => true) maps' 0 "MedianEstimator" = .ok (some true) := by
  obtain ⟨-, h⟩ := C75_bool id (fun _ => true) (fun _ => rfl) 0 9 (by decide) [[some true, none], [some false]]
    (by intro b hb; simp at hb; rcases hb with rfl | rfl <;> simp) [[]] (by simp) rfl [true, false] (by decide)
  exact h (by simp)

end Feat.FloatMedian
