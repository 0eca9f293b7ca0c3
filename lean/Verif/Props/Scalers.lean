import Verif.Model.Scalers
import Verif.Proofs.ComponentPipeline
import Verif.Props.Ranges
import Verif.Props.Statistics
import Verif.Props.Median
import Mathlib.Algebra.Order.Ring.Abs
import Mathlib.Tactic.Linarith
import Mathlib.Tactic.FieldSimp
import Mathlib.Tactic.Ring
/-
C26 min-max scaling, C27 max-abs, robust and standard scaling.
-/
namespace Feat
variable {V F T α : Type}

theorem getAnnotationData_of {kind : α → Bool} {maps : AnnotationMaps α} {col : Nat} {name : String} {a : α}
    (h : getAnnotation kind maps col name = .ok (some a)) : getAnnotationData kind maps col name = .ok a := by
  unfold getAnnotationData
  rw [h]

/-! ### C26 -/

/-- `f` scales the values to the unit interval: it is an increasing affine function (constant 0 if all values are
equal), all values land in [0, 1], the least at 0 and the greatest at 1. -/
structure UnitScaled [LinearOrder V] [Field F] [LinearOrder F] (toF : V → F) (values : List V)
    (f : V → FVal F) : Prop where
  bounded : ∀ v ∈ values, ∃ y, f v = .num y ∧ 0 ≤ y ∧ y ≤ 1
  affine : ∃ p q, 0 ≤ p ∧ ∀ v, f v = .num (p * toF v + q)
  monotone : ∀ a b, a ≤ b → ∃ x y, f a = .num x ∧ f b = .num y ∧ x ≤ y
  least : ∀ v ∈ values, (∀ w ∈ values, v ≤ w) → f v = .num 0
  greatest : ∀ v ∈ values, (∀ w ∈ values, w ≤ v) → (∃ w ∈ values, w ≠ v) → f v = .num 1
  constant : (∀ v ∈ values, ∀ w ∈ values, v = w) → ∀ v, f v = .num 0

private theorem unitScaled_of [LinearOrder V] [Field F] [LinearOrder F] [IsStrictOrderedRing F]
    (k : InputKind V F) (hmono : ∀ a b, a ≤ b ↔ k.toF a ≤ k.toF b) (hz : k.toF k.zero = 0)
    (values : List V) (lo hi d : V)
    (hlo : lo ∈ values) (hhi : hi ∈ values) (hb : ∀ v ∈ values, lo ≤ v ∧ v ≤ hi)
    (hd : k.toF d = k.toF hi - k.toF lo) :
    UnitScaled k.toF values (fun v => MinMaxScaler.exec k ⟨lo, d⟩ (some v)) := by
  have hinj : ∀ a b, k.toF a = k.toF b → a = b := fun a b h =>
    le_antisymm ((hmono a b).2 (le_of_eq h)) ((hmono b a).2 (le_of_eq h.symm))
  have hle : k.toF lo ≤ k.toF hi := (hmono _ _).1 (hb hi hhi).1
  have hd0 : d = k.zero ↔ lo = hi := by
    constructor
    · rintro rfl
      apply hinj
      rw [hz] at hd
      linarith
    · rintro rfl
      apply hinj
      rw [hd, hz]
      ring
  by_cases he : lo = hi
  · have hd' := hd0.2 he
    have hf : ∀ v, MinMaxScaler.exec k ⟨lo, d⟩ (some v) = .num 0 := by
      intro v
      simp [MinMaxScaler.exec, hd']
    have hall : ∀ v ∈ values, v = lo := fun v hv =>
      le_antisymm (by rw [he]; exact (hb v hv).2) (hb v hv).1
    exact {
      bounded := fun v _ => ⟨0, hf v, le_refl _, zero_le_one⟩
      affine := ⟨0, 0, le_refl _, fun v => by rw [hf v]; simp⟩
      monotone := fun a b _ => ⟨0, 0, hf a, hf b, le_refl _⟩
      least := fun v _ _ => hf v
      greatest := fun v hv _ ⟨w, hw, hne⟩ => absurd ((hall w hw).trans (hall v hv).symm) hne
      constant := fun _ => hf }
  · have hd' : d ≠ k.zero := fun h => he (hd0.1 h)
    have hlt : k.toF lo < k.toF hi := lt_of_le_of_ne hle (fun h => he (hinj _ _ h))
    have hpos : 0 < k.toF d := by rw [hd]; linarith
    have hf : ∀ v, MinMaxScaler.exec k ⟨lo, d⟩ (some v) = .num ((k.toF v - k.toF lo) / k.toF d) := by
      intro v
      simp [MinMaxScaler.exec, hd', fdiv, ne_of_gt hpos]
    have hm : ∀ a b, a ≤ b → (k.toF a - k.toF lo) / k.toF d ≤ (k.toF b - k.toF lo) / k.toF d := by
      intro a b h
      have := (hmono a b).1 h
      exact div_le_div_of_nonneg_right (by linarith) (le_of_lt hpos)
    have h0 : (k.toF lo - k.toF lo) / k.toF d = 0 := by simp
    have h1 : (k.toF hi - k.toF lo) / k.toF d = 1 := by
      rw [← hd]; exact div_self (ne_of_gt hpos)
    exact {
      bounded := fun v hv => ⟨_, hf v, by rw [← h0]; exact hm _ _ (hb v hv).1,
        by rw [← h1]; exact hm _ _ (hb v hv).2⟩
      affine := ⟨1 / k.toF d, -(k.toF lo / k.toF d), le_of_lt (one_div_pos.2 hpos), fun v => by
        rw [hf v]; congr 1; field_simp; ring⟩
      monotone := fun a b h => ⟨_, _, hf a, hf b, hm a b h⟩
      least := fun v hv hl => by
        rw [le_antisymm (hl lo hlo) (hb v hv).1, hf, h0]
      greatest := fun v hv hl _ => by
        rw [le_antisymm (hb v hv).2 (hl hi hhi), hf, h1]
      constant := fun h => absurd (h lo hlo hi hhi) he }

/-- Training a min-max scaler. -/
private theorem minMax_trained [LinearOrder V] [Field F] [LinearOrder F] [IsStrictOrderedRing F]
    (k : InputKind V F) (hmono : ∀ a b, a ≤ b ↔ k.toF a ≤ k.toF b) (hz : k.toF k.zero = 0)
    (hlim : k.lowest < k.largest) (val : T → V)
    (col cap : Nat) (hcap : 0 < cap) (batches : List (List (Option T))) (hne : batches ≠ [])
    (hb : NoEmptyBatch batches) (maps : AnnotationMaps (NumAnnot V F)) (hcol : col < maps.length)
    (hnone : getAnnotation NumAnnot.isMinMax maps col "MinMaxEstimator" = .ok none)
    (hv : ∀ x, some x ∈ batches.flatten → k.lowest ≤ val x ∧ val x ≤ k.largest)
    (hsub : ∀ a b, some a ∈ batches.flatten.take cap → some b ∈ batches.flatten.take cap → val a ≤ val b →
      ∃ d, k.sub (val b) (val a) = .ok d ∧ k.toF d = k.toF (val b) - k.toF (val a)) :
    let values := (batches.flatten.take cap).filterMap (fun x => x.map val)
    (values = [] → ∀ X : Xf (MinMaxScaler V) (Option T) (Option T),
      FeaturizerYields X (fun _ => minMaxComponent k val col cap) 1 (makeMinMaxScaler k col) batches maps
        (.error .invalidArgument)) ∧
    (values ≠ [] → ∃ t : MinMaxScaler V,
      (∀ X : Xf (MinMaxScaler V) (Option T) (Option T),
        FeaturizerYields X (fun _ => minMaxComponent k val col cap) 1 (makeMinMaxScaler k col) batches maps
          (.ok t)) ∧
      UnitScaled k.toF values (fun v => t.exec k (some v)) ∧ t.exec k none = .nan) := by
  intro values
  have h := C24_min_max_partial k.lowest k.largest hlim (NumAnnot.minMax (F := F)) NumAnnot.isMinMax
    (fun _ _ => rfl) val col cap hcap batches hb maps hcol hnone hv
  refine ⟨fun he X => ?_, fun hn => ?_⟩
  · exact featurizer_one X (minMaxComponent k val col cap) _ batches hne hb maps hcol _ _ (h.1 he)
  · obtain ⟨lo, hi, maps', ht, hget, h1, h2, h3⟩ := h.2 hn
    have hx : ∀ v ∈ values, ∃ a, some a ∈ batches.flatten.take cap ∧ val a = v := by
      intro v hv
      obtain ⟨x, hx, hxv⟩ := List.mem_filterMap.1 hv
      cases x with
      | none => simp at hxv
      | some x => exact ⟨x, hx, by simpa using hxv⟩
    obtain ⟨a, ha, rfl⟩ := hx lo h1
    obtain ⟨b, hbb, rfl⟩ := hx hi h2
    obtain ⟨d, hd1, hd2⟩ := hsub a b ha hbb (h3 _ h2).1
    refine ⟨⟨val a, d⟩, fun X => ?_, unitScaled_of k hmono hz values _ _ d h1 h2 h3 hd2, rfl⟩
    have hy := featurizer_one X (minMaxComponent k val col cap) (makeMinMaxScaler k col) batches hne hb maps
      hcol _ _ ht
    have hm : makeMinMaxScaler k col maps' = .ok ⟨val a, d⟩ := by
      unfold makeMinMaxScaler
      rw [getAnnotationData_of hget]
      simp only [MinMaxScaler.new]
      rw [if_neg (not_lt.2 (h3 _ h2).1), hd1]
    simp only [Except.bind] at hy
    rw [hm] at hy
    exact hy

/-- **C26** (part: integer inputs of any width whose training values spread over no more than the type's
largest value — always true for unsigned types; see `C26_int8` and `C26_int32`) A min-max scaler trained
through its public calls on any batches scales the training data to the unit interval.  With no values,
training throws `invalid_argument`. -/
theorem C26_integers_partial [CInt T] [Field F] [LinearOrder F] [IsStrictOrderedRing F]
    (hlim : CInt.lo T < CInt.hi T) (hlo : CInt.lo T ≤ 0)
    (col cap : Nat) (hcap : 0 < cap) (batches : List (List (Option T))) (hne : batches ≠ [])
    (hb : NoEmptyBatch batches) (maps : AnnotationMaps (NumAnnot Int F)) (hcol : col < maps.length)
    (hnone : getAnnotation NumAnnot.isMinMax maps col "MinMaxEstimator" = .ok none)
    (hspread : ∀ a b, some a ∈ batches.flatten.take cap → some b ∈ batches.flatten.take cap →
      CInt.toInt b - CInt.toInt a ≤ CInt.hi T) :
    let values := (batches.flatten.take cap).filterMap (fun x => x.map CInt.toInt)
    let k : InputKind Int F := intInput T
    (values = [] → ∀ X : Xf (MinMaxScaler Int) (Option T) (Option T),
      FeaturizerYields X (fun _ => minMaxComponent k CInt.toInt col cap) 1 (makeMinMaxScaler k col) batches maps
        (.error .invalidArgument)) ∧
    (values ≠ [] → ∃ t : MinMaxScaler Int,
      (∀ X : Xf (MinMaxScaler Int) (Option T) (Option T),
        FeaturizerYields X (fun _ => minMaxComponent k CInt.toInt col cap) 1 (makeMinMaxScaler k col) batches maps
          (.ok t)) ∧
      UnitScaled (fun v : Int => (v : F)) values (fun v => t.exec k (some v)) ∧ t.exec k none = .nan) :=
  minMax_trained (intInput T) (fun a b => by simp [intInput]) (by simp [intInput]) hlim CInt.toInt col cap hcap
    batches hne hb maps hcol hnone (fun x _ => CInt.range x) (fun a b ha hb hab => by
      have h1 := hspread a b ha hb
      refine ⟨CInt.toInt b - CInt.toInt a, ?_, by simp [intInput]⟩
      simp only [intInput, CInt.arith]
      rw [if_neg (by rintro ⟨_, h⟩; exact h ⟨by omega, by omega⟩)]
      simp only [Except.map]
      rw [CInt.toInt_ofInt _ (by omega) h1])

/-- **C26** (floating point inputs, exact arithmetic, finite values) -/
theorem C26_exact [Field F] [LinearOrder F] [IsStrictOrderedRing F] (lowest largest : F)
    (hlim : lowest < largest)
    (col cap : Nat) (hcap : 0 < cap) (batches : List (List (Option F))) (hne : batches ≠ [])
    (hb : NoEmptyBatch batches) (maps : AnnotationMaps (NumAnnot F F)) (hcol : col < maps.length)
    (hnone : getAnnotation NumAnnot.isMinMax maps col "MinMaxEstimator" = .ok none)
    (hv : ∀ x, some x ∈ batches.flatten → lowest ≤ x ∧ x ≤ largest) :
    let values := (batches.flatten.take cap).filterMap id
    let k : InputKind F F := exactInput lowest largest
    (values = [] → ∀ X : Xf (MinMaxScaler F) (Option F) (Option F),
      FeaturizerYields X (fun _ => minMaxComponent k id col cap) 1 (makeMinMaxScaler k col) batches maps
        (.error .invalidArgument)) ∧
    (values ≠ [] → ∃ t : MinMaxScaler F,
      (∀ X : Xf (MinMaxScaler F) (Option F) (Option F),
        FeaturizerYields X (fun _ => minMaxComponent k id col cap) 1 (makeMinMaxScaler k col) batches maps
          (.ok t)) ∧
      UnitScaled id values (fun v => t.exec k (some v)) ∧ t.exec k none = .nan) := by
  have h := minMax_trained (exactInput lowest largest) (fun a b => by simp [exactInput])
    (by simp [exactInput]) hlim (id : F → F) col cap hcap
    batches hne hb maps hcol hnone hv (fun a b _ _ _ => ⟨b - a, rfl, rfl⟩)
  have hid : (fun x : Option F => x.map id) = id := by funext x; simp
  rw [hid] at h
  exact h

/-- **C26** fails for `int8_t` (and `int16_t`): trained on −100 and 100 the span becomes −56, and 100 is mapped to
−200/56, far below 0. -/
theorem C26_int8 : ∃ (batches : List (List (Option Int8))) (t : MinMaxScaler Int),
    (∀ X : Xf (MinMaxScaler Int) (Option Int8) (Option Int8),
      FeaturizerYields X (fun _ => minMaxComponent (intInput (F := Rat) Int8) CInt.toInt 0 9) 1
        (makeMinMaxScaler (intInput Int8) 0) batches [[]] (.ok t)) ∧
    some (100 : Int8) ∈ batches.flatten ∧
    t.exec (intInput (F := Rat) Int8) (some 100) = .num (-200 / 56) := by
  refine ⟨[[some (-100), some 100]], ⟨-100, -56⟩, fun X => ?_, by simp, by decide +kernel⟩
  have h := C24_min_max_partial (CInt.lo Int8) (CInt.hi Int8) (by decide)
    (NumAnnot.minMax (V := Int) (F := Rat)) NumAnnot.isMinMax
    (fun _ _ => rfl) CInt.toInt 0 9 (by decide) [[some (-100), some (100 : Int8)]]
    (by intro b hb; simp at hb; subst hb; simp) [[]] (by decide) rfl (fun x _ => CInt.range x)
  obtain ⟨lo, hi, maps', ht, hget, h1, h2, h3⟩ := h.2 (by decide)
  have hv : ([[some (-100), some (100 : Int8)]].flatten.take 9).filterMap (fun x => x.map CInt.toInt)
      = [-100, 100] := by decide
  rw [hv] at h1 h2 h3
  have hlo : lo = -100 := by
    have := (h3 (-100) (by simp)).1
    simp at h1; omega
  have hhi : hi = 100 := by
    have := (h3 100 (by simp)).2
    simp at h2; omega
  subst hlo hhi
  have hy := featurizer_one X (minMaxComponent (intInput (F := Rat) Int8) CInt.toInt 0 9)
    (makeMinMaxScaler (intInput Int8) 0) [[some (-100), some (100 : Int8)]] (by simp)
    (by intro b hb; simp at hb; subst hb; simp) [[]] (by decide) _ _ ht
  have hm : makeMinMaxScaler (intInput (F := Rat) Int8) 0 maps' = .ok ⟨-100, -56⟩ := by
    unfold makeMinMaxScaler
    rw [getAnnotationData_of hget]
    rfl
  simp only [Except.bind] at hy
  rw [hm] at hy
  exact hy

/-- **C26** fails for `int32_t` (and `int64_t`): creating the transformer for data that spreads over more than the
largest value is undefined behaviour. -/
theorem C26_int32 (lo hi : Int) (h : 2147483647 < hi - lo) :
    MinMaxScaler.new (intInput (F := Rat) Int32) lo hi = .error .ub := by
  unfold MinMaxScaler.new
  rw [if_neg (by omega)]
  simp only [intInput, CInt.arith]
  rw [if_pos ⟨rfl, fun hh => by
    have : hi - lo ≤ 2147483647 := hh.2
    omega⟩]
  rfl

/-! Non-vacuity: `uint8_t` values 10, 60, 110 scale to 0, 1/2, 1. -/
example : ∃ t : MinMaxScaler Int,
    UnitScaled (fun v : Int => (v : Rat)) [60, 10, 110] (fun v => t.exec (intInput (F := Rat) UInt8) (some v)) := by
  have h := C26_integers_partial (T := UInt8) (F := Rat) (by decide) (by decide) 0 9 (by decide)
    [[some 60, some 10], [some 110]] (by simp)
    (by intro b hb; simp at hb; rcases hb with rfl | rfl <;> simp) [[]] (by simp) rfl
    (by
      intro a b _ _
      have h1 := CInt.range (T := UInt8) a
      have h2 := CInt.range (T := UInt8) b
      have h3 : CInt.lo UInt8 = 0 := rfl
      omega)
  obtain ⟨t, _, ht, _⟩ := h.2 (by decide)
  exact ⟨t, ht⟩

/-! ### C27: max-abs scaling -/

private theorem maxAbs_run [Field F] [LinearOrder F] [IsStrictOrderedRing F] (toF : T → F)
    (abs : T → Except Err F) (wrap : F → α) (xs : List (Option T))
    (habs : ∀ x, some x ∈ xs → abs x = .ok |toF x|) : ∀ s : F, 0 ≤ s →
    ∃ s', (maxAbsPolicy abs wrap).fitAll xs s = (.ok (), s') ∧ s ≤ s' ∧
      (∀ v ∈ xs.filterMap (fun x => x.map toF), |v| ≤ s') ∧
      (s' = s ∨ ∃ v ∈ xs.filterMap (fun x => x.map toF), |v| = s') := by
  induction xs with
  | nil => intro s _; exact ⟨s, rfl, le_refl _, by simp, .inl rfl⟩
  | cons x xs ih =>
    intro s hs
    have ih := ih (fun y hy => habs y (List.mem_cons_of_mem _ hy))
    cases x with
    | none =>
      obtain ⟨s', h1, h2, h3, h4⟩ := ih s hs
      exact ⟨s', h1, h2, by simpa using h3, by simpa using h4⟩
    | some x =>
      obtain ⟨s', h1, h2, h3, h4⟩ := ih (max s |toF x|) (le_trans hs (le_max_left _ _))
      refine ⟨s', ?_, le_trans (le_max_left _ _) h2, ?_, ?_⟩
      · simp only [Policy.fitAll]
        have : (maxAbsPolicy abs wrap).fit (some x) s = (.ok (), max s |toF x|) := by
          simp only [maxAbsPolicy, habs x (by simp)]
        rw [this]
        exact h1
      · intro v hv
        simp only [List.filterMap_cons, Option.map_some, List.mem_cons] at hv
        rcases hv with rfl | hv
        · exact le_trans (le_max_right _ _) h2
        · exact h3 v hv
      · simp only [List.filterMap_cons, Option.map_some, List.mem_cons]
        rcases h4 with h4 | ⟨v, hv, h4⟩
        · rcases max_choice s |toF x| with h5 | h5
          · left; rw [h4, h5]
          · right; exact ⟨toF x, .inl rfl, by rw [h4, h5]⟩
        · right; exact ⟨v, .inr hv, h4⟩

/-- Max-abs scaling of the values: a positive multiple of the input (never NaN or infinite), which keeps all values
in [−1, 1] and reaches −1 or 1 unless all values are zero. -/
structure AbsScaled [Field F] [LinearOrder F] (values : List F) (f : F → FVal F) : Prop where
  linear : ∃ p, 0 < p ∧ ∀ x, f x = .num (p * x)
  bounded : ∀ v ∈ values, ∃ y, f v = .num y ∧ -1 ≤ y ∧ y ≤ 1
  signs : ∀ x, ∃ y, f x = .num y ∧ (0 < x ↔ 0 < y) ∧ (x < 0 ↔ y < 0)
  attained : (∃ v ∈ values, v ≠ 0) → ∃ v ∈ values, f v = .num 1 ∨ f v = .num (-1)

private theorem absScaled_of [Field F] [LinearOrder F] [IsStrictOrderedRing F] (values : List F) (a : F)
    (h0 : 0 ≤ a) (hb : ∀ v ∈ values, |v| ≤ a) (ha : a = 0 ∨ ∃ v ∈ values, |v| = a) :
    AbsScaled values (fun x => maxAbsScale a (some x)) := by
  have hlin : ∃ p, 0 < p ∧ (∀ x, maxAbsScale a (some x) = .num (p * x)) ∧ (a ≠ 0 → p = 1 / a) := by
    by_cases h : a = 0
    · exact ⟨1, zero_lt_one, fun x => by simp [maxAbsScale, h], fun h' => absurd h h'⟩
    · have hpos : 0 < a := lt_of_le_of_ne h0 (Ne.symm h)
      exact ⟨1 / a, one_div_pos.2 hpos, fun x => by
        simp only [maxAbsScale, ne_eq, h, not_false_eq_true, if_true, fdiv, if_false]
        congr 1; field_simp, fun _ => rfl⟩
  obtain ⟨p, hp, hf, hpa⟩ := hlin
  refine ⟨⟨p, hp, hf⟩, ?_, ?_, ?_⟩
  · intro v hv
    refine ⟨_, hf v, ?_⟩
    rw [← abs_le]
    by_cases h : a = 0
    · have : v = 0 := abs_eq_zero.1 (le_antisymm (by rw [← h]; exact hb v hv) (abs_nonneg v))
      rw [this]; simp
    · have hpos : 0 < a := lt_of_le_of_ne h0 (Ne.symm h)
      rw [abs_mul, abs_of_pos hp, hpa h, one_div, inv_mul_le_iff₀ hpos, mul_one]
      exact hb v hv
  · intro x
    refine ⟨_, hf x, ?_, ?_⟩
    · exact (mul_pos_iff_of_pos_left hp).symm
    · constructor
      · intro hx; exact mul_neg_of_pos_of_neg hp hx
      · intro hx
        rcases lt_or_ge x 0 with h | h
        · exact h
        · exact absurd hx (not_lt.2 (mul_nonneg (le_of_lt hp) h))
  · rintro ⟨v, hv, hv0⟩
    have h : a ≠ 0 := by
      intro h
      exact hv0 (abs_eq_zero.1 (le_antisymm (by rw [← h]; exact hb v hv) (abs_nonneg v)))
    rcases ha with ha | ⟨w, hw, hwa⟩
    · exact absurd ha h
    · refine ⟨w, hw, ?_⟩
      rw [hf w, hpa h]
      rcases abs_choice w with h1 | h1
      · left; rw [h1] at hwa; rw [hwa]; congr 1; field_simp
      · right
        have : w = -a := by rw [← hwa, h1]; simp
        rw [this]; congr 1; field_simp

private theorem maxAbs_trained [Field F] [LinearOrder F] [IsStrictOrderedRing F] (toF : T → F)
    (abs : T → Except Err F)
    (col cap : Nat) (hcap : 0 < cap) (batches : List (List (Option T))) (hne : batches ≠ [])
    (hb : NoEmptyBatch batches) (maps : AnnotationMaps (NumAnnot V F)) (hcol : col < maps.length)
    (hnone : getAnnotation NumAnnot.isMaxAbs maps col "MaxAbsValueEstimator" = .ok none)
    (habs : ∀ x, some x ∈ batches.flatten.take cap → abs x = .ok |toF x|) :
    ∃ t : F,
      (∀ X : Xf F (Option T) (Option T),
        FeaturizerYields X (fun _ => maxAbsComponent abs col cap) 1 (makeMaxAbsScaler col) batches maps
          (.ok t)) ∧
      AbsScaled ((batches.flatten.take cap).filterMap (fun x => x.map toF))
        (fun x => maxAbsScale t (some x)) ∧
      maxAbsScale t none = .nan := by
  have ht := trainEstimator_run (maxAbsPolicy abs NumAnnot.maxAbs) (fun _ _ => rfl)
    (maxAbsConfig col (NumAnnot.isMaxAbs (V := V) (F := F))) cap hcap
    0 batches hb maps hcol rfl hnone
  obtain ⟨a, h1, h2, h3, h4⟩ := maxAbs_run toF abs (NumAnnot.maxAbs (V := V)) (batches.flatten.take cap) habs 0
    (le_refl _)
  rw [h1] at ht
  simp only [maxAbsPolicy] at ht
  rw [if_neg (not_lt.2 h2)] at ht
  simp only at ht
  refine ⟨a, fun X => ?_, absScaled_of _ a h2 h3 h4, rfl⟩
  have hy := featurizer_one X (maxAbsComponent abs col cap) (makeMaxAbsScaler col) batches hne hb maps
      hcol _ _ (ht.trans (addAnnotation_ok maps _ col _ hcol).1)
  have hm : makeMaxAbsScaler col
      (addAnnotation (some (NumAnnot.maxAbs (V := V) a)) col "MaxAbsValueEstimator" maps).2 = .ok a := by
    unfold makeMaxAbsScaler
    rw [getAnnotationData_of (getAnnotation_add_self maps _ col _ _ rfl hnone)]
  simp only [Except.bind, maxAbsConfig] at hy
  rw [hm] at hy
  exact hy

/-- **C27** (max-abs scaling; part: integer inputs other than the smallest `int32_t`/`int64_t`, see
`C27_int32_min`) A max-abs scaler trained through its public calls scales the training data into [−1, 1] and
keeps the sign of every input. -/
theorem C27_maxAbs_integers_partial [CInt T] [Field F] [LinearOrder F] [IsStrictOrderedRing F]
    (col cap : Nat) (hcap : 0 < cap) (batches : List (List (Option T))) (hne : batches ≠ [])
    (hb : NoEmptyBatch batches) (maps : AnnotationMaps (NumAnnot V F)) (hcol : col < maps.length)
    (hnone : getAnnotation NumAnnot.isMaxAbs maps col "MaxAbsValueEstimator" = .ok none)
    (hmin : ∀ x, some x ∈ batches.flatten.take cap → CInt.strict T = true → -CInt.toInt x ≤ CInt.hi T) :
    ∃ t : F,
      (∀ X : Xf F (Option T) (Option T),
        FeaturizerYields X
          (fun _ => maxAbsComponent intAbsF col cap) 1
          (makeMaxAbsScaler col) batches maps (.ok t)) ∧
      AbsScaled ((batches.flatten.take cap).filterMap (fun x => x.map fun x => (CInt.toInt x : F)))
        (fun x => maxAbsScale t (some x)) ∧
      maxAbsScale t none = .nan :=
  maxAbs_trained (fun x => (CInt.toInt x : F)) _ col cap hcap batches hne hb maps hcol hnone (by
    intro x hx
    have h := hmin x hx
    unfold intAbsF intAbs
    by_cases h0 : CInt.toInt x < 0
    · rw [if_pos h0, if_neg (by rintro ⟨h1, h2⟩; have := h h1; omega)]
      have : (CInt.toInt x : F) < 0 := by exact_mod_cast h0
      simp [abs_of_neg this]
    · rw [if_neg h0]
      have : (0 : F) ≤ (CInt.toInt x : F) := by exact_mod_cast not_lt.1 h0
      simp [abs_of_nonneg this])

/-- **C27** (max-abs scaling of floating point inputs, exact arithmetic) -/
theorem C27_maxAbs_exact [Field F] [LinearOrder F] [IsStrictOrderedRing F]
    (col cap : Nat) (hcap : 0 < cap) (batches : List (List (Option F))) (hne : batches ≠ [])
    (hb : NoEmptyBatch batches) (maps : AnnotationMaps (NumAnnot V F)) (hcol : col < maps.length)
    (hnone : getAnnotation NumAnnot.isMaxAbs maps col "MaxAbsValueEstimator" = .ok none) :
    ∃ t : F,
      (∀ X : Xf F (Option F) (Option F),
        FeaturizerYields X (fun _ => maxAbsComponent (fun x => .ok (if x < 0 then -x else x)) col cap) 1
          (makeMaxAbsScaler col) batches maps (.ok t)) ∧
      AbsScaled ((batches.flatten.take cap).filterMap id) (fun x => maxAbsScale t (some x)) ∧
      maxAbsScale t none = .nan := by
  have h := maxAbs_trained (V := V) (id : F → F) (fun x => .ok (if x < 0 then -x else x)) col cap hcap batches hne hb
    maps hcol hnone (by
      intro x _
      by_cases h0 : x < 0
      · simp [h0, abs_of_neg h0]
      · simp [h0, abs_of_nonneg (not_lt.1 h0)])
  have hid : (fun x : Option F => x.map id) = id := by funext x; simp
  rw [hid] at h
  exact h

/-- **C27** fails for the smallest `int32_t` (and `int64_t`): training on it is undefined behaviour. -/
theorem C27_int32_min [Field F] [LinearOrder F] (kind : α → Bool) (wrap : F → α) (col cap : Nat)
    (hcap : 0 < cap) (maps : AnnotationMaps α) (hcol : col < maps.length)
    (hnone : getAnnotation kind maps col "MaxAbsValueEstimator" = .ok none) :
    trainEstimator (maxAbsPolicy (intAbsF (T := Int32) (F := F)) wrap)
      (maxAbsConfig col kind) cap 0 [[some (-2147483648)]] maps = (.error .ub, maps) := by
  rw [trainEstimator_run _ (fun _ _ => rfl) (maxAbsConfig col kind) cap hcap _ _
    (by intro b hb; simp at hb; subst hb; simp) maps hcol rfl hnone]
  have ht : ([[some (-2147483648 : Int32)]] : List (List (Option Int32))).flatten.take cap
      = [some (-2147483648)] := by
    cases cap with
    | zero => omega
    | succ c => simp
  have hs : intAbs (-2147483648 : Int32) = .error .ub := rfl
  rw [ht]
  simp only [Policy.fitAll, maxAbsPolicy, intAbsF, hs]

/-! Non-vacuity: 3, −8, 4 over the rationals. -/
example : ∃ t : Rat, AbsScaled [3, -8, 4] (fun x => maxAbsScale t (some x)) := by
  obtain ⟨t, _, h, _⟩ := C27_maxAbs_exact (V := Rat) (F := Rat) 0 9 (by decide)
    [[some 3, some (-8)], [none, some 4]] (by simp)
    (by intro b hb; simp at hb; rcases hb with rfl | rfl <;> simp) [[]] (by simp) rfl
  exact ⟨t, h⟩

end Feat
