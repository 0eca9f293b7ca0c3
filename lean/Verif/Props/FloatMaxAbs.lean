import Verif.Proofs.FloatMinMax
/-
C69: max-abs scaling in floating point arithmetic.
-/
namespace Feat.FloatScalers
open FloatText FloatArith
variable {V T : Type} [FloType T] [Lawful T]

/-- What the proofs use of an input type. -/
structure AbsLawful (k : AbsInput V T) (num : V → Prop) (val : V → ℚ) : Prop where
  toT_num : ∀ x, num x → Finite (k.toT x) ∧ key (k.toT x) = rnd (fmt T) (val x)
  abs_num : ∀ x, num x → ∃ a, k.abs x = .ok a ∧ Finite a ∧ key a = rnd (fmt T) |val x|
  zero_num : ∀ x, num x → rnd (fmt T) (val x) = 0 → val x = 0

/-- What the absolute value of an input is: NaN, or a number in order. -/
def Absolute (k : AbsInput V T) (x : V) : Prop := ∃ a, k.abs x = .ok a ∧ (isNaN a = true ∨ isNaN a = false ∧ 0 ≤ key a)

omit [Lawful T] in
theorem maxAbs_run {α : Type} (k : AbsInput V T) (wrap : T → α) (xs : List V) (hx : ∀ x ∈ xs, Absolute k x) (s : T)
    (hs : isNaN s = false) (h0 : 0 ≤ key s) :
    ∃ s', (maxAbsPolicy k wrap).fitAll xs s = (.ok (), s') ∧ isNaN s' = false ∧ 0 ≤ key s' ∧ key s ≤ key s' ∧
      (∀ x ∈ xs, ∀ a, k.abs x = .ok a → isNaN a = false → key a ≤ key s') ∧ (s' = s ∨ ∃ x ∈ xs, k.abs x = .ok s') := by
  induction xs generalizing s with
  | nil => exact ⟨s, rfl, hs, h0, le_refl _, by simp, .inl rfl⟩
  | cons x xs ih =>
    obtain ⟨a, ha, hcase⟩ := hx x (by simp)
    have hstep : (maxAbsPolicy k wrap).fit x s = (.ok (), if FloatArith.lt s a then a else s) := by
      simp only [maxAbsPolicy, ha]
    have hrest := fun y hy => hx y (List.mem_cons_of_mem _ hy)
    have hnext : ∃ s1, (if FloatArith.lt s a then a else s) = s1 ∧ isNaN s1 = false ∧ 0 ≤ key s1 ∧ key s ≤ key s1 ∧
        (isNaN a = false → key a ≤ key s1) ∧ (s1 = s ∨ s1 = a) := by
      rcases hcase with h | ⟨h, hp⟩
      · refine ⟨s, ?_, hs, h0, le_refl _, by simp [h], .inl rfl⟩
        rw [if_neg]
        unfold FloatArith.lt
        rw [h]; simp
      · by_cases hl : FloatArith.lt s a = true
        · refine ⟨a, if_pos hl, h, hp, ?_, fun _ => le_refl _, .inr rfl⟩
          unfold FloatArith.lt at hl
          simp at hl
          omega
        · refine ⟨s, if_neg hl, hs, h0, le_refl _, fun _ => ?_, .inl rfl⟩
          unfold FloatArith.lt at hl
          rw [hs, h] at hl
          simpa using hl
    obtain ⟨s1, e1, n1, z1, l1, a1, c1⟩ := hnext
    obtain ⟨s', h1, h2, h3, h4, h5, h6⟩ := ih hrest s1 n1 z1
    refine ⟨s', ?_, h2, h3, le_trans l1 h4, ?_, ?_⟩
    · unfold Policy.fitAll
      rw [hstep, e1]
      exact h1
    · intro y hy b hb hn
      rcases List.mem_cons.1 hy with rfl | hy
      · rw [ha] at hb
        cases hb
        exact le_trans (a1 hn) h4
      · exact h5 y hy b hb hn
    · rcases h6 with h6 | ⟨y, hy, h6⟩
      · rcases c1 with c1 | c1
        · exact .inl (h6.trans c1)
        · exact .inr ⟨x, by simp, by rw [ha, h6, c1]⟩
      · exact .inr ⟨y, by simp [hy], h6⟩

/-- Training: the largest absolute value is found, and refused if it is infinite. -/
theorem maxAbs_trained (k : AbsInput V T) (col cap : Nat) (hcap : 0 < cap) (batches : List (List V)) (hne : batches ≠ [])
    (hb : NoEmptyBatch batches) (maps : AnnotationMaps (NumAnnot V T)) (hcol : col < maps.length)
    (hnone : getAnnotation NumAnnot.isMaxAbs maps col "MaxAbsValueEstimator" = .ok none)
    (hx : ∀ x ∈ batches.flatten.take cap, Absolute k x) :
    ∃ s, isNaN s = false ∧ 0 ≤ key s ∧
      (∀ x ∈ batches.flatten.take cap, ∀ a, k.abs x = .ok a → isNaN a = false → key a ≤ key s) ∧
      (s = zero false ∨ ∃ x ∈ batches.flatten.take cap, k.abs x = .ok s) ∧
      ∀ X : Xf T V V, FeaturizerYields X (fun _ => maxAbsComponent k col cap) 1 (makeMaxAbs col) batches maps
        (if key s = (fmt T).inf then .error .invalidArgument else .ok s) := by
  have ht := trainEstimator_run (maxAbsPolicy k NumAnnot.maxAbs) (fun _ _ => rfl)
    (maxAbsConfig col (NumAnnot.isMaxAbs (V := V) (F := T))) cap hcap (zero false) batches hb maps hcol rfl hnone
  obtain ⟨s, h1, h2, h3, h4, h5, h6⟩ := maxAbs_run k (NumAnnot.maxAbs (V := V)) (batches.flatten.take cap) hx (zero false)
    (Finite.not_nan (finite_zero _)) (by rw [key_zero])
  refine ⟨s, h2, h3, h5, h6, fun X => ?_⟩
  rw [h1] at ht
  simp only [maxAbsPolicy] at ht
  have hneg : ¬FloatArith.lt s (zero false) = true := by
    unfold FloatArith.lt
    rw [key_zero, decide_eq_false (by omega)]
    simp
  rw [if_neg hneg] at ht
  have hi := isNaN_false.1 h2
  have hlar : FloatArith.lt largest s = true ↔ key s = (fmt T).inf := by
    unfold FloatArith.lt
    rw [h2, Finite.not_nan finite_largest, key_largest]
    have := inf_pos T
    simp only [Bool.not_false, Bool.true_and, decide_eq_true_iff]
    omega
  by_cases hk : key s = (fmt T).inf
  · rw [if_pos hk]
    rw [if_pos (hlar.2 hk)] at ht
    exact featurizer_one X (maxAbsComponent k col cap) (makeMaxAbs col) batches hne hb maps hcol _ _ ht
  · rw [if_neg hk]
    rw [if_neg (fun h => hk (hlar.1 h))] at ht
    have hy := featurizer_one X (maxAbsComponent k col cap) (makeMaxAbs col) batches hne hb maps hcol _ _
      (ht.trans (addAnnotation_ok maps _ col _ hcol).1)
    have hm : makeMaxAbs col (addAnnotation (some (NumAnnot.maxAbs (V := V) s)) col "MaxAbsValueEstimator" maps).2 = .ok s := by
      unfold makeMaxAbs
      rw [getAnnotationData_of (getAnnotation_add_self maps _ col _ _ rfl hnone)]
    simp only [Except.bind, maxAbsConfig] at hy
    rw [hm] at hy
    exact hy

/-! ### Scaling -/

theorem rnd_abs (q : ℚ) : rnd (fmt T) |q| = |rnd (fmt T) q| := by
  rcases le_total 0 q with h | h
  · rw [abs_of_nonneg h, abs_of_nonneg (rnd_nonneg h)]
  · rw [abs_of_nonpos h, rnd_neg Lawful.good, abs_of_nonpos]
    have := rnd_nonneg (F := fmt T) (q := -q) (by linarith)
    rw [rnd_neg Lawful.good] at this
    omega

omit [Lawful T] in
theorem fval_abs (z : Int) : fval (fmt T) |z| = |fval (fmt T) z| := by
  rcases le_total 0 z with h | h
  · rw [abs_of_nonneg h, abs_of_nonneg (fval_nonneg h)]
  · rw [abs_of_nonpos h, fval_neg, abs_of_nonpos]
    have := fval_nonneg (F := fmt T) (k := -z) (by omega)
    rw [fval_neg] at this
    linarith

theorem value_ofInt_one : Finite (ofInt 1 : T) ∧ value (ofInt 1 : T) = 1 := by
  have hP : 0 < 2 ^ (fmt T).frac := Nat.pow_pos (by norm_num)
  have := ofInt_exact (T := T) (z := 1) (by show 1 ≤ _; omega)
  simpa using this

/-- A quotient of numbers in order of absolute value. -/
theorem div_abs_unit {n s : T} (hn : Finite n) (hs : Finite s) (h : |value n| ≤ value s) (hpos : 0 < value s) :
    Finite (div n s) ∧ |value (div n s)| ≤ 1 := by
  have hk := key_div hn hs hpos.ne'
  have hq : |value n / value s| ≤ 1 := by
    rw [abs_div, abs_of_pos hpos, div_le_one hpos]; exact h
  have h1 := value_ofInt_one (T := T)
  constructor
  · refine finite_of_key hk (k := key (ofInt 1 : T)) ?_ ((finite_key _).1 h1.1)
    rw [← value_key, h1.2, abs_one]
    exact hq
  · rw [value_key, hk, ← fval_abs, ← rnd_abs, ← h1.2, value_key (ofInt 1 : T), fval_le, ← rnd_value h1.1, h1.2]
    exact rnd_mono Lawful.good hq

/-- Scaling by the largest absolute value. -/
theorem absRange_of {k : AbsInput V T} {num : V → Prop} {val : V → ℚ} (L : AbsLawful k num val) {values : List V}
    (hnum : ∀ v ∈ values, num v) {s : T} (hs : Finite s) (h0 : 0 ≤ key s) (hge : ∀ v ∈ values, rnd (fmt T) |val v| ≤ key s)
    (hat : key s = 0 ∨ ∃ v ∈ values, rnd (fmt T) |val v| = key s) :
    AbsRange num val values (execMaxAbs k s) ∧
    (∀ x m, num x → m ∈ values → (∀ v ∈ values, |val v| ≤ |val m|) → val m ≠ 0 → |val x| ≤ |val m| →
      key (execMaxAbs k s x) = rnd (fmt T) (fval (fmt T) (rnd (fmt T) (val x)) / fval (fmt T) (rnd (fmt T) |val m|))) := by
  have hz : FloatArith.eq s (zero false) = true ↔ key s = 0 := by
    rw [eq_iff hs (finite_zero _), value_zero, value_key, fval_eq_zero]
  have hle : ∀ x, num x → (∃ v ∈ values, |val x| ≤ |val v|) → |key (k.toT x)| ≤ key s := by
    rintro x hx ⟨v, hv, h⟩
    rw [(L.toT_num x hx).2, ← rnd_abs]
    exact le_trans (rnd_mono Lawful.good h) (hge v hv)
  have hlev : ∀ x, num x → (∃ v ∈ values, |val x| ≤ |val v|) → |value (k.toT x)| ≤ value s := by
    intro x hx h
    rw [value_key, value_key s, ← fval_abs, fval_le]
    exact hle x hx h
  have hmax : ∀ m ∈ values, (∀ v ∈ values, |val v| ≤ |val m|) → val m ≠ 0 → key s = rnd (fmt T) |val m| ∧ 0 < key s := by
    intro m hm hall hm0
    have hpos : 0 < rnd (fmt T) |val m| := by
      have h1 := rnd_nonneg (F := fmt T) (abs_nonneg (val m))
      rcases h1.eq_or_lt with h | h
      · rw [rnd_abs, eq_comm, abs_eq_zero] at h
        exact absurd (L.zero_num m (hnum m hm) h) hm0
      · exact h
    have hge' := hge m hm
    have : key s ≤ rnd (fmt T) |val m| := by
      rcases hat with h | ⟨v, hv, h⟩
      · omega
      · rw [← h]; exact rnd_mono Lawful.good (hall v hv)
    omega
  refine ⟨⟨?_, ?_, ?_, ?_⟩, ?_⟩
  · intro x hx hr
    have hf := (L.toT_num x hx).1
    unfold execMaxAbs
    split_ifs with h
    · refine ⟨hf, ?_⟩
      have := hlev x hx hr
      rw [value_key s, hz.1 h, fval_zero] at this
      linarith
    · refine div_abs_unit hf hs (hlev x hx hr) ?_
      rw [value_key, fval_pos]
      rw [hz] at h
      omega
  · intro x y hx hy _ _ hxy
    have h1 : key (k.toT x) ≤ key (k.toT y) := by
      rw [(L.toT_num x hx).2, (L.toT_num y hy).2]
      exact rnd_mono Lawful.good hxy
    unfold execMaxAbs
    split_ifs with h
    · rw [value_key, value_key, fval_le]; exact h1
    · rw [hz] at h
      have hpos : 0 < value s := by rw [value_key, fval_pos]; omega
      rw [value_key, value_key (div _ _), key_div (L.toT_num x hx).1 hs hpos.ne', key_div (L.toT_num y hy).1 hs hpos.ne', fval_le]
      refine rnd_mono Lawful.good (div_le_div_of_nonneg_right ?_ hpos.le)
      rw [value_key, value_key, fval_le]
      exact h1
  · intro x hx hall hx0
    obtain ⟨he, hp⟩ := hmax x hx hall hx0
    have hpos : 0 < value s := by rw [value_key, fval_pos]; exact hp
    have hn := hnum x hx
    have h1 := value_ofInt_one (T := T)
    unfold execMaxAbs
    rw [if_neg (by rw [hz]; omega), value_key, key_div (L.toT_num x hn).1 hs hpos.ne', value_key (k.toT x), (L.toT_num x hn).2,
      value_key s, he]
    have hpos' : fval (fmt T) (rnd (fmt T) |val x|) ≠ 0 := by rw [← he, ← value_key]; exact hpos.ne'
    split_ifs with hneg
    · rw [abs_of_neg hneg, rnd_neg Lawful.good, fval_neg] at hpos' ⊢
      rw [div_neg, div_self (by simpa using hpos'), rnd_neg Lawful.good, fval_neg, ← h1.2, rnd_value h1.1, ← value_key]
    · rw [abs_of_nonneg (not_lt.1 hneg)] at hpos' ⊢
      rw [div_self hpos', ← h1.2, rnd_value h1.1, ← value_key]
  · intro x hx h
    have e : key (k.toT x) = 0 := by rw [(L.toT_num x hx).2, h, rnd_zero]
    unfold execMaxAbs
    split_ifs with hh
    · rw [value_key, e, fval_zero]
    · rw [hz] at hh
      have hpos : 0 < value s := by rw [value_key, fval_pos]; omega
      rw [value_key, key_div (L.toT_num x hx).1 hs hpos.ne', value_key (k.toT x), e, fval_zero, zero_div, rnd_zero, fval_zero]
  · intro x m hx hm hall hm0 _
    obtain ⟨he, hp⟩ := hmax m hm hall hm0
    have hpos : 0 < value s := by rw [value_key, fval_pos]; exact hp
    unfold execMaxAbs
    rw [if_neg (by rw [hz]; omega), key_div (L.toT_num x hx).1 hs hpos.ne', value_key (k.toT x), (L.toT_num x hx).2, value_key s, he]

/-! ### Floating point columns -/

theorem key_cast_self (x : T) (h : isNaN x = false) : key (FloatArith.cast x : T) = key x ∧ isNaN (FloatArith.cast x : T) = false := by
  by_cases hi : isInf x = true
  · have e : FloatArith.cast x = (infinity (neg? x) : T) := by
      unfold FloatArith.cast
      rw [h, hi]; simp
    have hp : pat x = (fmt T).inf := by unfold isInf at hi; simpa using hi
    have hk : key (infinity (neg? x) : T) = key x := by
      unfold infinity
      rw [key_make _ (inf_lt_signBit T)]
      unfold key
      rw [hp]
    rw [e, hk]
    refine ⟨rfl, ?_⟩
    rw [isNaN_false, hk]
    exact isNaN_false.1 h
  · have hf : Finite x := by
      rw [finite_key]
      have h1 := isNaN_false.1 h
      have h2 := isInf_false.1 (Bool.eq_false_iff.2 hi)
      omega
    have hk := key_cast (T := T) hf
    rw [rnd_value hf] at hk
    refine ⟨hk, ?_⟩
    rw [isNaN_false, hk]
    exact isNaN_false.1 h

omit [Lawful T] in
theorem cast_nan (x : T) (h : isNaN x = true) : (FloatArith.cast x : T) = nan := by
  unfold FloatArith.cast
  rw [if_pos h]

theorem isNaN_nan : isNaN (nan : T) = true := by
  have hg : (fmt T).Good := Lawful.good
  have hf := hg.frac
  have hP : 0 < 2 ^ ((fmt T).frac - 1) := Nat.pow_pos (by norm_num)
  have hP2 : 2 ^ (fmt T).frac = 2 * 2 ^ ((fmt T).frac - 1) := by rw [← pow_succ']; congr 1; omega
  have hlt : (fmt T).quietNaN < (fmt T).signBit := by
    have hi := Fmt.inf_lt hg
    unfold Fmt.quietNaN
    omega
  unfold nan isNaN
  rw [make_pat _ hlt, decide_eq_true_iff]
  unfold Fmt.quietNaN
  omega

/-- The absolute value of a number that is not NaN. -/
theorem floAbs_key (x : T) (h : isNaN x = false) : ∃ a, (floAbs T).abs x = .ok a ∧ isNaN a = false ∧ key a = |key x| := by
  refine ⟨_, rfl, ?_⟩
  have hz : FloatArith.lt x (zero false) = decide (key x < 0) := by
    unfold FloatArith.lt
    rw [h, Finite.not_nan (finite_zero _), key_zero]
    simp
  rw [hz]
  by_cases hn : key x < 0
  · rw [decide_eq_true hn, if_pos rfl]
    have h1 : isNaN (negate x) = false := by
      rw [isNaN_false, key_negate, Int.natAbs_neg]
      exact isNaN_false.1 h
    obtain ⟨h2, h3⟩ := key_cast_self _ h1
    rw [h2, key_negate, abs_of_neg hn]
    exact ⟨h3, rfl⟩
  · rw [decide_eq_false hn, if_neg (by simp)]
    obtain ⟨h2, h3⟩ := key_cast_self _ h
    rw [h2, abs_of_nonneg (by omega)]
    exact ⟨h3, rfl⟩

theorem floAbs_lawful : AbsLawful (floAbs T) (Finite (T := T)) value where
  toT_num x h := ⟨(cast_self h).1, key_cast h⟩
  abs_num x h := by
    obtain ⟨a, h1, h2, h3⟩ := floAbs_key x (Finite.not_nan h)
    refine ⟨a, h1, ?_, ?_⟩
    · rw [finite_key, h3, Int.natAbs_abs, ← finite_key]; exact h
    · rw [h3, rnd_abs, rnd_value h]
  zero_num x h h0 := by
    rw [rnd_value h] at h0
    rw [value_key, h0, fval_zero]

/-- **C69** (floating point columns) -/
theorem C69_floating (col cap : Nat) (hcap : 0 < cap) (batches : List (List T)) (hne : batches ≠ []) (hb : NoEmptyBatch batches)
    (maps : AnnotationMaps (NumAnnot T T)) (hcol : col < maps.length)
    (hnone : getAnnotation NumAnnot.isMaxAbs maps col "MaxAbsValueEstimator" = .ok none)
    (values : List T) (hvalues : values = (batches.flatten.take cap).filter (fun x => !isNaN x)) :
    ((∃ v ∈ values, IsInf v) → ∀ X : Xf T T T,
      FeaturizerYields X (fun _ => maxAbsComponent (floAbs T) col cap) 1 (makeMaxAbs col) batches maps (.error .invalidArgument)) ∧
    ((∀ v ∈ values, Finite v) → ∃ t,
      (∀ X : Xf T T T, FeaturizerYields X (fun _ => maxAbsComponent (floAbs T) col cap) 1 (makeMaxAbs col) batches maps (.ok t)) ∧
      AbsRange Finite value values (execMaxAbs (floAbs T) t) ∧
      (∀ x m, Finite x → m ∈ values → (∀ v ∈ values, |value v| ≤ |value m|) → value m ≠ 0 → |value x| ≤ |value m| →
        IsNearest (value x / |value m|) (execMaxAbs (floAbs T) t x)) ∧
      ((∀ v ∈ values, value v = 0) → ∀ x, Finite x → value (execMaxAbs (floAbs T) t x) = value x) ∧
      ∀ x, IsNaN x → IsNaN (execMaxAbs (floAbs T) t x)) := by
  have hseen : ∀ x ∈ batches.flatten.take cap, Absolute (floAbs T) x := by
    intro x _
    cases h : isNaN x
    · obtain ⟨a, h1, h2, h3⟩ := floAbs_key x h
      exact ⟨a, h1, .inr ⟨h2, by rw [h3]; exact abs_nonneg _⟩⟩
    · refine ⟨_, rfl, .inl ?_⟩
      have hl : FloatArith.lt x (zero false) = false := by unfold FloatArith.lt; rw [h]; simp
      rw [hl, if_neg (by simp), cast_nan x h, isNaN_nan]
  obtain ⟨s, h1, h2, h3, h4, hy⟩ := maxAbs_trained (floAbs T) col cap hcap batches hne hb maps hcol hnone hseen
  have hmem : ∀ v, v ∈ values ↔ v ∈ batches.flatten.take cap ∧ isNaN v = false := by
    intro v; rw [hvalues, List.mem_filter]; simp
  have hge : ∀ v ∈ values, |key v| ≤ key s := by
    intro v hv
    obtain ⟨hm, hn⟩ := (hmem v).1 hv
    obtain ⟨a, e1, e2, e3⟩ := floAbs_key v hn
    rw [← e3]
    exact h3 v hm a e1 e2
  have hat : key s = 0 ∨ ∃ v ∈ values, |key v| = key s := by
    rcases h4 with h | ⟨x, hx, h⟩
    · left; rw [h, key_zero]
    · right
      cases hn : isNaN x
      · obtain ⟨a, e1, e2, e3⟩ := floAbs_key x hn
        rw [e1] at h
        cases h
        exact ⟨x, (hmem x).2 ⟨hx, hn⟩, e3.symm⟩
      · have hl : FloatArith.lt x (zero false) = false := by unfold FloatArith.lt; rw [hn]; simp
        have h' : Except.ok (FloatArith.cast (if FloatArith.lt x (zero false) then negate x else x) : T) = (Except.ok s : Except Err T) := h
        rw [hl, if_neg (by simp), cast_nan x hn] at h'
        have : (nan : T) = s := by injection h'
        rw [← this, isNaN_nan] at h1
        cases h1
  constructor
  · rintro ⟨v, hv, hi⟩ X
    have hk : key s = (fmt T).inf := by
      have hvk := hge v hv
      have hp : (key v).natAbs = (fmt T).inf := by
        have := (isInf_iff v).2 hi
        unfold isInf at this
        rw [key_natAbs]
        simpa using this
      have := isNaN_false.1 h1
      rw [Int.abs_eq_natAbs, hp] at hvk
      omega
    have := hy X
    rwa [if_pos hk] at this
  · intro hfin
    have hk : (key s).natAbs < (fmt T).inf := by
      rcases hat with h | ⟨v, hv, h⟩
      · rw [h]; exact inf_pos T
      · have := (finite_key v).1 (hfin v hv)
        rw [← h, Int.natAbs_abs]
        exact this
    have hfs : Finite s := (finite_key s).2 hk
    have hr : ∀ v ∈ values, rnd (fmt T) |value v| = |key v| := fun v hv => by rw [rnd_abs, rnd_value (hfin v hv)]
    obtain ⟨r1, r2⟩ := absRange_of (floAbs_lawful (T := T)) hfin hfs h2 (fun v hv => by rw [hr v hv]; exact hge v hv)
      (by
        rcases hat with h | ⟨v, hv, h⟩
        · exact .inl h
        · exact .inr ⟨v, hv, by rw [hr v hv]; exact h⟩)
    refine ⟨s, fun X => ?_, r1, ?_, ?_, ?_⟩
    · have := hy X
      rwa [if_neg (by omega)] at this
    · intro x m hfx hm hall h0 hle
      have hkx := r2 x m hfx hm hall h0 hle
      rw [rnd_abs, rnd_value hfx, rnd_value (hfin m hm), fval_abs, ← value_key, ← value_key] at hkx
      exact nearest_of_key hkx (r1.unit x hfx ⟨m, hm, hle⟩).1
    · intro hall x hfx
      have h0 : key s = 0 := by
        rcases hat with h | ⟨v, hv, h⟩
        · exact h
        · have := hall v hv
          rw [value_key, fval_eq_zero] at this
          rw [← h, this, abs_zero]
      unfold execMaxAbs
      rw [if_pos (by rw [eq_iff hfs (finite_zero _), value_zero, value_key, h0, fval_zero])]
      exact (cast_self hfx).2
    · intro x hx
      have hn := (isNaN_iff x).2 hx
      have hc : (floAbs T).toT x = nan := cast_nan x hn
      unfold execMaxAbs
      rw [hc, ← isNaN_iff]
      split_ifs
      · exact isNaN_nan
      · unfold FloatArith.div
        rw [if_pos (by rw [isNaN_nan]; simp)]
        exact isNaN_nan

/-! ### Integer columns -/

theorem rnd_int_zero {z : Int} (h : rnd (fmt T) (z : ℚ) = 0) : z = 0 := by
  have e : (z : ℚ) = ((z * 2 ^ (fmt T).scale : Int) : ℚ) / 2 ^ (fmt T).scale := by
    push_cast
    rw [mul_div_cancel_right₀ _ (by positivity)]
  rw [e, rnd_eq_zero_of_multiple Lawful.good] at h
  rcases mul_eq_zero.1 h with h | h
  · exact h
  · exact absurd h (by positivity)

theorem ofInt_finite {z : Int} (h : |(z : ℚ)| < tooLarge T) : Finite (ofInt z : T) := by
  rw [finite_key, key_ofInt]
  exact rnd_finite h

/-- The error of rounding an integer. -/
theorem rnd_int_error {z : Int} (h : |(z : ℚ)| < tooLarge T) :
    |fval (fmt T) (rnd (fmt T) (z : ℚ)) - z| ≤ |(z : ℚ)| / 2 ^ (Binary.frac T + 1) := by
  have e : (z : ℚ) = ((z * 2 ^ (fmt T).scale : Int) : ℚ) / 2 ^ (fmt T).scale := by
    push_cast
    rw [mul_div_cancel_right₀ _ (by positivity)]
  have hf := rnd_finite h
  rw [e] at hf ⊢
  exact rnd_error_int Lawful.good hf

/-- Rounding two numbers, and their quotient. -/
theorem quotient_bound {F e X M a b r : ℚ} (hM : 0 < M) (hF : 2 ^ 19 ≤ F) (ha : |a - X| ≤ |X| / (2 * F))
    (hb : |b - M| ≤ M / (2 * F)) (hr : |r - a / b| ≤ |a / b| / (2 * F) + e) :
    |r - X / M| ≤ 2 * (|X| / M) / F + e := by
  have hF0 : 0 < F := by linarith
  obtain ⟨u, hu⟩ : ∃ u, u = 1 / (2 * F) := ⟨_, rfl⟩
  have hu0 : 0 < u := by rw [hu]; positivity
  have hu1 : u ≤ 1 / 2 ^ 20 := by
    rw [hu]; exact one_div_le_one_div_of_le (by positivity) (by linarith)
  have e1 : ∀ y : ℚ, y / (2 * F) = y * u := fun y => by rw [hu]; ring
  rw [e1] at ha hb hr
  have e2 : 2 * (|X| / M) / F = 4 * (|X| / M) * u := by rw [hu]; field_simp; ring
  rw [e2]
  have hbl : M * (1 - u) ≤ b := by have := (abs_le.1 hb).1; linarith
  have hb0 : 0 < b := lt_of_lt_of_le (mul_pos hM (by linarith)) hbl
  obtain ⟨q, hq⟩ : ∃ q, q = |X| / M := ⟨_, rfl⟩
  have hq0 : 0 ≤ q := by rw [hq]; positivity
  have hXq : |X| = q * M := by rw [hq]; field_simp
  have hMb : M / b ≤ 1 + 2 * u := by
    rw [div_le_iff₀ hb0]
    nlinarith [mul_nonneg hu0.le hM.le, mul_nonneg (mul_nonneg hu0.le hM.le) hu0.le, mul_le_mul_of_nonneg_right hu1 (mul_nonneg hu0.le hM.le)]
  have hdiff : |a / b - X / M| ≤ 2 * u * (q * (1 + 2 * u)) := by
    have e3 : a / b - X / M = ((a - X) * M - X * (b - M)) / (b * M) := by field_simp; ring
    rw [e3, abs_div, abs_of_pos (mul_pos hb0 hM), div_le_iff₀ (mul_pos hb0 hM)]
    have h1 : |(a - X) * M - X * (b - M)| ≤ |X| * u * M + |X| * (M * u) := by
      refine (abs_sub _ _).trans ?_
      rw [abs_mul, abs_mul, abs_of_pos hM]
      exact add_le_add (mul_le_mul_of_nonneg_right ha hM.le) (mul_le_mul_of_nonneg_left hb (abs_nonneg _))
    refine h1.trans ?_
    rw [div_le_iff₀ hb0] at hMb
    rw [hXq]
    have := mul_le_mul_of_nonneg_left hMb (mul_nonneg (mul_nonneg (mul_nonneg hq0 hu0.le) hM.le) (by norm_num : (0:ℚ) ≤ 2))
    linarith
  have hab : |a / b| ≤ q + 2 * u * (q * (1 + 2 * u)) := by
    have e4 : |X / M| = q := by rw [abs_div, abs_of_pos hM, hq]
    have := abs_sub_abs_le_abs_sub (a / b) (X / M)
    rw [e4] at this
    linarith
  have hfin : |r - X / M| ≤ |r - a / b| + |a / b - X / M| := abs_sub_le _ _ _
  rw [← hq]
  have h5 := mul_le_mul_of_nonneg_right hab hu0.le
  have hqu : 0 ≤ q * u := mul_nonneg hq0 hu0.le
  have hquu : q * u * u ≤ q * u * (1 / 2 ^ 20) := mul_le_mul_of_nonneg_left hu1 hqu
  have hquuu : q * u * u * u ≤ q * u * (1 / 2 ^ 20) * 1 := mul_le_mul hquu (by linarith) hu0.le (by positivity)
  nlinarith

/-- Two integers that are rounded, and their quotient, which is rounded too. -/
theorem int_quotient_error {x m : Int} {r : T} (hx : |(x : ℚ)| < tooLarge T) (hm : |(m : ℚ)| < tooLarge T) (h0 : m ≠ 0)
    (hr : Finite r) (hk : key r = rnd (fmt T) (fval (fmt T) (rnd (fmt T) (x : ℚ)) / fval (fmt T) (rnd (fmt T) |(m : ℚ)|))) :
    abs (value r - (x : ℚ) / |(m : ℚ)|) ≤ 2 * |(x : ℚ) / m| / 2 ^ Binary.frac T + 1 / 2 ^ (bias T + Binary.frac T - 1) / 2 := by
  have hax := rnd_int_error hx
  have hbm : abs (fval (fmt T) (rnd (fmt T) |(m : ℚ)|) - |(m : ℚ)|) ≤ |(m : ℚ)| / 2 ^ (Binary.frac T + 1) := by
    have := rnd_int_error (T := T) (z := |m|) (by rw [Int.cast_abs, abs_abs]; exact hm)
    rwa [Int.cast_abs, abs_abs] at this
  have hs : (1 : ℚ) / 2 ^ (bias T + Binary.frac T - 1) = 1 / 2 ^ (fmt T).scale := by
    obtain ⟨c, hc, hs, _⟩ := (shape T).bias_scale
    rw [hs, hc, show Binary.frac T = (fmt T).frac from rfl]
    congr 2
    omega
  have hfr : (2 : ℚ) ^ 19 ≤ 2 ^ Binary.frac T := pow_le_pow_right₀ (by norm_num) (Lawful.good (T := T)).frac
  have hfin := (finite_key r).1 hr
  rw [hk] at hfin
  have herr := rnd_error Lawful.good hfin
  rw [← hk, ← value_key] at herr
  rw [hs]
  have hM : 0 < |(m : ℚ)| := abs_pos.2 (by exact_mod_cast h0)
  rw [abs_div]
  have e : (2 : ℚ) ^ (Binary.frac T + 1) = 2 * 2 ^ Binary.frac T := by rw [pow_succ]; ring
  rw [e] at hax hbm
  refine quotient_bound hM hfr hax hbm ?_
  rcases herr with h | h
  · refine h.trans ?_
    rw [div_right_comm]
    exact le_add_of_nonneg_left (by positivity)
  · rw [show (fmt T).frac = Binary.frac T from rfl, e] at h
    exact h.trans (le_add_of_nonneg_right (by positivity))

/-- **C69** (integer columns; part: no smallest `int32_t` or `int64_t`) The results are in range and in order also for numbers
that are not exact as floating point numbers. -/
theorem C69_integers_partial [CInt V] (hfit : ∀ x : V, |(CInt.toInt x : ℚ)| < tooLarge T) (col cap : Nat) (hcap : 0 < cap)
    (batches : List (List V)) (hne : batches ≠ []) (hb : NoEmptyBatch batches) (maps : AnnotationMaps (NumAnnot V T))
    (hcol : col < maps.length) (hnone : getAnnotation NumAnnot.isMaxAbs maps col "MaxAbsValueEstimator" = .ok none)
    (values : List V) (hvalues : values = batches.flatten.take cap)
    (hmin : ∀ x ∈ values, CInt.strict V = true → -CInt.toInt x ≤ CInt.hi V) :
    ∃ t,
      (∀ X : Xf T V V, FeaturizerYields X (fun _ => maxAbsComponent (intAbsInput V T) col cap) 1 (makeMaxAbs col) batches maps (.ok t)) ∧
      AbsRange (fun _ => True) (fun x : V => (CInt.toInt x : ℚ)) values (execMaxAbs (intAbsInput V T) t) ∧
      (∀ x m, m ∈ values → (∀ v ∈ values, |CInt.toInt v| ≤ |CInt.toInt m|) → CInt.toInt m ≠ 0 →
        |CInt.toInt x| ≤ |CInt.toInt m| → |CInt.toInt m| ≤ 2 * 2 ^ Binary.frac T →
        IsNearest ((CInt.toInt x : ℚ) / |(CInt.toInt m : ℚ)|) (execMaxAbs (intAbsInput V T) t x)) ∧
      (∀ x m, m ∈ values → (∀ v ∈ values, |CInt.toInt v| ≤ |CInt.toInt m|) → CInt.toInt m ≠ 0 →
        |CInt.toInt x| ≤ |CInt.toInt m| →
        abs (value (execMaxAbs (intAbsInput V T) t x) - (CInt.toInt x : ℚ) / |(CInt.toInt m : ℚ)|) ≤
          2 * |(CInt.toInt x : ℚ) / CInt.toInt m| / 2 ^ Binary.frac T + 1 / 2 ^ (bias T + Binary.frac T - 1) / 2) := by
  have habs : ∀ x ∈ values, (intAbsInput V T).abs x = .ok (ofInt |CInt.toInt x|) := by
    intro x hx
    have h := hmin x hx
    show (intAbs x).map ofInt = _
    unfold intAbs
    by_cases h0 : CInt.toInt x < 0
    · rw [if_pos h0, if_neg (by rintro ⟨h1, h2⟩; have := h h1; omega), abs_of_neg h0]
      rfl
    · rw [if_neg h0, abs_of_nonneg (by omega)]
      rfl
  have hfin : ∀ x : V, Finite (ofInt |CInt.toInt x| : T) := fun x => ofInt_finite (by rw [Int.cast_abs, abs_abs]; exact hfit x)
  have hkey : ∀ x : V, key (ofInt |CInt.toInt x| : T) = rnd (fmt T) |(CInt.toInt x : ℚ)| := fun x => by rw [key_ofInt, Int.cast_abs]
  have hseen : ∀ x ∈ batches.flatten.take cap, Absolute (intAbsInput V T) x := by
    intro x hx
    refine ⟨_, habs x (by rw [hvalues]; exact hx), .inr ⟨Finite.not_nan (hfin x), ?_⟩⟩
    rw [hkey]
    exact rnd_nonneg (abs_nonneg _)
  obtain ⟨s, h1, h2, h3, h4, hy⟩ := maxAbs_trained (intAbsInput V T) col cap hcap batches hne hb maps hcol hnone hseen
  rw [← hvalues] at h3 h4
  have hge : ∀ v ∈ values, rnd (fmt T) |(CInt.toInt v : ℚ)| ≤ key s := by
    intro v hv
    rw [← hkey]
    exact h3 v hv _ (habs v hv) (Finite.not_nan (hfin v))
  have hat : key s = 0 ∨ ∃ v ∈ values, rnd (fmt T) |(CInt.toInt v : ℚ)| = key s := by
    rcases h4 with h | ⟨x, hx, h⟩
    · left; rw [h, key_zero]
    · right
      rw [habs x hx] at h
      cases h
      exact ⟨x, hx, (hkey x).symm⟩
  have hk : (key s).natAbs < (fmt T).inf := by
    rcases hat with h | ⟨v, hv, h⟩
    · rw [h]; exact inf_pos T
    · rw [← h]
      exact rnd_finite (by rw [abs_abs]; exact hfit v)
  have hfs : Finite s := (finite_key s).2 hk
  -- only the numbers of the column matter for the absolute value; all inputs convert
  have L : AbsLawful (V := V) (T := T) ⟨fun x => ofInt (CInt.toInt x), fun x => .ok (ofInt |CInt.toInt x|)⟩ (fun _ => True)
      (fun x => (CInt.toInt x : ℚ)) :=
    { toT_num := fun x _ => ⟨ofInt_finite (hfit x), key_ofInt _⟩
      abs_num := fun x _ => ⟨_, rfl, hfin x, hkey x⟩
      zero_num := fun x _ h => by rw [rnd_int_zero h]; simp }
  have hex : execMaxAbs (intAbsInput V T) s =
      execMaxAbs (⟨fun x => ofInt (CInt.toInt x), fun x => .ok (ofInt |CInt.toInt x|)⟩ : AbsInput V T) s := rfl
  obtain ⟨r1, r2⟩ := absRange_of L (fun _ _ => trivial) hfs h2 hge hat
  rw [← hex] at r1 r2
  refine ⟨s, fun X => ?_, r1, ?_, ?_⟩
  · have := hy X
    rwa [if_neg (by omega)] at this
  rotate_left
  · intro x m hm hall h0 hle
    have hleq : |(CInt.toInt x : ℚ)| ≤ |(CInt.toInt m : ℚ)| := by rw [← Int.cast_abs, ← Int.cast_abs, Int.cast_le]; exact hle
    have hkx := r2 x m trivial hm
      (fun v hv => by show |(CInt.toInt v : ℚ)| ≤ |(CInt.toInt m : ℚ)|; rw [← Int.cast_abs, ← Int.cast_abs, Int.cast_le]; exact hall v hv)
      (by exact_mod_cast h0) hleq
    have hfr := (r1.unit x trivial ⟨m, hm, hleq⟩).1
    exact int_quotient_error (hfit x) (hfit m) h0 hfr hkx
  · intro x m hm hall h0 hle hsmall
    have hleq : |(CInt.toInt x : ℚ)| ≤ |(CInt.toInt m : ℚ)| := by rw [← Int.cast_abs, ← Int.cast_abs, Int.cast_le]; exact hle
    have hkx := r2 x m trivial hm
      (fun v hv => by show |(CInt.toInt v : ℚ)| ≤ |(CInt.toInt m : ℚ)|; rw [← Int.cast_abs, ← Int.cast_abs, Int.cast_le]; exact hall v hv)
      (by exact_mod_cast h0) hleq
    have hfr : (fmt T).frac = Binary.frac T := rfl
    have hcast : ((2 * 2 ^ Binary.frac T : Nat) : Int) = 2 * 2 ^ Binary.frac T := by push_cast; rfl
    have hex1 : ∀ z : Int, |z| ≤ 2 * 2 ^ Binary.frac T → fval (fmt T) (rnd (fmt T) (z : ℚ)) = z := by
      intro z hz
      have hz' : z.natAbs ≤ 2 * 2 ^ (fmt T).frac := by
        rw [hfr]
        rw [← hcast] at hz
        rw [Int.abs_eq_natAbs] at hz
        exact_mod_cast hz
      rw [← key_ofInt, ← value_key]
      exact (ofInt_exact hz').2
    rw [hex1 _ (le_trans hle hsmall), ← Int.cast_abs, hex1 _ (by rw [abs_abs]; exact hsmall)] at hkx
    rw [← Int.cast_abs]
    exact nearest_of_key hkx (r1.unit x trivial ⟨m, hm, hleq⟩).1

/-! Non-vacuity: the columns 3, NaN, -8 of `double` and an infinity in `float`; 2^53 + 1 and -3 of `int64_t`. -/

example : ∃ t : F64, AbsRange Finite value [ofInt 3, ofInt (-8)] (execMaxAbs (floAbs F64) t) := by
  obtain ⟨t, _, h, _⟩ := (C69_floating (T := F64) 0 9 (by decide) [[ofInt 3, nan], [ofInt (-8)]] (by simp)
    (by intro b hb; simp at hb; rcases hb with rfl | rfl <;> simp) [[]] (by simp) rfl [ofInt 3, ofInt (-8)] (by decide +kernel)).2
    (by intro v hv; simp at hv; rcases hv with rfl | rfl <;> exact (ofInt_exact (by decide +kernel)).1)
  exact ⟨t, h⟩

example (X : Xf F32 F32 F32) : FeaturizerYields X (fun _ => maxAbsComponent (floAbs F32) 0 9) 1 (makeMaxAbs 0)
    [[ofInt 3, infinity true]] [[]] (.error .invalidArgument) :=
  (C69_floating (T := F32) 0 9 (by decide) [[ofInt 3, infinity true]] (by simp) (by intro b hb; simp at hb; simp [hb]) [[]] (by simp) rfl
    [ofInt 3, infinity true] (by decide +kernel)).1 ⟨infinity true, by simp, by rw [← isInf_iff]; decide +kernel⟩ X

theorem int_fits [CInt V] (h1 : -2 ^ 64 ≤ CInt.lo V) (h2 : CInt.hi V ≤ 2 ^ 64) (x : V) : |(CInt.toInt x : ℚ)| < tooLarge F32 := by
  have hr := CInt.range x
  have h : |CInt.toInt x| ≤ 2 ^ 64 := abs_le.2 ⟨by omega, by omega⟩
  have hq : |(CInt.toInt x : ℚ)| ≤ 2 ^ 64 := by
    rw [← Int.cast_abs]
    exact_mod_cast h
  refine lt_of_le_of_lt hq ?_
  unfold tooLarge
  rw [show Binary.frac F32 = 23 from rfl, show bias F32 = 127 from rfl]
  norm_num

example : ∃ t : F64, AbsRange (fun _ => True) (fun x : Int64 => (CInt.toInt x : ℚ)) [9007199254740993, -3] (execMaxAbs (intAbsInput Int64 F64) t) := by
  obtain ⟨t, _, h, _⟩ := C69_integers_partial (V := Int64) (T := F64)
    (fun x => lt_trans (int_fits (by decide) (by decide) x) tooLarge_lt) 0 9 (by decide)
    [[9007199254740993, -3]] (by simp) (by intro b hb; simp at hb; simp [hb]) [[]] (by simp) rfl
    [9007199254740993, -3] (by decide) (by intro v hv; simp at hv; rcases hv with rfl | rfl <;> decide)
  exact ⟨t, h⟩

end Feat.FloatScalers
