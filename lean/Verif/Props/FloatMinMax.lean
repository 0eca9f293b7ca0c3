import Verif.Proofs.FloatMinMax
/-
C68: min-max scaling in floating point arithmetic.
-/
namespace Feat.FloatScalers
open FloatText FloatArith

/-- `double` columns of finite numbers and NaN whose spread does not overflow. -/
theorem C68_double_partial (col cap : Nat) (hcap : 0 < cap) (batches : List (List F64)) (hne : batches ≠ [])
    (hb : NoEmptyBatch batches) (maps : AnnotationMaps (NumAnnot F64 F64)) (hcol : col < maps.length)
    (hnone : getAnnotation NumAnnot.isMinMax maps col "MinMaxEstimator" = .ok none)
    (values : List F64) (hvalues : values = (batches.flatten.take cap).filter (fun x => !isNaN x))
    (hx : ∀ v ∈ values, Finite v)
    (hspread : ∀ a b, Least value values a → Greatest value values b → value b - value a < tooLarge F64) :
    (values = [] → ∀ X : Xf (MinMaxScaler F64) F64 F64,
      FeaturizerYields X (fun _ => minMaxComponent (floInput F64) col cap) 1 (makeMinMax (floInput F64) col) batches maps
        (.error .invalidArgument)) ∧
    (values ≠ [] → ∃ t,
      (∀ X : Xf (MinMaxScaler F64) F64 F64,
        FeaturizerYields X (fun _ => minMaxComponent (floInput F64) col cap) 1 (makeMinMax (floInput F64) col) batches maps (.ok t)) ∧
      UnitRange Finite value values (execMinMax (floInput F64) t) ∧
      WithinExact (1 / 2 ^ 51) Finite value values (execMinMax (floInput F64) t) ∧
      ∀ x, IsNaN x → IsNaN (execMinMax (floInput F64) t x)) := by
  subst hvalues
  have hseen : ∀ x ∈ batches.flatten.take cap, Finite x ∨ (floInput F64).null x = true := by
    intro x hm
    cases h : isNaN x
    · exact .inl (hx x (by simp [List.mem_filter, hm, h]))
    · exact .inr h
  have ht := minMax_trained (ranked_flo (T := F64)) col cap hcap batches hne hb maps hcol hnone hseen
  refine ⟨fun h => ht.1 h, fun h => ?_⟩
  obtain ⟨lo, hi, hlo, hhi, hy⟩ := ht.2 h
  change Least value (List.filter (fun x => !isNaN x) (List.take cap batches.flatten)) lo at hlo
  change Greatest value (List.filter (fun x => !isNaN x) (List.take cap batches.flatten)) hi at hhi
  generalize (batches.flatten.take cap).filter (fun x => !isNaN x) = values at hlo hhi hx hspread h
  have hle : value lo ≤ value hi := hlo.2 _ hhi.1
  have hflo := hx _ hlo.1
  have hfhi := hx _ hhi.1
  have hsp := hspread lo hi hlo hhi
  obtain ⟨h1, h2⟩ := double_scaler hflo hfhi hle hsp
  rw [h1] at hy
  have hrange : ∀ x, Between value values x → value lo ≤ value x ∧ value x ≤ value hi := by
    rintro x ⟨a, ha, b, hb, h1, h2⟩
    exact ⟨le_trans (hlo.2 a ha) h1, le_trans h2 (hhi.2 b hb)⟩
  have hsub : ∀ x, Finite x → key (FloatArith.sub ((floInput F64).toD x) ((floInput F64).toD lo)) = key (FloatArith.sub x lo) := by
    intro x hfx
    rw [key_sub (toD_double_finite hfx).1 (toD_double_finite hflo).1, key_sub hfx hflo, (toD_double_finite hfx).2,
      (toD_double_finite hflo).2]
  have hval : ∀ x, Finite x → value (FloatArith.sub ((floInput F64).toD x) ((floInput F64).toD lo)) = value (FloatArith.sub x lo) := by
    intro x hfx
    rw [value_key, hsub x hfx, ← value_key]
  have hsubfin : ∀ x, Finite x → Between value values x → Finite (FloatArith.sub x lo) := by
    intro x hfx hbx
    refine sub_finite hfx hflo ?_
    rw [abs_of_nonneg (by linarith [(hrange x hbx).1])]
    linarith [(hrange x hbx).2]
  have hfin : ∀ x, Finite x → Between value values x → Finite (FloatArith.sub ((floInput F64).toD x) ((floInput F64).toD lo)) := by
    intro x hfx hbx
    rw [finite_key, hsub x hfx, ← finite_key]
    exact hsubfin x hfx hbx
  have hd := toD_double_finite h2
  have hdpos : value lo < value hi → 0 < value (FloatArith.sub hi lo) := by
    intro hlt
    have h0 : 0 ≤ value (FloatArith.sub hi lo) := by
      rw [← sub_zero hflo hflo rfl]
      exact sub_ordered hflo hfhi hflo hle
    refine lt_of_le_of_ne h0 fun he => ?_
    exact hlt.ne' ((sub_eq_zero_iff hfhi hflo).1 he.symm)
  have hz : (floInput F64).isZero (FloatArith.sub hi lo) = true ↔ value lo = value hi := by
    show FloatArith.eq (FloatArith.sub hi lo) (zero false) = true ↔ _
    rw [eq_iff h2 (finite_zero _), value_zero, sub_eq_zero_iff hfhi hflo, eq_comm]
  refine ⟨_, hy, ?_, ?_, ?_⟩
  · refine unitRange_of hlo hhi hx (fun x hfx => Finite.not_nan hfx) hz (fun x hfx hbx _ => hfin x hfx hbx) ?_ ?_ ?_ ?_
    · intro x y hfx hfy _ _ _ hxy
      rw [hval x hfx, hval y hfy]
      exact sub_ordered hfx hfy hflo hxy
    · intro x hfx _ he
      rw [hval x hfx]
      exact sub_zero hfx hflo he
    · intro hlt
      refine ⟨hd.1, ?_⟩
      rw [hd.2]
      exact hdpos hlt
    · intro x hfx _ _ he
      rw [hval x hfx, hd.2, value_key, value_key, key_sub hfx hflo, key_sub hfhi hflo, he]
  · intro x a b hfx hbx ha hb hab
    have hea : value a = value lo := le_antisymm (ha.2 _ hlo.1) (hlo.2 _ ha.1)
    have heb : value b = value hi := le_antisymm (hhi.2 _ hb.1) (hb.2 _ hhi.1)
    rw [hea, heb] at hab ⊢
    have hr := hrange x hbx
    have e1 : execMinMax (floInput F64) ⟨lo, FloatArith.sub hi lo⟩ x =
        div (FloatArith.sub ((floInput F64).toD x) ((floInput F64).toD lo)) ((floInput F64).toD (FloatArith.sub hi lo)) := by
      unfold execMinMax
      rw [if_neg (show ¬(floInput F64).null x = true by rw [show (floInput F64).null x = false from Finite.not_nan hfx]; simp), if_neg (fun h0 => absurd (hz.1 h0) hab.ne)]
    have e2 := div_error (hfin x hfx hbx) hd.1 (by rw [hd.2]; exact (hdpos hab).ne')
    rw [e1]
    rw [hval x hfx, hd.2] at e2
    have en := sub_error hfx hflo (by rw [abs_of_nonneg (by linarith)]; linarith)
    have es := sub_error hfhi hflo (by rw [abs_of_nonneg (by linarith)]; linarith)
    rw [abs_of_nonneg (show 0 ≤ value x - value lo by linarith), div_eq_mul_one_div] at en
    rw [abs_of_nonneg (show 0 ≤ value hi - value lo by linarith), div_eq_mul_one_div] at es
    have hP : (2 : ℚ) ^ (Binary.frac F64 + 1) = 2 ^ 53 := rfl
    rw [hP] at en es
    have hq := quotient_error (by linarith) (by linarith) (by linarith) (by positivity) (by positivity) (by norm_num) en es
    have hns : value (FloatArith.sub x lo) ≤ value (FloatArith.sub hi lo) := sub_ordered hfx hfhi hflo hr.2
    have hn0 : 0 ≤ value (FloatArith.sub x lo) := by
      rw [← sub_zero hflo hflo rfl]
      exact sub_ordered hflo hfx hflo hr.1
    have hle1 : |value (FloatArith.sub x lo) / value (FloatArith.sub hi lo)| ≤ 1 := by
      rw [abs_of_nonneg (div_nonneg hn0 hq.1.le), div_le_one hq.1]
      exact hns
    have e3 : |value (div (FloatArith.sub ((floInput F64).toD x) ((floInput F64).toD lo)) ((floInput F64).toD (FloatArith.sub hi lo))) -
        value (FloatArith.sub x lo) / value (FloatArith.sub hi lo)| ≤ 1 / 2 ^ 53 := by
      rcases e2 (by linarith [tooLarge_two]) with h | h
      · exact le_trans h (by
          apply one_div_le_one_div_of_le (by positivity)
          exact pow_le_pow_right₀ (by norm_num) (by norm_num))
      · exact le_trans h (div_le_div_of_nonneg_right hle1 (by positivity))
    have tri := abs_sub_le (value (div (FloatArith.sub ((floInput F64).toD x) ((floInput F64).toD lo)) ((floInput F64).toD (FloatArith.sub hi lo))))
      (value (FloatArith.sub x lo) / value (FloatArith.sub hi lo)) ((value x - value lo) / (value hi - value lo))
    have hn : 1 / 2 ^ 53 + (1 / 2 ^ 53 + 1 / 2 ^ 53) / (1 - 1 / 2 ^ 53) ≤ (1 / 2 ^ 51 : ℚ) := by norm_num
    linarith [hq.2]
  · intro x hnx
    unfold execMinMax
    rw [if_pos (show (floInput F64).null x = true from (isNaN_iff x).2 hnx), ← isNaN_iff]
    decide +kernel

/-- `double` columns whose spread overflows: no column is scaled; numbers near the least become 0 and the others, with the
greatest value, NaN. -/
theorem C68_double_overflow_refuted (col cap : Nat) (hcap : 0 < cap) (batches : List (List F64)) (hne : batches ≠ [])
    (hb : NoEmptyBatch batches) (maps : AnnotationMaps (NumAnnot F64 F64)) (hcol : col < maps.length)
    (hnone : getAnnotation NumAnnot.isMinMax maps col "MinMaxEstimator" = .ok none)
    (values : List F64) (hvalues : values = (batches.flatten.take cap).filter (fun x => !isNaN x))
    (hx : ∀ v ∈ values, Finite v) (a b : F64) (ha : Least value values a) (hgb : Greatest value values b)
    (hspread : tooLarge F64 ≤ value b - value a) :
    ∃ t,
      (∀ X : Xf (MinMaxScaler F64) F64 F64,
        FeaturizerYields X (fun _ => minMaxComponent (floInput F64) col cap) 1 (makeMinMax (floInput F64) col) batches maps (.ok t)) ∧
      (∀ x, Finite x → value a ≤ value x → value x - value a < tooLarge F64 →
        value (execMinMax (floInput F64) t x) = 0 ∧ Finite (execMinMax (floInput F64) t x)) ∧
      (∀ x, Finite x → tooLarge F64 ≤ value x - value a → IsNaN (execMinMax (floInput F64) t x)) := by
  subst hvalues
  have hseen : ∀ x ∈ batches.flatten.take cap, Finite x ∨ (floInput F64).null x = true := by
    intro x hm
    cases h : isNaN x
    · exact .inl (hx x (by simp [List.mem_filter, hm, h]))
    · exact .inr h
  have ht := minMax_trained (ranked_flo (T := F64)) col cap hcap batches hne hb maps hcol hnone hseen
  obtain ⟨lo, hi, hlo, hhi, hy⟩ := ht.2 (List.ne_nil_of_mem ha.1)
  change Least value (List.filter (fun x => !isNaN x) (List.take cap batches.flatten)) lo at hlo
  change Greatest value (List.filter (fun x => !isNaN x) (List.take cap batches.flatten)) hi at hhi
  generalize (batches.flatten.take cap).filter (fun x => !isNaN x) = values at hlo hhi hx ha hgb
  have hea : value a = value lo := le_antisymm (ha.2 _ hlo.1) (hlo.2 _ ha.1)
  have heb : value b = value hi := le_antisymm (hhi.2 _ hgb.1) (hgb.2 _ hhi.1)
  rw [hea, heb] at hspread
  have hflo := hx _ hlo.1
  have hfhi := hx _ hhi.1
  have hpos : (0 : ℚ) < tooLarge F64 := by linarith [tooLarge_two]
  have hnew : newMinMax (floInput F64) lo hi = .ok ⟨lo, FloatArith.sub hi lo⟩ := by
    unfold newMinMax
    rw [if_neg]
    · rfl
    · show ¬FloatArith.lt hi lo = true
      rw [FloatArith.lt_iff hfhi hflo]; linarith
  rw [hnew] at hy
  have hbig : ∀ x, Finite x → tooLarge F64 ≤ value x - value lo → key (FloatArith.sub x lo) = (fmt F64).inf := by
    intro x hfx h
    have h1 : ¬(rnd (fmt F64) (value x - value lo)).natAbs < (fmt F64).inf := by
      rw [rnd_finite_iff, abs_of_nonneg (by linarith)]; linarith
    have h2 := rnd_bound (F := fmt F64) (value x - value lo)
    have h3 := rnd_nonneg (F := fmt F64) (q := value x - value lo) (by linarith)
    rw [key_sub hfx hflo]
    omega
  have hcast : ∀ x : F64, key x = (fmt F64).inf → (floInput F64).toD x = infinity false := by
    intro x h
    have hi : isInf x = true := by
      unfold isInf
      rw [← key_natAbs, h]; simp
    have hn : isNaN x = false := by rw [isNaN_false, h]; simp
    have hneg : neg? x = false := by
      cases hs : neg? x
      · rfl
      · unfold key at h
        rw [hs, if_pos rfl] at h
        have := inf_pos F64
        omega
    show FloatArith.cast x = _
    unfold FloatArith.cast
    rw [hn, hi, hneg]; simp
  have hinf : key (infinity false : F64) = (fmt F64).inf := by decide +kernel
  have hspan := hcast _ (hbig hi hfhi hspread)
  have hnz : (floInput F64).isZero (FloatArith.sub hi lo) = false := by
    show FloatArith.eq (FloatArith.sub hi lo) (zero false) = false
    unfold FloatArith.eq
    rw [hbig hi hfhi hspread, key_zero]
    have := inf_pos F64
    simp; omega
  have hsub : ∀ x, Finite x → key (FloatArith.sub ((floInput F64).toD x) ((floInput F64).toD lo)) = key (FloatArith.sub x lo) := by
    intro x hfx
    rw [key_sub (toD_double_finite hfx).1 (toD_double_finite hflo).1, key_sub hfx hflo, (toD_double_finite hfx).2,
      (toD_double_finite hflo).2]
  have hexec : ∀ x, Finite x → execMinMax (floInput F64) ⟨lo, FloatArith.sub hi lo⟩ x =
      div (FloatArith.sub ((floInput F64).toD x) ((floInput F64).toD lo)) (infinity false) := by
    intro x hfx
    unfold execMinMax
    rw [if_neg (show ¬(floInput F64).null x = true by rw [show (floInput F64).null x = false from Finite.not_nan hfx]; simp), if_neg (by rw [hnz]; simp), hspan]
  rw [hea]
  refine ⟨_, hy, ?_, ?_⟩
  · intro x hfx h0 h
    rw [hexec x hfx]
    have hf : Finite (FloatArith.sub ((floInput F64).toD x) ((floInput F64).toD lo)) := by
      rw [finite_key, hsub x hfx, ← finite_key]
      exact sub_finite hfx hflo (by rw [abs_of_nonneg (by linarith)]; exact h)
    have e : div (FloatArith.sub ((floInput F64).toD x) ((floInput F64).toD lo)) (infinity false) =
        zero (neg? (FloatArith.sub ((floInput F64).toD x) ((floInput F64).toD lo)) != neg? (infinity false : F64)) := by
      unfold FloatArith.div
      rw [if_neg (by rw [Finite.not_nan hf, show isNaN (infinity false : F64) = false by decide +kernel]; simp),
        if_neg (by rw [Finite.not_inf hf]; simp), if_pos (by decide +kernel)]
    rw [e]
    exact ⟨value_zero _, finite_zero _⟩
  · intro x hfx h
    rw [hexec x hfx]
    have hk := hsub x hfx
    rw [hbig x hfx h] at hk
    generalize FloatArith.sub ((floInput F64).toD x) ((floInput F64).toD lo) = n at hk
    have hn : isNaN n = false := by rw [isNaN_false, hk]; simp
    have hi : isInf n = true := by
      unfold isInf
      rw [← key_natAbs, hk]; simp
    unfold FloatArith.div
    rw [if_neg (by rw [hn, show isNaN (infinity false : F64) = false by decide +kernel]; simp), if_pos hi,
      if_pos (by decide +kernel), ← isNaN_iff]
    decide +kernel

/-- Integer columns with numbers and a spread up to 2^53 (and a spread that the type holds): the results are the doubles nearest
to exact scaling. -/
theorem C68_integers_partial {T : Type} [CInt T] (hT : CInt.lo T < CInt.hi T) (hneg : CInt.lo T ≤ 0) (col cap : Nat) (hcap : 0 < cap)
    (batches : List (List T)) (hne : batches ≠ []) (hb : NoEmptyBatch batches) (maps : AnnotationMaps (NumAnnot T F64))
    (hcol : col < maps.length) (hnone : getAnnotation NumAnnot.isMinMax maps col "MinMaxEstimator" = .ok none)
    (values : List T) (hvalues : values = batches.flatten.take cap) (hx : ∀ v ∈ values, (CInt.toInt v).natAbs ≤ 2 ^ 53)
    (hspread : ∀ a ∈ values, ∀ b ∈ values, CInt.toInt b - CInt.toInt a ≤ CInt.hi T ∧ CInt.toInt b - CInt.toInt a ≤ 2 ^ 53) :
    ∃ t,
      (∀ X : Xf (MinMaxScaler T) T T,
        FeaturizerYields X (fun _ => minMaxComponent (intInput T) col cap) 1 (makeMinMax (intInput T) col) batches maps (.ok t)) ∧
      UnitRange (fun _ => True) (fun x : T => (CInt.toInt x : ℚ)) values (execMinMax (intInput T) t) ∧
      ∀ x a b, Between (fun x : T => (CInt.toInt x : ℚ)) values x → Least (fun x : T => (CInt.toInt x : ℚ)) values a →
        Greatest (fun x : T => (CInt.toInt x : ℚ)) values b → CInt.toInt a < CInt.toInt b →
        IsNearest (((CInt.toInt x : ℚ) - CInt.toInt a) / ((CInt.toInt b : ℚ) - CInt.toInt a)) (execMinMax (intInput T) t x) := by
  have hfil : (batches.flatten.take cap).filter (fun x => !(intInput T).null x) = values := by
    rw [hvalues]
    exact List.filter_eq_self.2 fun _ _ => rfl
  have ht := minMax_trained (ranked_int hT) col cap hcap batches hne hb maps hcol hnone fun _ _ => .inl trivial
  rw [hfil] at ht
  have hv : values ≠ [] := by
    rw [hvalues]
    obtain ⟨b, bs, rfl⟩ := List.exists_cons_of_ne_nil hne
    have := hb b (by simp)
    obtain ⟨x, xs, rfl⟩ := List.exists_cons_of_ne_nil this
    obtain ⟨c, rfl⟩ := Nat.exists_eq_succ_of_ne_zero hcap.ne'
    simp
  obtain ⟨lo, hi, hlo, hhi, hy⟩ := ht.2 hv
  have hint : ∀ v ∈ values, CInt.toInt lo ≤ CInt.toInt v ∧ CInt.toInt v ≤ CInt.toInt hi :=
    fun v hv => ⟨Int.cast_le.1 (hlo.2 v hv), Int.cast_le.1 (hhi.2 v hv)⟩
  have hrange : ∀ x, Between (fun x : T => (CInt.toInt x : ℚ)) values x → CInt.toInt lo ≤ CInt.toInt x ∧ CInt.toInt x ≤ CInt.toInt hi := by
    rintro x ⟨a, ha, b, hb, h1, h2⟩
    exact ⟨le_trans (hint a ha).1 (Int.cast_le.1 h1), le_trans (Int.cast_le.1 h2) (hint b hb).2⟩
  have hl := hx lo hlo.1
  have hh := hx hi hhi.1
  have hle := (hint hi hhi.1).1
  have hsp := hspread lo hlo.1 hi hhi.1
  have hL := CInt.range lo
  have hH := CInt.range hi
  have hd : CInt.toInt (CInt.ofInt (CInt.toInt hi - CInt.toInt lo) : T) = CInt.toInt hi - CInt.toInt lo :=
    CInt.toInt_ofInt _ (by omega) hsp.1
  have harith : (intInput T).sub hi lo = .ok (CInt.ofInt (CInt.toInt hi - CInt.toInt lo)) := by
    show CInt.arith (CInt.toInt hi - CInt.toInt lo) = _
    unfold CInt.arith
    rw [if_neg (by rintro ⟨_, h⟩; exact h ⟨by omega, hsp.1⟩)]
  have hnew : newMinMax (intInput T) lo hi = .ok ⟨lo, CInt.ofInt (CInt.toInt hi - CInt.toInt lo)⟩ := by
    unfold newMinMax
    rw [if_neg (by show ¬decide (CInt.toInt hi < CInt.toInt lo) = true; rw [decide_eq_true_iff]; omega), harith]
  rw [hnew] at hy
  have hz : (intInput T).isZero (CInt.ofInt (CInt.toInt hi - CInt.toInt lo)) = true ↔ (CInt.toInt lo : ℚ) = CInt.toInt hi := by
    show decide (CInt.toInt (CInt.ofInt (CInt.toInt hi - CInt.toInt lo) : T) = 0) = true ↔ _
    rw [decide_eq_true_iff, hd, Int.cast_inj]
    omega
  have hsub : ∀ x, Between (fun x : T => (CInt.toInt x : ℚ)) values x →
      Finite (FloatArith.sub ((intInput T).toD x) ((intInput T).toD lo)) ∧
      value (FloatArith.sub ((intInput T).toD x) ((intInput T).toD lo)) = (CInt.toInt x : ℚ) - CInt.toInt lo := by
    intro x hbx
    have hr := hrange x hbx
    exact sub_ofInt (by omega) hl (by omega)
  have hspan : Finite ((intInput T).toD (CInt.ofInt (CInt.toInt hi - CInt.toInt lo))) ∧
      value ((intInput T).toD (CInt.ofInt (CInt.toInt hi - CInt.toInt lo))) = (CInt.toInt hi : ℚ) - CInt.toInt lo := by
    show Finite (ofInt (CInt.toInt (CInt.ofInt (CInt.toInt hi - CInt.toInt lo) : T)) : F64) ∧
      value (ofInt (CInt.toInt (CInt.ofInt (CInt.toInt hi - CInt.toInt lo) : T)) : F64) = _
    rw [hd, ← Int.cast_sub]
    exact ofInt_exact (by rw [show 2 * 2 ^ (fmt F64).frac = 2 ^ 53 from rfl]; omega)
  refine ⟨_, hy, ?_, ?_⟩
  · refine unitRange_of hlo hhi (fun _ _ => trivial) (fun _ _ => rfl) hz (fun x _ hbx _ => (hsub x hbx).1) ?_ ?_ ?_ ?_
    · intro x y _ _ hbx hby _ hxy
      rw [(hsub x hbx).2, (hsub y hby).2]
      linarith
    · intro x _ hbx he
      rw [(hsub x hbx).2, he, sub_self]
    · intro hlt
      rw [hspan.2]
      exact ⟨hspan.1, by linarith⟩
    · intro x _ hbx _ he
      rw [(hsub x hbx).2, hspan.2, he]
  · intro x a b hbx ha hgb hab
    have hea : CInt.toInt a = CInt.toInt lo := le_antisymm (Int.cast_le.1 (ha.2 _ hlo.1)) (Int.cast_le.1 (hlo.2 _ ha.1))
    have heb : CInt.toInt b = CInt.toInt hi := le_antisymm (Int.cast_le.1 (hhi.2 _ hgb.1)) (Int.cast_le.1 (hgb.2 _ hhi.1))
    rw [hea, heb] at hab ⊢
    have hab' : (CInt.toInt lo : ℚ) < CInt.toInt hi := Int.cast_lt.2 hab
    have hr := hrange x hbx
    have h1 : (CInt.toInt lo : ℚ) ≤ CInt.toInt x := Int.cast_le.2 hr.1
    have h2 : (CInt.toInt x : ℚ) ≤ CInt.toInt hi := Int.cast_le.2 hr.2
    have e1 : execMinMax (intInput T) ⟨lo, CInt.ofInt (CInt.toInt hi - CInt.toInt lo)⟩ x =
        div (FloatArith.sub ((intInput T).toD x) ((intInput T).toD lo)) ((intInput T).toD (CInt.ofInt (CInt.toInt hi - CInt.toInt lo))) := by
      unfold execMinMax
      rw [if_neg (show ¬(intInput T).null x = true from Bool.false_ne_true), if_neg (fun h0 => absurd (hz.1 h0) hab'.ne)]
    have hpos : value ((intInput T).toD (CInt.ofInt (CInt.toInt hi - CInt.toInt lo))) ≠ 0 := by rw [hspan.2]; linarith
    have hk := key_div (hsub x hbx).1 hspan.1 hpos
    have hu := div_unit (hsub x hbx).1 hspan.1 (by rw [(hsub x hbx).2]; linarith) (by rw [(hsub x hbx).2, hspan.2]; linarith)
      (by rw [hspan.2]; linarith)
    rw [(hsub x hbx).2, hspan.2] at hk
    rw [e1]
    exact nearest_of_key hk hu.1

/-- `float` columns of finite numbers and NaN whose spread does not overflow: the span is a rounded `float`, the other operations
are in `double`, so the results may exceed 1 by 2^-23. -/
theorem C68_float_partial (col cap : Nat) (hcap : 0 < cap) (batches : List (List F32)) (hne : batches ≠ [])
    (hb : NoEmptyBatch batches) (maps : AnnotationMaps (NumAnnot F32 F64)) (hcol : col < maps.length)
    (hnone : getAnnotation NumAnnot.isMinMax maps col "MinMaxEstimator" = .ok none)
    (values : List F32) (hvalues : values = (batches.flatten.take cap).filter (fun x => !isNaN x))
    (hx : ∀ v ∈ values, Finite v)
    (hspread : ∀ a b, Least value values a → Greatest value values b → value b - value a < tooLarge F32) :
    (values = [] → ∀ X : Xf (MinMaxScaler F32) F32 F32,
      FeaturizerYields X (fun _ => minMaxComponent (floInput F32) col cap) 1 (makeMinMax (floInput F32) col) batches maps
        (.error .invalidArgument)) ∧
    (values ≠ [] → ∃ t,
      (∀ X : Xf (MinMaxScaler F32) F32 F32,
        FeaturizerYields X (fun _ => minMaxComponent (floInput F32) col cap) 1 (makeMinMax (floInput F32) col) batches maps (.ok t)) ∧
      NearlyUnit (1 / 2 ^ 23) Finite value values (execMinMax (floInput F32) t) ∧
      WithinExact (1 / 2 ^ 23) Finite value values (execMinMax (floInput F32) t) ∧
      ∀ x, IsNaN x → IsNaN (execMinMax (floInput F32) t x)) := by
  subst hvalues
  have hseen : ∀ x ∈ batches.flatten.take cap, Finite x ∨ (floInput F32).null x = true := by
    intro x hm
    cases h : isNaN x
    · exact .inl (hx x (by simp [List.mem_filter, hm, h]))
    · exact .inr h
  have ht := minMax_trained (ranked_flo (T := F32)) col cap hcap batches hne hb maps hcol hnone hseen
  refine ⟨fun h => ht.1 h, fun h => ?_⟩
  obtain ⟨lo, hi, hlo, hhi, hy⟩ := ht.2 h
  change Least value (List.filter (fun x => !isNaN x) (List.take cap batches.flatten)) lo at hlo
  change Greatest value (List.filter (fun x => !isNaN x) (List.take cap batches.flatten)) hi at hhi
  generalize (batches.flatten.take cap).filter (fun x => !isNaN x) = values at hlo hhi hx hspread h
  have hle : value lo ≤ value hi := hlo.2 _ hhi.1
  have hflo := hx _ hlo.1
  have hfhi := hx _ hhi.1
  have hsp := hspread lo hi hlo hhi
  have hsp64 : value hi - value lo < tooLarge F64 := lt_trans hsp tooLarge_lt
  have hspan : Finite (FloatArith.sub hi lo) := sub_finite hfhi hflo (by rw [abs_of_nonneg (by linarith)]; exact hsp)
  have hnew : newMinMax (floInput F32) lo hi = .ok ⟨lo, FloatArith.sub hi lo⟩ := by
    unfold newMinMax
    rw [if_neg]
    · rfl
    · show ¬FloatArith.lt hi lo = true
      rw [FloatArith.lt_iff hfhi hflo]; linarith
  rw [hnew] at hy
  have hrange : ∀ x, Between value values x → value lo ≤ value x ∧ value x ≤ value hi := by
    rintro x ⟨a, ha, b, hb, h1, h2⟩
    exact ⟨le_trans (hlo.2 a ha) h1, le_trans h2 (hhi.2 b hb)⟩
  have hto : ∀ x : F32, Finite x → Finite ((floInput F32).toD x) ∧ value ((floInput F32).toD x) = value x :=
    fun x hfx => cast_exact (T := F64) hfx
  have hlo64 := hto lo hflo
  have hfin : ∀ x, Finite x → Between value values x → Finite (FloatArith.sub ((floInput F32).toD x) ((floInput F32).toD lo)) := by
    intro x hfx hbx
    have hr := hrange x hbx
    refine sub_finite (hto x hfx).1 hlo64.1 ?_
    rw [(hto x hfx).2, hlo64.2, abs_of_nonneg (by linarith)]
    linarith
  have hd := hto _ hspan
  have hdpos : value lo < value hi → 0 < value (FloatArith.sub hi lo) := by
    intro hlt
    have h0 : 0 ≤ value (FloatArith.sub hi lo) := by
      rw [← sub_zero hflo hflo rfl]
      exact sub_ordered hflo hfhi hflo hle
    refine lt_of_le_of_ne h0 fun he => ?_
    exact hlt.ne' ((sub_eq_zero_iff hfhi hflo).1 he.symm)
  have hz : (floInput F32).isZero (FloatArith.sub hi lo) = true ↔ value lo = value hi := by
    show FloatArith.eq (FloatArith.sub hi lo) (zero false) = true ↔ _
    rw [eq_iff hspan (finite_zero _), value_zero, sub_eq_zero_iff hfhi hflo, eq_comm]
  have hnull : ∀ x : F32, Finite x → ¬(floInput F32).null x = true := by
    intro x hfx
    rw [show (floInput F32).null x = false from Finite.not_nan hfx]; simp
  have heq : value lo = value hi → ∀ x, Finite x → execMinMax (floInput F32) ⟨lo, FloatArith.sub hi lo⟩ x = zero false := by
    intro he x hfx
    unfold execMinMax
    rw [if_neg (hnull x hfx), if_pos (hz.2 he)]
  have hexec : value lo < value hi → ∀ x, Finite x → execMinMax (floInput F32) ⟨lo, FloatArith.sub hi lo⟩ x =
      div (FloatArith.sub ((floInput F32).toD x) ((floInput F32).toD lo)) ((floInput F32).toD (FloatArith.sub hi lo)) := by
    intro hlt x hfx
    unfold execMinMax
    rw [if_neg (hnull x hfx), if_neg (fun h0 => absurd (hz.1 h0) hlt.ne)]
  have hn0 : ∀ x, Finite x → value lo ≤ value x → 0 ≤ value (FloatArith.sub ((floInput F32).toD x) ((floInput F32).toD lo)) := by
    intro x hfx hl
    rw [← sub_zero hlo64.1 hlo64.1 rfl]
    exact sub_ordered hlo64.1 (hto x hfx).1 hlo64.1 (by rw [hlo64.2, (hto x hfx).2]; exact hl)
  -- the error
  have herr : value lo < value hi → ∀ x, Finite x → Between value values x →
      Finite (execMinMax (floInput F32) ⟨lo, FloatArith.sub hi lo⟩ x) ∧
      |value (execMinMax (floInput F32) ⟨lo, FloatArith.sub hi lo⟩ x) - (value x - value lo) / (value hi - value lo)| ≤ 1 / 2 ^ 23 := by
    intro hlt x hfx hbx
    have hr := hrange x hbx
    rw [hexec hlt x hfx]
    have hnz : value ((floInput F32).toD (FloatArith.sub hi lo)) ≠ 0 := by rw [hd.2]; exact (hdpos hlt).ne'
    have e2 := div_error (hfin x hfx hbx) hd.1 hnz
    have hk := key_div (hfin x hfx hbx) hd.1 hnz
    have en := sub_error (hto x hfx).1 hlo64.1 (by rw [(hto x hfx).2, hlo64.2, abs_of_nonneg (by linarith)]; linarith)
    have es := sub_error hfhi hflo (by rw [abs_of_nonneg (by linarith)]; linarith)
    rw [(hto x hfx).2, hlo64.2] at en
    rw [hd.2] at e2 hk
    have h0 := hn0 x hfx hr.1
    generalize FloatArith.sub ((floInput F32).toD x) ((floInput F32).toD lo) = n at e2 hk en h0
    generalize value (FloatArith.sub hi lo) = s at e2 hk es
    rw [abs_of_nonneg (show 0 ≤ value x - value lo by linarith), div_eq_mul_one_div] at en
    rw [abs_of_nonneg (show 0 ≤ value hi - value lo by linarith), div_eq_mul_one_div] at es
    have hP : (2 : ℚ) ^ (Binary.frac F64 + 1) = 2 ^ 53 := rfl
    have hP' : (2 : ℚ) ^ (Binary.frac F32 + 1) = 2 ^ 24 := rfl
    rw [hP] at en
    rw [hP'] at es
    have hq := quotient_error (by linarith) (by linarith) (by linarith) (by positivity) (by positivity) (by norm_num) en es
    have hq1 : (value x - value lo) / (value hi - value lo) ≤ 1 := by rw [div_le_one (by linarith)]; linarith
    have hc : ((1 / 2 ^ 53 + 1 / 2 ^ 24) / (1 - 1 / 2 ^ 24) : ℚ) ≤ 1 / 2 ^ 23 - 1 / 2 ^ 52 := by norm_num
    have hc2 : (1 / 2 ^ 23 - 1 / 2 ^ 52 : ℚ) ≤ 1 := by norm_num
    have habs := abs_le.1 hq.2
    have hle2 : |value n / s| ≤ 2 := by
      rw [abs_of_nonneg (div_nonneg h0 hq.1.le)]
      linarith [habs.2]
    have hlt2 : |value n / s| < tooLarge F64 := by linarith [tooLarge_two]
    refine ⟨by rw [finite_key, hk]; exact rnd_finite hlt2, ?_⟩
    have e3 : |value (div n ((floInput F32).toD (FloatArith.sub hi lo))) - value n / s| ≤ 1 / 2 ^ 52 := by
      rcases e2 hlt2 with h | h
      · exact le_trans h (by
          apply one_div_le_one_div_of_le (by positivity)
          exact pow_le_pow_right₀ (by norm_num) (by norm_num))
      · refine le_trans h ?_
        rw [div_le_div_iff₀ (by positivity) (by positivity)]
        have : (2 : ℚ) ^ 53 = 2 * 2 ^ 52 := by norm_num
        rw [this]
        nlinarith [show (0 : ℚ) < 2 ^ 52 by positivity]
    have tri := abs_sub_le (value (div n ((floInput F32).toD (FloatArith.sub hi lo)))) (value n / s)
      ((value x - value lo) / (value hi - value lo))
    linarith [hq.2]
  refine ⟨_, hy, ⟨?_, ?_, ?_, ?_⟩, ?_, ?_⟩
  · intro x hfx hbx
    have hr := hrange x hbx
    rcases hle.eq_or_lt with he | hlt
    · rw [heq he x hfx, value_zero]
      exact ⟨finite_zero _, le_refl _, by norm_num⟩
    · have hq1 : (value x - value lo) / (value hi - value lo) ≤ 1 := by rw [div_le_one (by linarith)]; linarith
      refine ⟨(herr hlt x hfx hbx).1, ?_, by linarith [(abs_le.1 (herr hlt x hfx hbx).2).2]⟩
      rw [hexec hlt x hfx, value_key, key_div (hfin x hfx hbx) hd.1 (by rw [hd.2]; exact (hdpos hlt).ne'), hd.2]
      exact fval_nonneg (rnd_nonneg (div_nonneg (hn0 x hfx hr.1) (hdpos hlt).le))
  · intro x y hfx hfy hbx hby hxy
    rcases hle.eq_or_lt with he | hlt
    · rw [heq he x hfx, heq he y hfy]
    · rw [hexec hlt x hfx, hexec hlt y hfy]
      exact div_ordered (hfin x hfx hbx) (hfin y hfy hby) hd.1
        (sub_ordered (hto x hfx).1 (hto y hfy).1 hlo64.1 (by rw [(hto x hfx).2, (hto y hfy).2]; exact hxy)) (by rw [hd.2]; exact hdpos hlt)
  · intro a ha
    have hfa := hx a ha.1
    have hba : Between value values a := ⟨a, ha.1, a, ha.1, le_refl _, le_refl _⟩
    rcases hle.eq_or_lt with he | hlt
    · rw [heq he a hfa, value_zero]
    · rw [hexec hlt a hfa]
      refine div_zero_num (hfin a hfa hba) hd.1 (sub_zero (hto a hfa).1 hlo64.1 ?_) (by rw [hd.2]; exact hdpos hlt)
      rw [(hto a hfa).2, hlo64.2]
      exact le_antisymm (ha.2 _ hlo.1) (hlo.2 _ ha.1)
  · intro a b ha hgb hab
    have hea : value a = value lo := le_antisymm (ha.2 _ hlo.1) (hlo.2 _ ha.1)
    have heb : value b = value hi := le_antisymm (hhi.2 _ hgb.1) (hgb.2 _ hhi.1)
    rw [hea, heb] at hab
    have h := (herr hab b (hx b hgb.1) ⟨b, hgb.1, b, hgb.1, le_refl _, le_refl _⟩).2
    rwa [heb, div_self (by linarith)] at h
  · intro x a b hfx hbx ha hgb hab
    have hea : value a = value lo := le_antisymm (ha.2 _ hlo.1) (hlo.2 _ ha.1)
    have heb : value b = value hi := le_antisymm (hhi.2 _ hgb.1) (hgb.2 _ hhi.1)
    rw [hea, heb] at hab ⊢
    exact (herr hab x hfx hbx).2
  · intro x hnx
    unfold execMinMax
    rw [if_pos (show (floInput F32).null x = true from (isNaN_iff x).2 hnx), ← isNaN_iff]
    decide +kernel

/-! ### Where the code is not exact -/

/-- Training on a column of two numbers. -/
theorem trained_pair {V : Type} {k : FloInput V} {num : V → Prop} {val : V → ℚ} (R : Ranked k num val) {a b : V} (ha : num a)
    (hb : num b) (hlt : k.lt a b = true) (X : Xf (MinMaxScaler V) V V) :
    FeaturizerYields X (fun _ => minMaxComponent k 0 9) 1 (makeMinMax k 0) [[a, b]] [[]] (newMinMax k a b) := by
  have h := minMax_trained R 0 9 (by norm_num) [[a, b]] (by simp) (by intro x hx; simp at hx; simp [hx]) [[]] (by simp) rfl
    (by intro x hx; simp at hx; rcases hx with rfl | rfl; exact .inl ha; exact .inl hb)
  have hf : ((([[a, b]] : List (List V)).flatten.take 9).filter fun x => !k.null x) = [a, b] := by
    simp [R.null_num a ha, R.null_num b hb]
  rw [hf] at h
  obtain ⟨lo, hi, h1, h2, hy⟩ := h.2 (by simp)
  rw [R.lt_num a b ha hb] at hlt
  have e1 : lo = a := by
    have := h1.1
    simp at this
    rcases this with rfl | rfl
    · rfl
    · have := h1.2 a (by simp); linarith
  have e2 : hi = b := by
    have := h2.1
    simp at this
    rcases this with rfl | rfl
    · have := h2.2 b (by simp); linarith
    · rfl
  have hx := hy X
  rwa [e1, e2] at hx

theorem newMinMax_flo {T : Type} [FloType T] {lo hi d : T} (h : FloatArith.lt hi lo = false) (hd : FloatArith.sub hi lo = d) :
    newMinMax (floInput T) lo hi = .ok ⟨lo, d⟩ := by
  unfold newMinMax
  rw [if_neg (show ¬(floInput T).lt hi lo = true by rw [show (floInput T).lt hi lo = false from h]; simp)]
  show Except.ok (⟨lo, FloatArith.sub hi lo⟩ : MinMaxScaler T) = _
  rw [hd]

/-- `float`: -2^-24 and 1. The span is rounded to 1, and 1 becomes 1 + 2^-24. -/
theorem C68_float_unit_refuted : ∃ (a b : F32) (t : MinMaxScaler F32), Finite a ∧ Finite b ∧ value b - value a < tooLarge F32 ∧
    (∀ X : Xf (MinMaxScaler F32) F32 F32,
      FeaturizerYields X (fun _ => minMaxComponent (floInput F32) 0 9) 1 (makeMinMax (floInput F32) 0) [[a, b]] [[]] (.ok t)) ∧
    1 < value (execMinMax (floInput F32) t b) := by
  have fa : Finite (⟨3011510272⟩ : F32) := by unfold Finite exponent; decide +kernel
  have fb : Finite (⟨1065353216⟩ : F32) := by unfold Finite exponent; decide +kernel
  refine ⟨⟨3011510272⟩, ⟨1065353216⟩, ⟨⟨3011510272⟩, ⟨1065353216⟩⟩, fa, fb, ?_, ?_, ?_⟩
  · have h := rnd_finite_iff (T := F32) (q := value (⟨1065353216⟩ : F32) - value (⟨3011510272⟩ : F32))
    rw [← key_sub fb fa] at h
    exact lt_of_le_of_lt (le_abs_self _) (h.1 (by decide +kernel))
  · intro X
    have h := trained_pair (ranked_flo (T := F32)) fa fb (by decide +kernel) X
    rwa [show newMinMax (floInput F32) ⟨3011510272⟩ ⟨1065353216⟩ = .ok ⟨⟨3011510272⟩, ⟨1065353216⟩⟩ by rfl] at h
  · rw [← value_one.2, ← lt_iff value_one.1 (by unfold Finite exponent; decide +kernel)]
    decide +kernel

/-- `float`: the lowest and the largest number. The span is infinite, and the greatest value becomes 0. -/
theorem C68_float_overflow_refuted : ∃ (a b : F32) (t : MinMaxScaler F32), Finite a ∧ Finite b ∧ value a < value b ∧
    (∀ X : Xf (MinMaxScaler F32) F32 F32,
      FeaturizerYields X (fun _ => minMaxComponent (floInput F32) 0 9) 1 (makeMinMax (floInput F32) 0) [[a, b]] [[]] (.ok t)) ∧
    value (execMinMax (floInput F32) t b) = 0 := by
  have fa : Finite (lowest : F32) := finite_lowest
  have fb : Finite (largest : F32) := finite_largest
  have hlt : FloatArith.lt (lowest : F32) largest = true := by decide +kernel
  refine ⟨lowest, largest, ⟨lowest, infinity false⟩, fa, fb, (lt_iff fa fb).1 hlt, ?_, ?_⟩
  · intro X
    have h := trained_pair (ranked_flo (T := F32)) fa fb hlt X
    rwa [show newMinMax (floInput F32) lowest largest = .ok ⟨lowest, infinity false⟩ by rfl] at h
  · have e : execMinMax (floInput F32) ⟨lowest, infinity false⟩ largest = zero false := by decide +kernel
    rw [e, value_zero]

/-- `int64_t`: 2^53 + 1 and 2^53 + 3 become 0 and 2. -/
theorem C68_integers_refuted : ∃ (a b : Int64) (t : MinMaxScaler Int64), CInt.toInt b - CInt.toInt a = 2 ∧
    (∀ X : Xf (MinMaxScaler Int64) Int64 Int64,
      FeaturizerYields X (fun _ => minMaxComponent (intInput Int64) 0 9) 1 (makeMinMax (intInput Int64) 0) [[a, b]] [[]] (.ok t)) ∧
    value (execMinMax (intInput Int64) t a) = 0 ∧ value (execMinMax (intInput Int64) t b) = 2 := by
  refine ⟨9007199254740993, 9007199254740995, ⟨9007199254740993, 2⟩, by decide +kernel, ?_, ?_, ?_⟩
  · intro X
    have h := trained_pair (ranked_int (T := Int64) (by decide)) (a := 9007199254740993) (b := 9007199254740995) trivial trivial
      (by decide +kernel) X
    rwa [show newMinMax (intInput Int64) 9007199254740993 9007199254740995 = .ok ⟨9007199254740993, 2⟩ by rfl] at h
  · have e : execMinMax (intInput Int64) ⟨9007199254740993, 2⟩ 9007199254740993 = zero false := by decide +kernel
    rw [e, value_zero]
  · have e : execMinMax (intInput Int64) ⟨9007199254740993, 2⟩ 9007199254740995 = ofInt 2 := by decide +kernel
    rw [e]
    have := (ofInt_exact (T := F64) (z := 2) (by decide +kernel)).2
    simpa using this

/-- Saving and loading changes a `double` scaler: trained on 1 and 2^53 + 2 its span is 2^53, and 2^53 - 1 when it is loaded;
the greatest value becomes 1 before, and more than 1 after. -/
theorem C68_reload_refuted : ∃ (a b : F64) (t t' : MinMaxScaler F64), Finite a ∧ Finite b ∧
    (∀ X : Xf (MinMaxScaler F64) F64 F64,
      FeaturizerYields X (fun _ => minMaxComponent (floInput F64) 0 9) 1 (makeMinMax (floInput F64) 0) [[a, b]] [[]] (.ok t)) ∧
    reloadMinMax F64 t = .ok t' ∧ value (execMinMax (floInput F64) t b) = 1 ∧ 1 < value (execMinMax (floInput F64) t' b) := by
  have fa : Finite (ofInt 1 : F64) := value_one.1
  have fb : Finite (ofInt 9007199254740994 : F64) := by unfold Finite exponent; decide +kernel
  refine ⟨ofInt 1, ofInt 9007199254740994, ⟨ofInt 1, ofInt 9007199254740992⟩, ⟨ofInt 1, ofInt 9007199254740991⟩, fa, fb, ?_, ?_, ?_, ?_⟩
  · intro X
    have h := trained_pair (ranked_flo (T := F64)) fa fb (by decide +kernel) X
    rwa [show newMinMax (floInput F64) (ofInt 1) (ofInt 9007199254740994) = .ok ⟨ofInt 1, ofInt 9007199254740992⟩ from
      newMinMax_flo (by decide +kernel) (by decide +kernel)] at h
  · exact newMinMax_flo (by decide +kernel) (by decide +kernel)
  · have e : execMinMax (floInput F64) ⟨ofInt 1, ofInt 9007199254740992⟩ (ofInt 9007199254740994) = ofInt 1 := by decide +kernel
    rw [e, value_one.2]
  · rw [← value_one.2, ← lt_iff value_one.1 (by unfold Finite exponent; decide +kernel)]
    decide +kernel

/-- A difference that is computed exactly is restored by `save` and `load`. -/
theorem reload_exact {T : Type} [FloType T] [Lawful T] {lo hi : T} (hlo : Finite lo) (hhi : Finite hi) (hle : value lo ≤ value hi)
    {d : T} (hd : Finite d) (he : value d = value hi - value lo) :
    ∃ t t', newMinMax (floInput T) lo hi = .ok t ∧ reloadMinMax T t = .ok t' ∧
      ∀ x, execMinMax (floInput T) t' x = execMinMax (floInput T) t x := by
  have hk : key (FloatArith.sub hi lo) = key d := by rw [key_sub hhi hlo, ← he, rnd_value hd]
  have hf : Finite (FloatArith.sub hi lo) := by rw [finite_key, hk, ← finite_key]; exact hd
  have hv : value (FloatArith.sub hi lo) = value hi - value lo := by rw [value_key, hk, ← value_key, he]
  have hka : key (add lo (FloatArith.sub hi lo)) = key hi := by
    rw [key_add hlo hf, hv, show value lo + (value hi - value lo) = value hi by ring, rnd_value hhi]
  have hfa : Finite (add lo (FloatArith.sub hi lo)) := by rw [finite_key, hka, ← finite_key]; exact hhi
  have hva : value (add lo (FloatArith.sub hi lo)) = value hi := by rw [value_key, hka, ← value_key]
  have hk2 : key (FloatArith.sub (add lo (FloatArith.sub hi lo)) lo) = key (FloatArith.sub hi lo) := by
    rw [key_sub hfa hlo, key_sub hhi hlo, hva]
  have h1 : FloatArith.lt hi lo = false := by
    rw [← Bool.not_eq_true, lt_iff hhi hlo]; linarith
  have h2 : FloatArith.lt (add lo (FloatArith.sub hi lo)) lo = false := by
    rw [← Bool.not_eq_true, lt_iff hfa hlo, hva]; linarith
  refine ⟨_, _, newMinMax_flo h1 rfl, newMinMax_flo h2 rfl, ?_⟩
  intro x
  by_cases h0 : key (FloatArith.sub hi lo) = 0
  · have z : ∀ y : T, key y = 0 → (floInput T).isZero y = true := by
      intro y hy
      have fy : Finite y := by rw [finite_key, hy]; exact inf_pos T
      show eq y (zero false) = true
      rw [eq_iff fy (finite_zero _), value_zero, value_key, hy, fval_zero]
    unfold execMinMax
    rw [if_pos (z _ h0), if_pos (z _ (hk2.trans h0))]
  · rw [eq_of_key hk2 (by rw [hk2]; exact h0)]

/-- Columns of finite numbers and NaN whose spread is itself a number of the type (such as columns of integers up to `2^52` for
`double`): a scaler that is saved and loaded gives exactly the same results. -/
theorem C68_reload_exact {T : Type} [FloType T] [Lawful T] (col cap : Nat) (hcap : 0 < cap) (batches : List (List T))
    (hne : batches ≠ []) (hb : NoEmptyBatch batches) (maps : AnnotationMaps (NumAnnot T F64)) (hcol : col < maps.length)
    (hnone : getAnnotation NumAnnot.isMinMax maps col "MinMaxEstimator" = .ok none)
    (values : List T) (hvalues : values = (batches.flatten.take cap).filter (fun x => !isNaN x)) (hvne : values ≠ [])
    (hx : ∀ v ∈ values, Finite v)
    (hspread : ∀ a b, Least value values a → Greatest value values b → ∃ d : T, Finite d ∧ value d = value b - value a) :
    ∃ t t', (∀ X : Xf (MinMaxScaler T) T T,
        FeaturizerYields X (fun _ => minMaxComponent (floInput T) col cap) 1 (makeMinMax (floInput T) col) batches maps (.ok t)) ∧
      reloadMinMax T t = .ok t' ∧ ∀ x, execMinMax (floInput T) t' x = execMinMax (floInput T) t x := by
  subst hvalues
  have hseen : ∀ x ∈ batches.flatten.take cap, Finite x ∨ (floInput T).null x = true := by
    intro x hm
    cases h : isNaN x
    · exact .inl (hx x (by simp [List.mem_filter, hm, h]))
    · exact .inr h
  obtain ⟨lo, hi, hlo, hhi, hy⟩ := (minMax_trained (ranked_flo (T := T)) col cap hcap batches hne hb maps hcol hnone hseen).2 hvne
  obtain ⟨d, hd, he⟩ := hspread lo hi hlo hhi
  obtain ⟨t, t', h1, h2, h3⟩ := reload_exact (hx _ hlo.1) (hx _ hhi.1) (hlo.2 _ hhi.1) hd he
  rw [h1] at hy
  exact ⟨t, t', hy, h2, h3⟩

/-! Non-vacuity: the column 0.1, NaN, 0.3 of `double`; -100, 27 of `int8_t`; 0.1, NaN, 1 of `float`. -/

/-- A spread is not too large if the difference of the two numbers is not infinite. -/
theorem spread_ok {T : Type} [FloType T] [Lawful T] {a b : T} (ha : Finite a) (hb : Finite b)
    (h : ∀ x y : T, x = a ∨ x = b → y = a ∨ y = b → (key (FloatArith.sub x y)).natAbs < (fmt T).inf) (x y : T)
    (hx : Least value [a, b] x) (hy : Greatest value [a, b] y) : value y - value x < tooLarge T := by
  have h1 : x = a ∨ x = b := by simpa using hx.1
  have h2 : y = a ∨ y = b := by simpa using hy.1
  have fx : Finite x := by rcases h1 with rfl | rfl; exact ha; exact hb
  have fy : Finite y := by rcases h2 with rfl | rfl; exact ha; exact hb
  have := h y x h2 h1
  rw [key_sub fy fx, rnd_finite_iff] at this
  exact lt_of_le_of_lt (le_abs_self _) this

example : ∃ t : MinMaxScaler F64, UnitRange Finite value [⟨4591870180066957722⟩, ⟨4599075939470750515⟩] (execMinMax (floInput F64) t) := by
  have fa : Finite (⟨4591870180066957722⟩ : F64) := by unfold Finite exponent; decide +kernel
  have fb : Finite (⟨4599075939470750515⟩ : F64) := by unfold Finite exponent; decide +kernel
  obtain ⟨t, _, h, _⟩ := (C68_double_partial 0 9 (by decide) [[⟨4591870180066957722⟩, nan], [⟨4599075939470750515⟩]] (by simp)
    (by intro b hb; simp at hb; rcases hb with rfl | rfl <;> simp) [[]] (by simp) rfl
    [⟨4591870180066957722⟩, ⟨4599075939470750515⟩] (by decide +kernel)
    (by intro v hv; simp at hv; rcases hv with rfl | rfl; exact fa; exact fb)
    (spread_ok fa fb (by rintro x y (rfl | rfl) (rfl | rfl) <;> decide +kernel))).2 (by simp)
  exact ⟨t, h⟩

example : ∃ t : MinMaxScaler F32, NearlyUnit (1 / 2 ^ 23) Finite value [⟨1036831949⟩, ⟨1065353216⟩] (execMinMax (floInput F32) t) := by
  have fa : Finite (⟨1036831949⟩ : F32) := by unfold Finite exponent; decide +kernel
  have fb : Finite (⟨1065353216⟩ : F32) := by unfold Finite exponent; decide +kernel
  obtain ⟨t, _, h, _⟩ := (C68_float_partial 0 9 (by decide) [[⟨1036831949⟩, nan], [⟨1065353216⟩]] (by simp)
    (by intro b hb; simp at hb; rcases hb with rfl | rfl <;> simp) [[]] (by simp) rfl
    [⟨1036831949⟩, ⟨1065353216⟩] (by decide +kernel)
    (by intro v hv; simp at hv; rcases hv with rfl | rfl; exact fa; exact fb)
    (spread_ok fa fb (by rintro x y (rfl | rfl) (rfl | rfl) <;> decide +kernel))).2 (by simp)
  exact ⟨t, h⟩

example : ∃ t : MinMaxScaler Int8, UnitRange (fun _ => True) (fun x : Int8 => (CInt.toInt x : ℚ)) [-100, 27] (execMinMax (intInput Int8) t) := by
  obtain ⟨t, _, h, _⟩ := C68_integers_partial (T := Int8) (by decide) (by decide) 0 9 (by decide) [[-100, 27]] (by simp)
    (by intro b hb; simp at hb; simp [hb]) [[]] (by simp) rfl [-100, 27] (by decide)
    (by intro v hv; simp at hv; rcases hv with rfl | rfl <;> decide)
    (by intro a ha b hb; simp at ha hb; rcases ha with rfl | rfl <;> rcases hb with rfl | rfl <;> decide)
  exact ⟨t, h⟩

example : ∃ t : MinMaxScaler F64, IsNaN (execMinMax (floInput F64) t largest) := by
  have hl : FloatArith.lt (lowest : F64) largest = true := by decide +kernel
  have hlt := (lt_iff finite_lowest finite_largest).1 hl
  have hs : tooLarge F64 ≤ value (largest : F64) - value (lowest : F64) := by
    have h := rnd_finite_iff (T := F64) (q := value (largest : F64) - value (lowest : F64))
    rw [← key_sub finite_largest finite_lowest, abs_of_nonneg (by linarith)] at h
    exact not_lt.1 (fun hh => absurd (h.2 hh) (by decide +kernel))
  obtain ⟨t, _, _, h⟩ := C68_double_overflow_refuted 0 9 (by decide) [[lowest, largest]] (by simp)
    (by intro b hb; simp at hb; simp [hb]) [[]] (by simp) rfl [lowest, largest] (by decide +kernel)
    (by intro v hv; simp at hv; rcases hv with rfl | rfl; exact finite_lowest; exact finite_largest)
    lowest largest ⟨by simp, by intro v hv; simp at hv; rcases hv with rfl | rfl; exact le_refl _; exact hlt.le⟩
    ⟨by simp, by intro v hv; simp at hv; rcases hv with rfl | rfl; exact hlt.le; exact le_refl _⟩ hs
  exact ⟨t, h largest finite_largest hs⟩

/-- 3, NaN, 10 of `float`. -/
example : ∃ t t' : MinMaxScaler F32, reloadMinMax F32 t = .ok t' ∧
    ∀ x, execMinMax (floInput F32) t' x = execMinMax (floInput F32) t x := by
  have h3 := ofInt_exact (T := F32) (z := 3) (by decide +kernel)
  have h10 := ofInt_exact (T := F32) (z := 10) (by decide +kernel)
  have hd : ∀ z : Int, z.natAbs ≤ 10 → ∃ d : F32, Finite d ∧ value d = z := fun z hz =>
    ⟨ofInt z, ofInt_exact (le_trans hz (by decide +kernel))⟩
  obtain ⟨t, t', _, h⟩ := C68_reload_exact (T := F32) 0 9 (by decide) [[ofInt 3, nan], [ofInt 10]] (by simp)
    (by intro b hb; simp at hb; rcases hb with rfl | rfl <;> simp) [[]] (by simp) rfl
    [ofInt 3, ofInt 10] (by decide +kernel) (by simp)
    (by intro v hv; simp at hv; rcases hv with rfl | rfl; exact h3.1; exact h10.1)
    (by
      intro a b ha hb
      have h1 : a = ofInt 3 ∨ a = ofInt 10 := by simpa using ha.1
      have h2 : b = ofInt 3 ∨ b = ofInt 10 := by simpa using hb.1
      rcases h1 with rfl | rfl <;> rcases h2 with rfl | rfl
      · obtain ⟨d, f, e⟩ := hd 0 (by decide); exact ⟨d, f, by rw [e]; simp⟩
      · obtain ⟨d, f, e⟩ := hd 7 (by decide); exact ⟨d, f, by rw [e, h3.2, h10.2]; norm_num⟩
      · obtain ⟨d, f, e⟩ := hd (-7) (by decide); exact ⟨d, f, by rw [e, h3.2, h10.2]; norm_num⟩
      · obtain ⟨d, f, e⟩ := hd 0 (by decide); exact ⟨d, f, by rw [e]; simp⟩)
  exact ⟨t, t', h⟩

end Feat.FloatScalers
