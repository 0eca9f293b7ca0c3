import Verif.Props.FloatArith
import Verif.Model.FloatScalers
import Verif.Spec.Training
import Verif.Spec.ComponentPipeline
import Verif.Proofs.Components
import Verif.Proofs.ComponentPipeline
import Verif.Props.Scalers
/-
Lemmas for C68: min-max scaling in floating point arithmetic.
-/
namespace Feat.FloatScalers
open FloatText FloatArith
variable {V : Type}

/-- The values of an input type: `num` are the numbers, `val` what they stand for. -/
structure Ranked (k : FloInput V) (num : V → Prop) (val : V → ℚ) : Prop where
  null_num : ∀ x, num x → k.null x = false
  lt_num : ∀ x y, num x → num y → (k.lt x y = true ↔ val x < val y)
  lt_null : ∀ x y, k.null x = true → k.lt x y = false ∧ k.lt y x = false
  num_lowest : num k.lowest
  num_largest : num k.largest
  bounds : ∀ x, num x → val k.lowest ≤ val x ∧ val x ≤ val k.largest
  only_lowest : ∀ x, num x → val x = val k.lowest → x = k.lowest
  only_largest : ∀ x, num x → val x = val k.largest → x = k.largest
  limits : val k.lowest < val k.largest

/-! ### Training -/

/-- One step of training. -/
def mmStep (k : FloInput V) (s : V × V) (x : V) : V × V := (if k.lt x s.1 then x else s.1, if k.lt s.2 x then x else s.2)

theorem mm_fold {k : FloInput V} {num : V → Prop} {val : V → ℚ} (R : Ranked k num val) (xs : List V)
    (hx : ∀ x ∈ xs, num x ∨ k.null x = true) :
    (xs.filter (fun x => !k.null x) = [] → xs.foldl (mmStep k) (k.largest, k.lowest) = (k.largest, k.lowest)) ∧
    (xs.filter (fun x => !k.null x) ≠ [] →
      Least val (xs.filter (fun x => !k.null x)) (xs.foldl (mmStep k) (k.largest, k.lowest)).1 ∧
      Greatest val (xs.filter (fun x => !k.null x)) (xs.foldl (mmStep k) (k.largest, k.lowest)).2) := by
  induction xs using List.reverseRecOn with
  | nil => simp
  | append_singleton xs x ih =>
    have ih := ih fun y hy => hx y (by simp [hy])
    have hsub : ∀ v ∈ xs.filter (fun x => !k.null x), num v := by
      intro v hv
      rw [List.mem_filter] at hv
      rcases hx v (by simp [hv.1]) with h | h
      · exact h
      · rw [h] at hv; simp at hv
    rw [List.foldl_append, List.filter_append]
    simp only [List.foldl_cons, List.foldl_nil]
    generalize xs.foldl (mmStep k) (k.largest, k.lowest) = s at ih
    generalize xs.filter (fun x => !k.null x) = vs at ih hsub
    rcases hx x (by simp) with h | h
    · have hn := R.null_num x h
      rw [show [x].filter (fun x => !k.null x) = [x] by simp [hn]]
      refine ⟨fun he => by simp at he, fun _ => ?_⟩
      by_cases hvs : vs = []
      · rw [ih.1 hvs, hvs]
        simp only [mmStep, List.nil_append]
        have h1 : (if k.lt x k.largest then x else k.largest) = x := by
          split_ifs with hl
          · rfl
          · rw [R.lt_num x _ h R.num_largest, not_lt] at hl
            exact (R.only_largest x h (le_antisymm (R.bounds x h).2 hl)).symm
        have h2 : (if k.lt k.lowest x then x else k.lowest) = x := by
          split_ifs with hl
          · rfl
          · rw [R.lt_num _ x R.num_lowest h, not_lt] at hl
            exact (R.only_lowest x h (le_antisymm hl (R.bounds x h).1)).symm
        rw [h1, h2]
        exact ⟨⟨by simp, by simp⟩, ⟨by simp, by simp⟩⟩
      · obtain ⟨⟨m1, l1⟩, ⟨m2, l2⟩⟩ := ih.2 hvs
        simp only [mmStep]
        constructor
        · split_ifs with hl
          · rw [R.lt_num _ _ h (hsub _ m1)] at hl
            refine ⟨by simp, fun v hv => ?_⟩
            rcases List.mem_append.1 hv with hv | hv
            · exact le_trans hl.le (l1 v hv)
            · rw [List.mem_singleton.1 hv]
          · rw [R.lt_num _ _ h (hsub _ m1), not_lt] at hl
            refine ⟨by simp [m1], fun v hv => ?_⟩
            rcases List.mem_append.1 hv with hv | hv
            · exact l1 v hv
            · rw [List.mem_singleton.1 hv]; exact hl
        · split_ifs with hl
          · rw [R.lt_num _ _ (hsub _ m2) h] at hl
            refine ⟨by simp, fun v hv => ?_⟩
            rcases List.mem_append.1 hv with hv | hv
            · exact le_trans (l2 v hv) hl.le
            · rw [List.mem_singleton.1 hv]
          · rw [R.lt_num _ _ (hsub _ m2) h, not_lt] at hl
            refine ⟨by simp [m2], fun v hv => ?_⟩
            rcases List.mem_append.1 hv with hv | hv
            · exact l2 v hv
            · rw [List.mem_singleton.1 hv]; exact hl
    · rw [show [x].filter (fun x => !k.null x) = [] by simp [h], List.append_nil]
      have he : mmStep k s x = s := by
        unfold mmStep
        rw [(R.lt_null x s.1 h).1, (R.lt_null x s.2 h).2]
        simp
      rw [he]
      exact ih

/-- The result of training: the constructor's result for a least and a greatest value. -/
theorem minMax_trained {k : FloInput V} {num : V → Prop} {val : V → ℚ} (R : Ranked k num val)
    (col cap : Nat) (hcap : 0 < cap) (batches : List (List V)) (hne : batches ≠ []) (hb : NoEmptyBatch batches)
    (maps : AnnotationMaps (NumAnnot V F64)) (hcol : col < maps.length)
    (hnone : getAnnotation NumAnnot.isMinMax maps col "MinMaxEstimator" = .ok none)
    (hx : ∀ x ∈ batches.flatten.take cap, num x ∨ k.null x = true) :
    ((batches.flatten.take cap).filter (fun x => !k.null x) = [] → ∀ X : Xf (MinMaxScaler V) V V,
      FeaturizerYields X (fun _ => minMaxComponent k col cap) 1 (makeMinMax k col) batches maps (.error .invalidArgument)) ∧
    ((batches.flatten.take cap).filter (fun x => !k.null x) ≠ [] → ∃ lo hi,
      Least val ((batches.flatten.take cap).filter (fun x => !k.null x)) lo ∧
      Greatest val ((batches.flatten.take cap).filter (fun x => !k.null x)) hi ∧
      ∀ X : Xf (MinMaxScaler V) V V,
        FeaturizerYields X (fun _ => minMaxComponent k col cap) 1 (makeMinMax k col) batches maps
          (newMinMax k lo hi)) := by
  have ht := trainEstimator_fold (minMaxPolicy k NumAnnot.minMax) (mmStep k) (fun _ _ => rfl) (fun _ _ => rfl)
    (minMaxConfig col NumAnnot.isMinMax) cap hcap (k.largest, k.lowest) batches hb maps hcol rfl hnone
  have hf := mm_fold R _ hx
  have hnum : ∀ v ∈ (batches.flatten.take cap).filter (fun x => !k.null x), num v := by
    intro v hv
    rw [List.mem_filter] at hv
    rcases hx v hv.1 with h | h
    · exact h
    · rw [h] at hv; simp at hv
  generalize (batches.flatten.take cap).foldl (mmStep k) (k.largest, k.lowest) = s at hf ht
  generalize (batches.flatten.take cap).filter (fun x => !k.null x) = vs at hf hnum
  refine ⟨fun he X => ?_, fun hvs => ?_⟩
  · rw [hf.1 he] at ht
    simp only [minMaxPolicy] at ht
    rw [if_pos ((R.lt_num _ _ R.num_lowest R.num_largest).2 R.limits)] at ht
    exact featurizer_one X (minMaxComponent k col cap) _ batches hne hb maps hcol _ _ ht
  · obtain ⟨h1, h2⟩ := hf.2 hvs
    refine ⟨s.1, s.2, h1, h2, fun X => ?_⟩
    have hle : k.lt s.2 s.1 = false := by
      rw [← Bool.not_eq_true, R.lt_num _ _ (hnum _ h2.1) (hnum _ h1.1), not_lt]
      exact h2.2 _ h1.1
    simp only [minMaxPolicy, hle] at ht
    rw [if_neg (by simp)] at ht
    have hy := featurizer_one X (minMaxComponent k col cap) (makeMinMax k col) batches hne hb maps hcol _ _
      (ht.trans (addAnnotation_ok maps _ col _ hcol).1)
    have hm : makeMinMax k col (addAnnotation (some (NumAnnot.minMax (F := F64) s.1 s.2)) col "MinMaxEstimator" maps).2 =
        newMinMax k s.1 s.2 := by
      unfold makeMinMax
      rw [getAnnotationData_of (getAnnotation_add_self maps _ col _ _ rfl hnone)]
    simp only [Except.bind] at hy
    rw [(addAnnotation_ok maps _ col _ hcol).1] at hm
    simp only [minMaxConfig] at hy
    rw [hm] at hy
    exact hy

/-! ### The transformer -/

theorem value_one : Finite (ofInt 1 : F64) ∧ value (ofInt 1 : F64) = 1 := by
  have := ofInt_exact (T := F64) (z := 1) (by decide +kernel)
  simpa using this

theorem rnd_one : rnd (fmt F64) 1 = key (ofInt 1 : F64) := by
  rw [← value_one.2, rnd_value value_one.1]

/-- A quotient of numbers in order. -/
theorem div_unit {n s : F64} (hn : Finite n) (hs : Finite s) (h0 : 0 ≤ value n) (h1 : value n ≤ value s) (hpos : 0 < value s) :
    Finite (div n s) ∧ 0 ≤ value (div n s) ∧ value (div n s) ≤ 1 := by
  have hg : (fmt F64).Good := Lawful.good
  have hk := key_div hn hs hpos.ne'
  have hq0 : 0 ≤ value n / value s := by positivity
  have hq1 : value n / value s ≤ 1 := by rw [div_le_one hpos]; exact h1
  have hfin : Finite (div n s) := by
    refine finite_of_key hk (k := key (ofInt 1 : F64)) ?_ ((finite_key _).1 value_one.1)
    rw [← value_key, value_one.2, abs_of_nonneg hq0, abs_one]
    exact hq1
  refine ⟨hfin, ?_, ?_⟩
  · rw [value_key, hk]
    exact fval_nonneg (rnd_nonneg hq0)
  · rw [← value_one.2, value_key, value_key (ofInt 1 : F64), hk, fval_le, ← rnd_one]
    exact rnd_mono hg hq1

/-- The quotient of a number by itself. -/
theorem div_self_one {n s : F64} (hn : Finite n) (hs : Finite s) (h : value n = value s) (hpos : 0 < value s) :
    value (div n s) = 1 := by
  rw [value_key, key_div hn hs hpos.ne', h, div_self hpos.ne', rnd_one, ← value_key, value_one.2]

/-- Zero divided by a number. -/
theorem div_zero_num {n s : F64} (hn : Finite n) (hs : Finite s) (h : value n = 0) (hpos : 0 < value s) :
    value (div n s) = 0 := by
  rw [value_key, key_div hn hs hpos.ne', h, zero_div, rnd_zero, fval_zero]

/-- Quotients in order. -/
theorem div_ordered {n n' s : F64} (hn : Finite n) (hn' : Finite n') (hs : Finite s) (h : value n ≤ value n') (hpos : 0 < value s) :
    value (div n s) ≤ value (div n' s) := by
  rw [value_key, value_key (div n' s), key_div hn hs hpos.ne', key_div hn' hs hpos.ne', fval_le]
  exact rnd_mono Lawful.good (div_le_div_of_nonneg_right h hpos.le)

section
variable {T : Type} [FloType T] [Lawful T]

/-- Differences in order. -/
theorem sub_ordered {x y a : T} (hx : Finite x) (hy : Finite y) (ha : Finite a) (h : value x ≤ value y) :
    value (FloatArith.sub x a) ≤ value (FloatArith.sub y a) := by
  rw [value_key, value_key (FloatArith.sub y a), key_sub hx ha, key_sub hy ha, fval_le]
  exact rnd_mono Lawful.good (by linarith)

theorem sub_zero {x a : T} (hx : Finite x) (ha : Finite a) (h : value x = value a) : value (FloatArith.sub x a) = 0 := by
  rw [value_key, key_sub hx ha, h, sub_self, rnd_zero, fval_zero]

theorem sub_finite {x a : T} (hx : Finite x) (ha : Finite a) (h : |value x - value a| < tooLarge T) :
    Finite (FloatArith.sub x a) := by
  rw [finite_key, key_sub hx ha]
  exact rnd_finite h

/-- A difference is zero only for equal numbers. -/
theorem sub_eq_zero_iff {x a : T} (hx : Finite x) (ha : Finite a) : value (FloatArith.sub x a) = 0 ↔ value x = value a := by
  constructor
  · intro h
    rw [value_key, key_sub hx ha, fval_eq_zero] at h
    have e : value x - value a = ((signedUnits x - signedUnits a : Int) : ℚ) / 2 ^ (fmt T).scale := by
      rw [value_units, value_units]
      push_cast
      ring
    rw [e, rnd_eq_zero_of_multiple Lawful.good] at h
    have : value x - value a = 0 := by rw [e, h]; simp
    linarith
  · exact sub_zero hx ha

omit [Lawful T] in
/-- A number other than zero is determined by its place in the order. -/
theorem eq_of_key {x y : T} (h : key x = key y) (h0 : key x ≠ 0) : x = y := by
  have hp : pat x = pat y := by rw [← key_natAbs, ← key_natAbs, h]
  have hn : neg? x = neg? y := by
    unfold key at h h0
    rw [hp] at h h0
    cases h1 : neg? x <;> cases h2 : neg? y <;> simp [h1, h2] at h h0 ⊢ <;> omega
  have hb : ∀ z : T, FloType.of ((if neg? z then (fmt T).signBit else 0) + pat z) = z := by
    intro z
    have hd := Nat.div_add_mod (Binary.bits z) (fmt T).signBit
    have hl : Binary.bits z < 2 * (fmt T).signBit := by
      have := FloType.bits_lt z
      unfold Fmt.signBit
      rw [pow_succ, show Binary.exp T + Binary.frac T = (fmt T).frac + (fmt T).exp from Nat.add_comm _ _] at this
      convert this.trans_eq (Nat.mul_comm _ _) using 3
      exact Nat.add_comm _ _
    have e : (if neg? z then (fmt T).signBit else 0) + pat z = Binary.bits z := by
      unfold neg? pat
      by_cases hz : (fmt T).signBit ≤ Binary.bits z
      · rw [decide_eq_true hz, if_pos rfl]
        have : Binary.bits z % (fmt T).signBit = Binary.bits z - (fmt T).signBit := by
          rw [Nat.mod_eq_sub_mod hz, Nat.mod_eq_of_lt (by omega)]
        omega
      · rw [decide_eq_false hz, Nat.mod_eq_of_lt (by omega)]
        simp
    rw [e, FloType.of_bits]
  rw [← hb x, ← hb y, hp, hn]

theorem inf_two (T : Type) [FloType T] [Lawful T] : 2 ≤ (fmt T).inf := by
  have h := Lawful.wide (T := T)
  have hP : 0 < 2 ^ (fmt T).frac := Nat.pow_pos (by norm_num)
  unfold Fmt.inf
  have h1 : 2 * 1 ≤ (2 ^ (fmt T).exp - 1) * 2 ^ (fmt T).frac := Nat.mul_le_mul (by omega) hP
  simpa using h1

/-- The floating point inputs. -/
theorem ranked_flo : Ranked (floInput T) (Finite (T := T)) value where
  null_num _ h := Finite.not_nan h
  lt_num _ _ hx hy := FloatArith.lt_iff hx hy
  lt_null x y h := by
    have h' : isNaN x = true := h
    constructor
    · show FloatArith.lt x y = false
      unfold FloatArith.lt
      rw [h']; simp
    · show FloatArith.lt y x = false
      unfold FloatArith.lt
      rw [h']; simp
  num_lowest := finite_lowest
  num_largest := finite_largest
  bounds _ h := ⟨lowest_le_value h, value_le_largest h⟩
  only_lowest x h he := by
    change value x = value (FloatArith.lowest : T) at he
    rw [value_key, value_key, fval_inj] at he
    have h2 := inf_two T
    exact eq_of_key he (by rw [he, key_lowest]; omega)
  only_largest x h he := by
    change value x = value (FloatArith.largest : T) at he
    rw [value_key, value_key, fval_inj] at he
    have h2 := inf_two T
    exact eq_of_key he (by rw [he, key_largest]; omega)
  limits := by
    show value (FloatArith.lowest : T) < value (FloatArith.largest : T)
    have h2 := inf_two T
    rw [value_key, value_key, fval_lt, key_lowest, key_largest]
    omega

end

/-! ### What scaling yields -/

/-- Numerators and span in order give a scaler to the unit interval. -/
theorem unitRange_of {k : FloInput V} {num : V → Prop} {val : V → ℚ} {values : List V} {lo hi : V}
    (hlo : Least val values lo) (hhi : Greatest val values hi) (hnum : ∀ v ∈ values, num v) (hnull : ∀ x, num x → k.null x = false)
    {t : MinMaxScaler V} (hz : k.isZero t.span = true ↔ val lo = val hi)
    (hfin : ∀ x, num x → Between val values x → val lo < val hi → Finite (FloatArith.sub (k.toD x) (k.toD t.min)))
    (hord : ∀ x y, num x → num y → Between val values x → Between val values y → val lo < val hi → val x ≤ val y →
      value (FloatArith.sub (k.toD x) (k.toD t.min)) ≤ value (FloatArith.sub (k.toD y) (k.toD t.min)))
    (hzero : ∀ x, num x → Between val values x → val x = val lo → value (FloatArith.sub (k.toD x) (k.toD t.min)) = 0)
    (hspan : val lo < val hi → Finite (k.toD t.span) ∧ 0 < value (k.toD t.span))
    (htop : ∀ x, num x → Between val values x → val lo < val hi → val x = val hi →
      value (FloatArith.sub (k.toD x) (k.toD t.min)) = value (k.toD t.span)) :
    UnitRange num val values (execMinMax k t) := by
  have hbl : Between val values lo := ⟨lo, hlo.1, lo, hlo.1, le_refl _, le_refl _⟩
  have hbh : Between val values hi := ⟨hi, hhi.1, hi, hhi.1, le_refl _, le_refl _⟩
  have hrange : ∀ x, Between val values x → val lo ≤ val x ∧ val x ≤ val hi := by
    rintro x ⟨a, ha, b, hb, h1, h2⟩
    exact ⟨le_trans (hlo.2 a ha) h1, le_trans h2 (hhi.2 b hb)⟩
  have hle : val lo ≤ val hi := hlo.2 _ hhi.1
  have heq : val lo = val hi → ∀ x, num x → execMinMax k t x = zero false := by
    intro h x hx
    unfold execMinMax
    rw [hnull x hx, hz.2 h]
    simp
  have hne : val lo < val hi → ∀ x, num x → execMinMax k t x =
      div (FloatArith.sub (k.toD x) (k.toD t.min)) (k.toD t.span) := by
    intro h x hx
    unfold execMinMax
    rw [hnull x hx, if_neg (by simp), if_neg (fun h0 => absurd (hz.1 h0) h.ne)]
  have hlow : ∀ x, num x → Between val values x → val lo < val hi → 0 ≤ value (FloatArith.sub (k.toD x) (k.toD t.min)) ∧
      value (FloatArith.sub (k.toD x) (k.toD t.min)) ≤ value (k.toD t.span) := by
    intro x hx hb h
    constructor
    · rw [← hzero lo (hnum _ hlo.1) hbl rfl]
      exact hord lo x (hnum _ hlo.1) hx hbl hb h (hrange x hb).1
    · rw [← htop hi (hnum _ hhi.1) hbh h rfl]
      exact hord x hi hx (hnum _ hhi.1) hb hbh h (hrange x hb).2
  constructor
  · intro x hx hb
    rcases hle.eq_or_lt with h | h
    · rw [heq h x hx, value_zero]
      exact ⟨finite_zero _, le_refl _, by norm_num⟩
    · rw [hne h x hx]
      exact div_unit (hfin x hx hb h) (hspan h).1 (hlow x hx hb h).1 (hlow x hx hb h).2 (hspan h).2
  · intro x y hx hy hbx hby hxy
    rcases hle.eq_or_lt with h | h
    · rw [heq h x hx, heq h y hy]
    · rw [hne h x hx, hne h y hy]
      exact div_ordered (hfin x hx hbx h) (hfin y hy hby h) (hspan h).1 (hord x y hx hy hbx hby h hxy) (hspan h).2
  · intro a ha
    have hna := hnum a ha.1
    have hba : Between val values a := ⟨a, ha.1, a, ha.1, le_refl _, le_refl _⟩
    rcases hle.eq_or_lt with h | h
    · rw [heq h a hna, value_zero]
    · rw [hne h a hna]
      exact div_zero_num (hfin a hna hba h) (hspan h).1 (hzero a hna hba (le_antisymm (ha.2 _ hlo.1) (hlo.2 _ ha.1))) (hspan h).2
  · intro a b ha hb hab
    have hea : val a = val lo := le_antisymm (ha.2 _ hlo.1) (hlo.2 _ ha.1)
    have heb : val b = val hi := le_antisymm (hhi.2 _ hb.1) (hb.2 _ hhi.1)
    have h : val lo < val hi := by rw [← hea, ← heb]; exact hab
    have hnb := hnum b hb.1
    have hbb : Between val values b := ⟨b, hb.1, b, hb.1, le_refl _, le_refl _⟩
    rw [hne h b hnb]
    exact div_self_one (hfin b hnb hbb h) (hspan h).1 (htop b hnb hbb h heb) (hspan h).2

/-- The error of a difference, relative to it. -/
theorem sub_error {T : Type} [FloType T] [Lawful T] {x y : T} (hx : Finite x) (hy : Finite y) (h : |value x - value y| < tooLarge T) :
    |value (FloatArith.sub x y) - (value x - value y)| ≤ |value x - value y| / 2 ^ (Binary.frac T + 1) := by
  have e : value x - value y = ((signedUnits x - signedUnits y : Int) : ℚ) / 2 ^ (fmt T).scale := by
    rw [value_units, value_units]
    push_cast
    ring
  have hk := key_sub hx hy
  have hf := rnd_finite h
  rw [value_key (FloatArith.sub x y), hk]
  rw [e] at hf ⊢
  exact rnd_error_int Lawful.good hf

/-- The error of a quotient, below 1. -/
theorem div_error {x y : F64} (hx : Finite x) (hy : Finite y) (h0 : value y ≠ 0) (hq : |value x / value y| < tooLarge F64) :
    |value (div x y) - value x / value y| ≤ 1 / 2 ^ 1075 ∨ |value (div x y) - value x / value y| ≤ |value x / value y| / 2 ^ 53 := by
  have hk := key_div hx hy h0
  have hf := rnd_finite hq
  rw [value_key (div x y), hk]
  rcases rnd_error Lawful.good hf with h | h
  · left
    refine le_trans h (le_of_eq ?_)
    rw [show (fmt F64).scale = 1074 from by decide +kernel, div_div, ← pow_succ']
  · right; exact h

/-- Quotients of perturbed numbers: `n` and `s` are within relative errors `δ` and `ε` of `p` and `r`, with `0 ≤ p ≤ r`. -/
theorem quotient_error {K : Type} [Field K] [LinearOrder K] [IsStrictOrderedRing K] {n s p r δ ε : K} (hp : 0 ≤ p) (hpr : p ≤ r) (hr : 0 < r) (hδ : 0 ≤ δ) (hε : 0 ≤ ε) (hε1 : ε < 1)
    (hn : |n - p| ≤ p * δ) (hs : |s - r| ≤ r * ε) : 0 < s ∧ |n / s - p / r| ≤ (δ + ε) / (1 - ε) := by
  rw [abs_le] at hn hs
  have h1 : r * (1 - ε) ≤ s := by linarith [hs.1]
  have hspos : 0 < s := lt_of_lt_of_le (mul_pos hr (by linarith)) h1
  refine ⟨hspos, ?_⟩
  have e : n / s - p / r = ((n - p) * r - p * (s - r)) / (s * r) := by
    field_simp
    ring
  rw [e, abs_div, abs_of_pos (mul_pos hspos hr), div_le_div_iff₀ (mul_pos hspos hr) (by linarith)]
  have h2 : |(n - p) * r - p * (s - r)| ≤ p * r * (δ + ε) := by
    have ha : |(n - p) * r| ≤ p * δ * r := by
      rw [abs_mul, abs_of_pos hr]
      exact mul_le_mul_of_nonneg_right (abs_le.2 hn) hr.le
    have hb : |p * (s - r)| ≤ p * (r * ε) := by
      rw [abs_mul, abs_of_nonneg hp]
      exact mul_le_mul_of_nonneg_left (abs_le.2 hs) hp
    have := abs_sub ((n - p) * r) (p * (s - r))
    linarith
  have h3 : p * r * (δ + ε) ≤ (δ + ε) * (r * r) := by
    have : p * (r * (δ + ε)) ≤ r * (r * (δ + ε)) := mul_le_mul_of_nonneg_right hpr (by positivity)
    nlinarith
  have h4 : (δ + ε) * (r * r) * (1 - ε) ≤ (δ + ε) * (s * r) := by
    have : r * (1 - ε) * r ≤ s * r := mul_le_mul_of_nonneg_right h1 hr.le
    have := mul_le_mul_of_nonneg_left this (add_nonneg hδ hε)
    linarith
  have h5 : |(n - p) * r - p * (s - r)| * (1 - ε) ≤ (δ + ε) * (r * r) * (1 - ε) :=
    mul_le_mul_of_nonneg_right (le_trans h2 h3) (by linarith)
  linarith

theorem tooLarge_two : (2 : ℚ) < tooLarge F64 := by
  have : (rnd (fmt F64) (2 : Int)).natAbs < (fmt F64).inf := by
    rw [← key_ofInt (T := F64), ← finite_key]
    exact (ofInt_exact (by decide +kernel)).1
  rw [rnd_finite_iff] at this
  simpa using this

theorem tooLarge_lt : tooLarge F32 < tooLarge F64 := by
  unfold tooLarge
  rw [show Binary.frac F32 = 23 from rfl, show Binary.frac F64 = 52 from rfl, show bias F32 = 127 from rfl, show bias F64 = 1023 from rfl]
  norm_num
  have h : (2 : ℚ) ^ 128 ≤ 2 ^ 970 := pow_le_pow_right₀ (by norm_num) (by norm_num)
  have h2 : (340282356779733661637539395458142568448 : ℚ) < 2 ^ 128 := by norm_num
  generalize (2 : ℚ) ^ 970 = p at h
  generalize (2 : ℚ) ^ 128 = q at h h2
  linarith

/-- `double`: training and scaling. -/
theorem double_scaler {lo hi : F64} (hflo : Finite lo) (hfhi : Finite hi) (hle : value lo ≤ value hi)
    (hs : value hi - value lo < tooLarge F64) :
    newMinMax (floInput F64) lo hi = .ok ⟨lo, FloatArith.sub hi lo⟩ ∧ Finite (FloatArith.sub hi lo) := by
  constructor
  · unfold newMinMax
    rw [if_neg]
    · rfl
    · show ¬FloatArith.lt hi lo = true
      rw [FloatArith.lt_iff hfhi hflo]; linarith
  · exact sub_finite hfhi hflo (by rw [abs_of_nonneg (by linarith)]; exact hs)

/-- The integer inputs. -/
theorem ranked_int {T : Type} [CInt T] (hT : CInt.lo T < CInt.hi T) :
    Ranked (intInput T) (fun _ => True) (fun x => (CInt.toInt x : ℚ)) where
  null_num _ _ := rfl
  lt_num x y _ _ := by
    show decide (CInt.toInt x < CInt.toInt y) = true ↔ _
    rw [decide_eq_true_iff, Int.cast_lt]
  lt_null _ _ h := by cases h
  num_lowest := trivial
  num_largest := trivial
  bounds x _ := by
    show ((CInt.toInt (CInt.ofInt (CInt.lo T) : T) : Int) : ℚ) ≤ _ ∧ _ ≤ ((CInt.toInt (CInt.ofInt (CInt.hi T) : T) : Int) : ℚ)
    rw [CInt.toInt_ofInt _ (le_refl _) hT.le, CInt.toInt_ofInt _ hT.le (le_refl _), Int.cast_le, Int.cast_le]
    exact CInt.range x
  only_lowest x _ h := by
    have h := Int.cast_injective h
    rw [← CInt.ofInt_toInt x, h]
    exact CInt.ofInt_toInt _
  only_largest x _ h := by
    have h := Int.cast_injective h
    rw [← CInt.ofInt_toInt x, h]
    exact CInt.ofInt_toInt _
  limits := by
    show ((CInt.toInt (CInt.ofInt (CInt.lo T) : T) : Int) : ℚ) < ((CInt.toInt (CInt.ofInt (CInt.hi T) : T) : Int) : ℚ)
    rw [CInt.toInt_ofInt _ (le_refl _) hT.le, CInt.toInt_ofInt _ hT.le (le_refl _), Int.cast_lt]
    exact hT

/-- A difference of integers up to 2^53 is exact. -/
theorem sub_ofInt {x y : Int} (hx : x.natAbs ≤ 2 ^ 53) (hy : y.natAbs ≤ 2 ^ 53) (h : (x - y).natAbs ≤ 2 ^ 53) :
    Finite (FloatArith.sub (ofInt x : F64) (ofInt y)) ∧ value (FloatArith.sub (ofInt x : F64) (ofInt y)) = (x : ℚ) - y := by
  have e : 2 * 2 ^ (fmt F64).frac = 2 ^ 53 := rfl
  have h1 := ofInt_exact (T := F64) (z := x) (by rw [e]; exact hx)
  have h2 := ofInt_exact (T := F64) (z := y) (by rw [e]; exact hy)
  have h3 := ofInt_exact (T := F64) (z := x - y) (by rw [e]; exact h)
  have hk := key_sub h1.1 h2.1
  rw [h1.2, h2.2, ← Int.cast_sub, ← key_ofInt (T := F64)] at hk
  rw [finite_key, value_key, hk, ← finite_key, ← value_key, h3.2, Int.cast_sub]
  exact ⟨h3.1, rfl⟩

theorem toD_double {x : F64} (hx : Finite x) : key ((floInput F64).toD x) = key x := by
  show key (FloatArith.cast x : F64) = key x
  rw [key_cast hx, rnd_value hx]

theorem toD_double_finite {x : F64} (hx : Finite x) : Finite ((floInput F64).toD x) ∧ value ((floInput F64).toD x) = value x :=
  cast_self hx

end Feat.FloatScalers
