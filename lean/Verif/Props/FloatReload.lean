import Verif.Proofs.FloatReload
import Verif.Props.FloatMinMax
import Verif.Props.FloatWindows
import Verif.Proofs.FloatInf
/-
C97 min-max scalers of floating point columns, saved and loaded.
-/
namespace Feat.FloatScalers
open FloatText FloatArith FloatWindows

/-- Rounding a moderate number to `double`. -/
theorem rnd_moderate {y : F64} {q : ℚ} (hk : key y = rnd (fmt F64) q) (h0 : 0 ≤ q) (h2 : q ≤ 101 / 100) :
    Finite y ∧ |value y - q| ≤ 101 / 100 * (1 / 2 ^ 53) := by
  have hlt : |q| < tooLarge F64 := by
    rw [abs_of_nonneg h0]
    refine lt_of_le_of_lt h2 ?_
    have h := (rnd_finite_iff (T := F64) (q := ((2 : Int) : ℚ))).1 (by
      rw [← key_ofInt]; exact (finite_key _).1 (ofInt_exact (T := F64) (z := 2) (by decide +kernel)).1)
    rw [abs_of_nonneg (by norm_num)] at h
    exact lt_trans (by norm_num) h
  have hf := rnd_finite hlt
  refine ⟨by rw [finite_key, hk]; exact hf, ?_⟩
  rw [value_key, hk]
  rcases rnd_error Lawful.good hf with h | h
  · refine h.trans ?_
    have : (1 : ℚ) / 2 ^ (fmt F64).scale ≤ 1 / 2 ^ 53 :=
      one_div_le_one_div_of_le (by positivity) (pow_le_pow_right₀ (by norm_num) (by decide +kernel))
    rw [show (1 : ℚ) / 2 / 2 ^ (fmt F64).scale = 1 / 2 * (1 / 2 ^ (fmt F64).scale) by ring]
    have p : (0 : ℚ) < 1 / 2 ^ 53 := by positivity
    linarith
  · refine h.trans ?_
    rw [abs_of_nonneg h0, show (fmt F64).frac + 1 = 53 from rfl]
    have p : (0 : ℚ) < 1 / 2 ^ 53 := by positivity
    rw [show q / 2 ^ 53 = q * (1 / 2 ^ 53) by ring]
    exact mul_le_mul_of_nonneg_right h2 p.le

/-- Two quotients of the same numerator whose denominators are close. -/
theorem quotients {n s s' D u : ℚ} (hu : u ≤ 1 / 1024) (hu0 : 0 < u) (hn0 : 0 ≤ n) (hn : n ≤ D + D * u) (hs0 : 0 < s)
    (hs : D ≤ s + D * u) (hs' : |s' - s| ≤ 4 * u * s) :
    0 < s' ∧ n / s ≤ 101 / 100 ∧ n / s' ≤ 101 / 100 ∧ |n / s' - n / s| ≤ 9 / 2 * u := by
  have h1 := abs_le.1 hs'
  have hus : u * s ≤ 1 / 1024 * s := mul_le_mul_of_nonneg_right hu hs0.le
  have p : 0 < s' := by linarith only [h1.1, hus, hs0]
  have hD0 : 0 ≤ D := by
    by_contra hc
    have : D + D * u < 0 := by
      have : D * u ≤ 0 := mul_nonpos_of_nonpos_of_nonneg (not_le.1 hc).le hu0.le
      linarith only [this, not_le.1 hc]
    linarith only [this, hn, hn0]
  have hDu : D * u ≤ D * (1 / 1024) := mul_le_mul_of_nonneg_left hu hD0
  have hDs : D ≤ 513 / 512 * s := by linarith only [hs, hDu, hs0]
  have hns : n ≤ 1003 / 1000 * s := by linarith only [hn, hDu, hDs, hs0]
  have hss : s ≤ 1005 / 1000 * s' := by linarith only [h1.1, hus, hs0]
  refine ⟨p, ?_, ?_, ?_⟩
  · rw [div_le_iff₀ hs0]; linarith only [hns, hs0]
  · rw [div_le_iff₀ p]; linarith only [hns, hss, p]
  · have e : n / s' - n / s = n * (s - s') / (s' * s) := by field_simp
    rw [e, abs_div, abs_mul, abs_of_nonneg hn0, abs_of_pos (mul_pos p hs0), div_le_iff₀ (mul_pos p hs0), abs_sub_comm]
    have w1 : n * |s' - s| ≤ (1003 / 1000 * s) * (4 * u * s) := mul_le_mul hns hs' (abs_nonneg _) (by linarith only [hs0])
    have w2 : s * (u * s) ≤ 1005 / 1000 * s' * (u * s) := mul_le_mul_of_nonneg_right hss (by positivity)
    have w3 : 0 ≤ s' * (u * s) := by positivity
    linarith only [w1, w2, w3, show 1003 / 1000 * s * (4 * u * s) = 4012 / 1000 * (s * (u * s)) by ring,
      show 9 / 2 * u * (s' * s) = 9 / 2 * (s' * (u * s)) by ring, show 1005 / 1000 * s' * (u * s) = 1005 / 1000 * (s' * (u * s)) by ring]

variable {T : Type} [FloType T] [Lawful T] [ToDouble T]

/-- The scaled value of a number between the minimum and the maximum, for a span that differs a little. -/
theorem exec_close (hT : 10 ≤ Binary.frac T) {lo hi x s s' : T} (hlo : Finite lo) (hx : Finite x) (hs : Finite s)
    (hs' : Finite s') (h1 : value lo ≤ value x) (h2 : value x ≤ value hi) (hbig : value hi - value lo < tooLarge T)
    (he : |value s - (value hi - value lo)| ≤ (value hi - value lo) / 2 ^ (Binary.frac T + 1))
    (hc : |value s' - value s| ≤ 4 / 2 ^ (Binary.frac T + 1) * value s) :
    FloatText.Finite (execMinMax (floInput T) ⟨lo, s⟩ x) ∧ FloatText.Finite (execMinMax (floInput T) ⟨lo, s'⟩ x) ∧
      |value (execMinMax (floInput T) ⟨lo, s'⟩ x) - value (execMinMax (floInput T) ⟨lo, s⟩ x)| ≤ 8 / 2 ^ (Binary.frac T + 1) := by
  have hu : (1 : ℚ) / 2 ^ (Binary.frac T + 1) ≤ 1 / 1024 := by
    refine one_div_le_one_div_of_le (by norm_num) ?_
    rw [show (1024 : ℚ) = 2 ^ 10 by norm_num]
    exact pow_le_pow_right₀ (by norm_num) (by omega)
  have hv : (1 : ℚ) / 2 ^ 53 ≤ 1 / 2 ^ (Binary.frac T + 1) :=
    one_div_le_one_div_of_le (by positivity) (pow_le_pow_right₀ (by norm_num) (by have := ToDouble.frac (T := T); exact Nat.succ_le_succ this))
  have hu0 : (0 : ℚ) < 1 / 2 ^ (Binary.frac T + 1) := by positivity
  generalize hu' : (1 : ℚ) / 2 ^ (Binary.frac T + 1) = u at hu hu0 hv
  rw [show (4 : ℚ) / 2 ^ (Binary.frac T + 1) = 4 * u by rw [← hu']; ring] at hc
  rw [show (8 : ℚ) / 2 ^ (Binary.frac T + 1) = 8 * u by rw [← hu']; ring]
  rw [show (value hi - value lo) / 2 ^ (Binary.frac T + 1) = (value hi - value lo) * u by rw [← hu']; ring] at he
  have hnull : (floInput T).null x = false := FloatArith.Finite.not_nan hx
  have hz : ∀ y : T, Finite y → ((floInput T).isZero y = true ↔ value y = 0) := by
    intro y fy
    show eq y (zero false) = true ↔ _
    rw [eq_iff fy (finite_zero _), value_zero]
  have hs0 : 0 ≤ value s := by
    have w := abs_le.1 he
    have : (value hi - value lo) * u ≤ (value hi - value lo) * (1 / 1024) := mul_le_mul_of_nonneg_left hu (by linarith)
    linarith only [w.1, this, h1, h2]
  by_cases h0 : value s = 0
  · have h0' : value s' = 0 := by
      rw [h0, mul_zero, _root_.sub_zero] at hc
      exact abs_eq_zero.1 (le_antisymm hc (abs_nonneg _))
    have e1 : execMinMax (floInput T) ⟨lo, s⟩ x = zero false := by
      unfold execMinMax
      rw [if_neg (by rw [hnull]; simp), if_pos ((hz s hs).2 h0)]
    have e2 : execMinMax (floInput T) ⟨lo, s'⟩ x = zero false := by
      unfold execMinMax
      rw [if_neg (by rw [hnull]; simp), if_pos ((hz s' hs').2 h0')]
    rw [e1, e2]
    refine ⟨finite_zero _, finite_zero _, ?_⟩
    rw [sub_self, abs_zero]
    linarith
  · have sp : 0 < value s := lt_of_le_of_ne hs0 (Ne.symm h0)
    obtain ⟨fcx, vcx⟩ := ToDouble.cast x hx
    obtain ⟨fcl, vcl⟩ := ToDouble.cast lo hlo
    obtain ⟨fcs, vcs⟩ := ToDouble.cast s hs
    obtain ⟨fcs', vcs'⟩ := ToDouble.cast s' hs'
    have hb64 : |value (FloatArith.cast x : F64) - value (FloatArith.cast lo : F64)| < tooLarge F64 := by
      rw [vcx, vcl, abs_of_nonneg (by linarith)]
      exact lt_of_lt_of_le (lt_of_le_of_lt (by linarith) hbig) ToDouble.small
    have fn : Finite (FloatArith.sub (FloatArith.cast x) (FloatArith.cast lo) : F64) := by
      rw [finite_key, key_sub fcx fcl]; exact rnd_finite hb64
    have en := sub_error fcx fcl hb64
    have n0 : 0 ≤ value (FloatArith.sub (FloatArith.cast x) (FloatArith.cast lo) : F64) := by
      rw [value_key, key_sub fcx fcl]
      exact fval_nonneg (rnd_nonneg (by rw [vcx, vcl]; linarith))
    rw [vcx, vcl, abs_of_nonneg (show 0 ≤ value x - value lo by linarith), show Binary.frac F64 + 1 = 53 from rfl] at en
    have hn : value (FloatArith.sub (FloatArith.cast x) (FloatArith.cast lo) : F64) ≤
        (value hi - value lo) + (value hi - value lo) * u := by
      have w := (abs_le.1 en).2
      have : (value x - value lo) / 2 ^ 53 ≤ (value hi - value lo) * u := by
        rw [show (value x - value lo) / 2 ^ 53 = (value x - value lo) * (1 / 2 ^ 53) by ring]
        exact mul_le_mul (by linarith) hv (by positivity) (by linarith)
      linarith only [w, this, h2]
    obtain ⟨p, q1, q2, q3⟩ := quotients hu hu0 n0 hn sp (by have := (abs_le.1 he).1; linarith only [this]) hc
    have e : ∀ y : T, Finite y → value y ≠ 0 → execMinMax (floInput T) ⟨lo, y⟩ x =
        div (FloatArith.sub (FloatArith.cast x) (FloatArith.cast lo) : F64) (FloatArith.cast y) := by
      intro y fy hy
      unfold execMinMax
      rw [if_neg (by rw [hnull]; simp), if_neg (by rw [hz y fy]; exact hy)]
      rfl
    rw [e s hs sp.ne', e s' hs' p.ne']
    have k1 := key_div fn fcs (by rw [vcs]; exact sp.ne')
    have k2 := key_div fn fcs' (by rw [vcs']; exact p.ne')
    rw [vcs] at k1
    rw [vcs'] at k2
    obtain ⟨f1, g1⟩ := rnd_moderate k1 (div_nonneg n0 sp.le) q1
    obtain ⟨f2, g2⟩ := rnd_moderate k2 (div_nonneg n0 p.le) q2
    refine ⟨f1, f2, ?_⟩
    have w1 := abs_le.1 g1
    have w2 := abs_le.1 g2
    have w3 := abs_le.1 q3
    rw [abs_le]
    constructor
    · linarith only [w1.1, w1.2, w2.1, w2.2, w3.1, w3.2, hv, hu0]
    · linarith only [w1.1, w1.2, w2.1, w2.2, w3.1, w3.2, hv, hu0]

/-- A scaler made from a minimum and a maximum, saved and loaded. -/
theorem reload_close (hT : 10 ≤ Binary.frac T) {lo hi : T} (hlo : Finite lo) (hhi : Finite hi) (h : value lo ≤ value hi)
    (hs : 2 * (value hi - value lo) < tooLarge T) (h2 : 2 * value hi < tooLarge T) :
    ∃ t t', newMinMax (floInput T) lo hi = .ok t ∧ reloadMinMax T t = .ok t' ∧
      (∀ x : T, FloatText.Finite x → value lo ≤ value x → value x ≤ value hi →
        FloatText.Finite (execMinMax (floInput T) t x) ∧ FloatText.Finite (execMinMax (floInput T) t' x) ∧
        |value (execMinMax (floInput T) t' x) - value (execMinMax (floInput T) t x)| ≤ 8 / 2 ^ (Binary.frac T + 1)) ∧
      ∀ x : T, IsNaN x → IsNaN (execMinMax (floInput T) t' x) := by
  obtain ⟨f1, f2, l1, f3, e1, e2⟩ := reload_span hT hlo hhi h hs h2
  have n1 : FloatArith.lt hi lo = false := by
    rw [← Bool.not_eq_true, lt_iff hhi hlo]; linarith
  have n2 : FloatArith.lt (add lo (FloatArith.sub hi lo)) lo = false := by
    rw [← Bool.not_eq_true, lt_iff f2 hlo]; linarith
  refine ⟨_, _, newMinMax_flo n1 rfl, newMinMax_flo n2 rfl, ?_, ?_⟩
  · intro x hx a1 a2
    exact exec_close hT hlo hx f1 f3 a1 a2 (by linarith) e1 e2
  · intro x hx
    unfold execMinMax
    rw [if_pos (show (floInput T).null x = true from (isNaN_iff x).2 hx)]
    rw [← isNaN_iff]
    decide +kernel

/-- **C97** for columns of finite numbers and NaN whose greatest value and spread are less than half of what overflows: loading
the saved scaler succeeds, and the loaded scaler gives results at most 8 rounding units away from those of the saved one for
everything between the least and the greatest value of training (2^-50 for `double`, 2^-21 for `float`). -/
theorem C97_reload_partial (hT : 10 ≤ Binary.frac T) (col cap : Nat) (hcap : 0 < cap) (batches : List (List T))
    (hne : batches ≠ []) (hb : NoEmptyBatch batches) (maps : AnnotationMaps (NumAnnot T F64)) (hcol : col < maps.length)
    (hnone : getAnnotation NumAnnot.isMinMax maps col "MinMaxEstimator" = .ok none)
    (values : List T) (hvalues : values = (batches.flatten.take cap).filter (fun x => !isNaN x)) (hvne : values ≠ [])
    (hx : ∀ v ∈ values, FloatText.Finite v)
    (hspread : ∀ a b, Least value values a → Greatest value values b →
      2 * (value b - value a) < tooLarge T ∧ 2 * value b < tooLarge T) :
    ∃ t t', (∀ X : Xf (MinMaxScaler T) T T,
        FeaturizerYields X (fun _ => minMaxComponent (floInput T) col cap) 1 (makeMinMax (floInput T) col) batches maps (.ok t)) ∧
      reloadMinMax T t = .ok t' ∧
      (∀ x : T, FloatText.Finite x → (∃ a ∈ values, value a ≤ value x) → (∃ b ∈ values, value x ≤ value b) →
        FloatText.Finite (execMinMax (floInput T) t x) ∧ FloatText.Finite (execMinMax (floInput T) t' x) ∧
        |value (execMinMax (floInput T) t' x) - value (execMinMax (floInput T) t x)| ≤ 8 / 2 ^ (Binary.frac T + 1)) ∧
      ∀ x : T, IsNaN x → IsNaN (execMinMax (floInput T) t' x) := by
  subst hvalues
  have hseen : ∀ x ∈ batches.flatten.take cap, FloatText.Finite x ∨ (floInput T).null x = true := by
    intro x hm
    cases h : isNaN x
    · exact .inl (hx x (by simp [List.mem_filter, hm, h]))
    · exact .inr h
  obtain ⟨lo, hi, hlo, hhi, hy⟩ := (minMax_trained (ranked_flo (T := T)) col cap hcap batches hne hb maps hcol hnone hseen).2 hvne
  obtain ⟨s1, s2⟩ := hspread lo hi hlo hhi
  obtain ⟨t, t', h1, h2, h3, h4⟩ := reload_close hT (hx _ hlo.1) (hx _ hhi.1) (hlo.2 _ hhi.1) s1 s2
  rw [h1] at hy
  refine ⟨t, t', hy, h2, ?_, h4⟩
  rintro x fx ⟨a, ha, ha'⟩ ⟨b, hb', hb''⟩
  exact h3 x fx ((hlo.2 a ha).trans ha') (hb''.trans (hhi.2 b hb'))

/-- A spread that overflows is saved and loaded as it is. -/
theorem C97_infinite {lo hi : T} (hlo : FloatText.Finite lo) (hhi : FloatText.Finite hi) (h : value lo ≤ value hi)
    (hs : tooLarge T ≤ value hi - value lo) :
    ∃ t, newMinMax (floInput T) lo hi = .ok t ∧ reloadMinMax T t = .ok t := by
  have hd0 : 0 ≤ value hi - value lo := by linarith
  have hi1 : isInf (FloatArith.sub hi lo) = true := by
    by_contra hc
    rw [Bool.not_eq_true, isInf_false, key_sub hhi hlo] at hc
    have h1 := rnd_bound (F := fmt T) (value hi - value lo)
    have h3 := (rnd_finite_iff (T := T) (q := value hi - value lo)).1 (by omega)
    rw [abs_of_nonneg hd0] at h3
    linarith
  have hn1 : isNaN (FloatArith.sub hi lo) = false := FloatArith.isNaN_of_inf hi1
  have e : ∀ y : T, FloatText.Finite y → add y (FloatArith.sub hi lo) = FloatArith.sub hi lo ∧
      FloatArith.sub (FloatArith.sub hi lo) y = FloatArith.sub hi lo := by
    intro y fy
    have g : ∀ (s z : T), FloatText.Finite z → isInf s = true → isNaN s = false → add z s = s ∧ add s z = s := by
      intro s z fz h1 h2
      have a1 := FloatArith.Finite.not_nan fz
      have a2 := FloatArith.Finite.not_inf fz
      unfold add
      simp [a1, a2, h1, h2]
    exact ⟨(g _ _ fy hi1 hn1).1, (g _ _ (finite_negate.2 fy) hi1 hn1).2⟩
  have n1 : FloatArith.lt hi lo = false := by
    rw [← Bool.not_eq_true, lt_iff hhi hlo]; linarith
  have n2 : FloatArith.lt (add lo (FloatArith.sub hi lo)) lo = false := by
    rw [(e lo hlo).1, ← Bool.not_eq_true]
    intro hc
    have h1 := (lt_def.1 hc).2.2
    have h2 : 0 ≤ key (FloatArith.sub hi lo) := by rw [key_sub hhi hlo]; exact rnd_nonneg hd0
    have h3 : (key (FloatArith.sub hi lo)).natAbs = (fmt T).inf := by
      by_contra hc
      rw [← ne_eq, ← isInf_false, hi1] at hc
      cases hc
    have h4 := (finite_key lo).1 hlo
    omega
  refine ⟨⟨lo, FloatArith.sub hi lo⟩, newMinMax_flo n1 rfl, ?_⟩
  exact newMinMax_flo n2 (by rw [(e lo hlo).1, (e lo hlo).2])

/-- Near the greatest double the saved maximum can overflow: trained on 3·2^970 and the greatest double, the greatest value
becomes 1 before, and 0 after saving and loading. -/
theorem C97_largest_refuted : ∃ (a b : F64) (t t' : MinMaxScaler F64), FloatText.Finite a ∧ FloatText.Finite b ∧
    (∀ X : Xf (MinMaxScaler F64) F64 F64,
      FeaturizerYields X (fun _ => minMaxComponent (floInput F64) 0 9) 1 (makeMinMax (floInput F64) 0) [[a, b]] [[]] (.ok t)) ∧
    reloadMinMax F64 t = .ok t' ∧ value (execMinMax (floInput F64) t b) = 1 ∧ value (execMinMax (floInput F64) t' b) = 0 := by
  have fa : FloatText.Finite (⟨8982429456790454272⟩ : F64) := by unfold FloatText.Finite exponent; decide +kernel
  refine ⟨⟨8982429456790454272⟩, largest, ⟨⟨8982429456790454272⟩, FloatArith.sub largest ⟨8982429456790454272⟩⟩,
    ⟨⟨8982429456790454272⟩, infinity false⟩, fa, finite_largest, ?_, ?_, ?_, ?_⟩
  · intro X
    have h := trained_pair (ranked_flo (T := F64)) fa finite_largest (by decide +kernel) X
    rwa [show newMinMax (floInput F64) ⟨8982429456790454272⟩ largest = .ok _ from
      newMinMax_flo (by decide +kernel) rfl] at h
  · exact newMinMax_flo (by decide +kernel) (by decide +kernel)
  · have e : execMinMax (floInput F64) ⟨⟨8982429456790454272⟩, FloatArith.sub largest ⟨8982429456790454272⟩⟩ largest = ofInt 1 := by
      decide +kernel
    rw [e, value_one.2]
  · have e : execMinMax (floInput F64) ⟨⟨8982429456790454272⟩, infinity false⟩ largest = zero false := by decide +kernel
    rw [e, value_zero]

/-- The column 1, NaN, 2^53 + 2 of C68_reload_refuted: the loaded scaler is another one, but close. -/
example : ∃ t t' : MinMaxScaler F64, reloadMinMax F64 t = .ok t' ∧
    |value (execMinMax (floInput F64) t' (ofInt 1)) - value (execMinMax (floInput F64) t (ofInt 1))| ≤ 8 / 2 ^ 53 := by
  have ha := ofInt_exact (T := F64) (z := 1) (by decide +kernel)
  have fb : FloatText.Finite (ofInt 9007199254740994 : F64) := by unfold FloatText.Finite exponent; decide +kernel
  have hk : key (ofInt 9007199254740994 : F64) = rnd (fmt F64) ((9007199254740994 : Int) : ℚ) := key_ofInt _
  have hlt : ∀ z : Int, z.natAbs ≤ 2 ^ 56 → |(z : ℚ)| < tooLarge F64 := by
    intro z hz
    have h := (rnd_finite_iff (T := F64) (q := ((2 ^ 56 : Int) : ℚ))).1 (by rw [← key_ofInt]; decide +kernel)
    refine lt_of_le_of_lt ?_ h
    rw [← Int.cast_abs, ← Int.cast_abs]
    have : |z| ≤ |(2 ^ 56 : Int)| := by rw [Int.abs_eq_natAbs, Int.abs_eq_natAbs]; omega
    exact_mod_cast this
  have vb : |value (ofInt 9007199254740994 : F64)| ≤ 2 ^ 53 + 4 := by
    have e := rnd_error (F := fmt F64) Lawful.good (q := ((9007199254740994 : Int) : ℚ)) (by rw [← hk]; exact (finite_key _).1 fb)
    rw [← hk, ← value_key] at e
    have e' : |value (ofInt 9007199254740994 : F64) - ((9007199254740994 : Int) : ℚ)| ≤ 2 := by
      rcases e with e | e
      · refine e.trans ?_
        rw [div_div, div_le_iff₀ (by positivity)]
        have : (1 : ℚ) ≤ 2 ^ (fmt F64).scale := one_le_pow₀ (by norm_num)
        linarith
      · refine e.trans ?_
        rw [show (fmt F64).frac + 1 = 53 from rfl]
        norm_num
    have := abs_le.1 e'
    rw [abs_le]
    push_cast at this
    constructor <;> linarith
  obtain ⟨t, t', _, h2, h3, _⟩ := C97_reload_partial (T := F64) (by decide) 0 9 (by decide) [[ofInt 1, nan], [ofInt 9007199254740994]]
    (by simp) (by intro b hb; simp at hb; rcases hb with rfl | rfl <;> simp) [[]] (by simp) rfl
    [ofInt 1, ofInt 9007199254740994] (by decide +kernel) (by simp)
    (by intro v hv; simp at hv; rcases hv with rfl | rfl; exact ha.1; exact fb)
    (by
      intro a b ha' hb'
      have h1 : a = ofInt 1 ∨ a = ofInt 9007199254740994 := by simpa using ha'.1
      have h2 : b = ofInt 1 ∨ b = ofInt 9007199254740994 := by simpa using hb'.1
      have q : ∀ c : F64, c = ofInt 1 ∨ c = ofInt 9007199254740994 → |value c| ≤ 2 ^ 53 + 4 := by
        rintro c (rfl | rfl)
        · rw [ha.2]; norm_num
        · exact vb
      have q1 := abs_le.1 (q a h1)
      have q2 := abs_le.1 (q b h2)
      have l := hlt (2 ^ 56) (by decide)
      rw [abs_of_nonneg (by positivity)] at l
      push_cast at l
      constructor <;> linarith)
  exact ⟨t, t', h2, (h3 _ ha.1 ⟨_, by simp, le_refl _⟩ ⟨_, by simp, le_refl _⟩).2.2⟩

/-- The lowest and the largest `float` are more than the largest `float` apart. -/
example : tooLarge F32 ≤ value (largest : F32) - value (lowest : F32) := by
  have hl : FloatArith.lt (lowest : F32) largest = true := by decide +kernel
  have hlt := (lt_iff finite_lowest finite_largest).1 hl
  have h := rnd_finite_iff (T := F32) (q := value (largest : F32) - value (lowest : F32))
  rw [← key_sub finite_largest finite_lowest, abs_of_nonneg (by linarith)] at h
  exact not_lt.1 (fun hh => absurd (h.2 hh) (by decide +kernel))

end Feat.FloatScalers
