import Verif.Proofs.FloatDeviation
/-
The standard deviation in floating point arithmetic: its error.
-/
namespace Feat.FloatStats
open FloatText FloatArith FloatNorms FloatScalers

/-- The square root of a perturbed number. -/
theorem sqrt_perturbed {b R ε : ℝ} (hR : 0 < R) (hb : 0 ≤ b) (h : |b - R| ≤ R * ε) :
    |Real.sqrt b - Real.sqrt R| ≤ Real.sqrt R * ε := by
  have hr := Real.sqrt_pos.2 hR
  have hb' := Real.sqrt_nonneg b
  have e1 := Real.mul_self_sqrt hR.le
  have e2 := Real.mul_self_sqrt hb
  generalize Real.sqrt R = r at *
  generalize Real.sqrt b = c at *
  have h1 : |c - r| * (c + r) = |b - R| := by
    rw [← e1, ← e2, show c * c - r * r = (c - r) * (c + r) by ring, abs_mul, abs_of_pos (by linarith : 0 < c + r)]
  have h2 : |c - r| * r ≤ |c - r| * (c + r) := mul_le_mul_of_nonneg_left (by linarith) (abs_nonneg _)
  have h3 : |c - r| * r ≤ r * ε * r := by
    rw [show r * ε * r = r * r * ε by ring, e1]
    linarith
  exact le_of_mul_le_mul_right h3 hr

/-- The quotient of perturbed numbers. -/
theorem div_perturbed {x y p q α β : ℝ} (hp : 0 < p) (hq : 0 < q) (hα : 0 ≤ α) (hβ : 0 ≤ β) (hβ1 : β < 1)
    (hx : |x - p| ≤ p * α) (hy : |y - q| ≤ q * β) : 0 < y ∧ |x / y - p / q| ≤ p / q * ((α + β) / (1 - β)) := by
  have h1 : |x / p - 1| ≤ 1 * α := by
    rw [show x / p - 1 = (x - p) / p by field_simp, abs_div, abs_of_pos hp, div_le_iff₀ hp]
    linarith
  have h2 : |y / q - 1| ≤ 1 * β := by
    rw [show y / q - 1 = (y - q) / q by field_simp, abs_div, abs_of_pos hq, div_le_iff₀ hq]
    linarith
  obtain ⟨h3, h4⟩ := quotient_error (by norm_num) le_rfl (by norm_num) hα hβ hβ1 h1 h2
  have hy0 : 0 < y := by
    have := mul_pos h3 hq
    rwa [div_mul_cancel₀ _ hq.ne'] at this
  refine ⟨hy0, ?_⟩
  have e : x / y - p / q = p / q * (x / p / (y / q) - 1 / 1) := by field_simp
  rw [e, abs_mul, abs_of_pos (div_pos hp hq)]
  exact mul_le_mul_of_nonneg_left h4 (div_pos hp hq).le

theorem sqrt_zero_value {b : F80} (hb : Finite b) (h : value b = 0) : sqrt b = b := by
  unfold sqrt
  rw [if_neg (by rw [Finite.not_nan hb]; simp), if_pos]
  rw [Bool.or_eq_true]
  right
  rw [decide_eq_true_iff, units_eq_zero]
  rwa [value_key, fval_eq_zero] at h

/-- The standard deviation that is computed from a sum of squares `b` near `R`. -/
theorem deviation_near {a : F64} {b : F80} {n : Nat} {R : ℚ} (hb : Finite b) (hn0 : 0 < n) (hn : n ≤ 2 ^ 60)
    (hR : |value b - R| ≤ R * (n / 2 ^ 63 + 1 / 2 ^ 50)) (hlo : R = 0 ∨ 1 / 2 ^ 2200 ≤ R) (hhi : R ≤ n * 2 ^ 2044) :
    ∃ d : F80, devCommit ⟨⟨b, true⟩, a, n⟩ = .ok (d, n) ∧ Finite (FloatArith.cast d : F64) ∧ 0 ≤ value (FloatArith.cast d : F64) ∧
      (R = 0 → value (FloatArith.cast d : F64) = 0) ∧
      |(value (FloatArith.cast d : F64) : ℝ) - Real.sqrt ((R : ℝ) / n)| ≤ Real.sqrt ((R : ℝ) / n) * (n / 2 ^ 63 + 1 / 2 ^ 49) + 1 / 2 ^ 1074 := by
  obtain ⟨hcf, hcv⟩ := count_exact (n := n) (by omega)
  have hnq : (1 : ℚ) ≤ n := by exact_mod_cast hn0
  obtain ⟨hsf, hse⟩ := sqrt_error hcf (by
    rw [hcv]
    refine le_trans ?_ hnq
    rw [div_le_one (by positivity)]
    exact one_le_pow₀ (by norm_num))
  rw [hcv, Rat.cast_natCast] at hse
  obtain ⟨y, hy⟩ : ∃ y, y = sqrt (ofInt (n : Int) : F80) := ⟨_, rfl⟩
  rw [← hy] at hsf hse
  have hnR : (1 : ℝ) ≤ n := by exact_mod_cast hn0
  have hq0 : 0 < Real.sqrt (n : ℝ) := Real.sqrt_pos.2 (by linarith)
  have hyR : 0 < (value y : ℝ) := by
    have := (abs_le.1 hse).1
    norm_num at this
    linarith
  have hy0 : 0 < value y := by exact_mod_cast hyR
  refine ⟨div (sqrt b) y, ?_⟩
  have hcommit : (¬ FloatArith.lt (div (sqrt b) y) (zero false) = true) → devCommit ⟨⟨b, true⟩, a, n⟩ = .ok (div (sqrt b) y, n) := by
    intro h
    unfold devCommit
    rw [if_neg (by simp), if_neg (by show ¬ n = 0; omega)]
    simp only [← hy]
    rw [if_neg h]
  have hε0 : (0 : ℚ) ≤ n / 2 ^ 63 + 1 / 2 ^ 50 := by positivity
  have hε1 : (n / 2 ^ 63 + 1 / 2 ^ 50 : ℚ) ≤ 1 / 4 := by
    have : (n : ℚ) ≤ 2 ^ 60 := by exact_mod_cast hn
    generalize (n : ℚ) = N at this
    norm_num at this ⊢
    linarith
  rcases hlo with h0 | hlo
  · -- all the differences are zero
    subst h0
    have hb0 : value b = 0 := by
      rw [zero_mul, _root_.sub_zero] at hR
      exact abs_nonpos_iff.1 hR
    rw [sqrt_zero_value hb hb0] at hcommit ⊢
    have hk := key_div hb hsf hy0.ne'
    rw [hb0, zero_div, rnd_zero] at hk
    have hdf : Finite (div b y) := by rw [finite_key, hk]; simpa using inf_pos _
    have hd0 : value (div b y) = 0 := by rw [value_key, hk, fval_zero]
    have hkc := key_cast (T := F64) hdf
    rw [hd0, rnd_zero] at hkc
    have hcf' : Finite (FloatArith.cast (div b y) : F64) := by rw [finite_key, hkc]; simpa using inf_pos _
    have hc0 : value (FloatArith.cast (div b y) : F64) = 0 := by rw [value_key, hkc, fval_zero]
    refine ⟨hcommit ?_, hcf', hc0.ge, fun _ => hc0, ?_⟩
    · rw [lt_iff hdf (finite_zero _), hd0, value_zero]
      exact lt_irrefl _
    · rw [hc0]
      simp
  · have hRpos : 0 < R := lt_of_lt_of_le (by positivity) hlo
    have hbR := abs_le.1 hR
    have hb1 : R / 2 ≤ value b := by
      have := mul_le_mul_of_nonneg_left hε1 hRpos.le
      linarith [hbR.1]
    have hb3000 : 1 / 2 ^ 3000 ≤ value b := by
      refine le_trans ?_ hb1
      have h1 : (2 : ℚ) ^ 2200 * 2 ≤ 2 ^ 3000 := by
        rw [← pow_succ]
        exact pow_le_pow_right₀ (by norm_num) (by norm_num)
      have h2 : (1 : ℚ) / 2 ^ 3000 ≤ 1 / (2 ^ 2200 * 2) := one_div_le_one_div_of_le (by positivity) h1
      rw [← div_div] at h2
      generalize (1 : ℚ) / 2 ^ 3000 = A at *
      generalize (1 : ℚ) / 2 ^ 2200 = B at *
      linarith
    obtain ⟨hxf, hxe⟩ := sqrt_error hb hb3000
    obtain ⟨x, hx⟩ : ∃ x, x = sqrt b := ⟨_, rfl⟩
    rw [← hx] at hxf hxe hcommit ⊢
    have hb0 : (0 : ℝ) ≤ value b := by
      have : 0 ≤ value b := by linarith
      exact_mod_cast this
    have hRR : (0 : ℝ) < R := by exact_mod_cast hRpos
    have hRe : |(value b : ℝ) - R| ≤ R * (n / 2 ^ 63 + 1 / 2 ^ 50) := by
      have := (Rat.cast_le (K := ℝ)).2 hR
      push_cast at this
      exact this
    have hp := sqrt_perturbed hRR hb0 hRe
    have hε0' : (0 : ℝ) ≤ n / 2 ^ 63 + 1 / 2 ^ 50 := by positivity
    have hε1' : (n / 2 ^ 63 + 1 / 2 ^ 50 : ℝ) ≤ 1 / 4 := by
      have : (n : ℝ) ≤ 2 ^ 60 := by exact_mod_cast hn
      generalize (n : ℝ) = N at this
      norm_num at this ⊢
      linarith
    have hε2 : (n / 2 ^ 63 + 1 / 2 ^ 49 : ℝ) = n / 2 ^ 63 + 1 / 2 ^ 50 + 1 / 2 ^ 50 := by ring
    rw [hε2]
    have hp0 := Real.sqrt_pos.2 hRR
    have hσ : Real.sqrt ((R : ℝ) / n) = Real.sqrt R / Real.sqrt n := Real.sqrt_div hRR.le _
    have hσb : Real.sqrt ((R : ℝ) / n) ≤ 2 ^ 1022 := by
      rw [Real.sqrt_le_iff]
      refine ⟨by positivity, ?_⟩
      rw [div_le_iff₀ (by linarith), ← pow_mul]
      have := (Rat.cast_le (K := ℝ)).2 hhi
      push_cast at this
      rw [mul_comm]
      exact this
    have hσ0 : 0 < Real.sqrt ((R : ℝ) / n) := by rw [hσ]; exact div_pos hp0 hq0
    generalize (n / 2 ^ 63 + 1 / 2 ^ 50 : ℝ) = ε at *
    have hx1 : |(value x : ℝ) - Real.sqrt R| ≤ Real.sqrt R * (ε + (1 + ε) / 2 ^ 62) := by
      have h1 := abs_sub_le (value x : ℝ) (Real.sqrt (value b)) (Real.sqrt R)
      have h2 : Real.sqrt (value b) ≤ Real.sqrt R * (1 + ε) := by linarith [(abs_le.1 hp).2]
      have h3 : Real.sqrt (value b) / 2 ^ 62 ≤ Real.sqrt R * (1 + ε) / 2 ^ 62 := div_le_div_of_nonneg_right h2 (by positivity)
      have e : Real.sqrt R * (ε + (1 + ε) / 2 ^ 62) = Real.sqrt R * ε + Real.sqrt R * (1 + ε) / 2 ^ 62 := by ring
      rw [e]
      linarith
    rw [div_eq_mul_one_div] at hse
    obtain ⟨-, hq⟩ := div_perturbed hp0 hq0 (by positivity) (by positivity) (by norm_num) hx1 hse
    rw [← hσ] at hq
    have hq' : |(value x : ℝ) / value y - Real.sqrt ((R : ℝ) / n)| ≤ Real.sqrt ((R : ℝ) / n) * (ε + 1 / 2 ^ 60) := by
      refine le_trans hq (mul_le_mul_of_nonneg_left ?_ hσ0.le)
      rw [div_le_iff₀ (by norm_num)]
      norm_num
      linarith
    clear hq hx1 hσ hp hRe hse hxe
    obtain ⟨q, hqq⟩ : ∃ q, q = value x / value y := ⟨_, rfl⟩
    have hqR : (value x : ℝ) / value y = (q : ℝ) := by rw [hqq]; push_cast; rfl
    rw [hqR] at hq'
    generalize Real.sqrt ((R : ℝ) / n) = σ at *
    have hq1 := (abs_le.1 hq').1
    have hq2 := (abs_le.1 hq').2
    have hσε : σ * (ε + 1 / 2 ^ 60) ≤ σ * (1 / 4 + 1 / 2 ^ 60) := mul_le_mul_of_nonneg_left (by linarith) hσ0.le
    have hqpos : (0 : ℝ) ≤ (q : ℝ) := by
      norm_num at hσε hq1
      linarith
    have hq0' : 0 ≤ q := by exact_mod_cast hqpos
    have hqb : q ≤ 2 ^ 1022 * (3 / 2) := by
      have : (q : ℝ) ≤ 2 ^ 1022 * (3 / 2) := by
        generalize (2 : ℝ) ^ 1022 = A at *
        norm_num at hσε hq2
        linarith
      have h2 : ((q : ℚ) : ℝ) ≤ ((2 ^ 1022 * (3 / 2) : ℚ) : ℝ) := by push_cast; exact this
      exact (Rat.cast_le (K := ℝ)).1 h2
    have hkd := key_div hxf hsf hy0.ne'
    rw [← hqq] at hkd
    have hlarge := double_large
    have hlarge80 := long_large
    have hp1 : (2 : ℚ) ^ 1023 = 2 ^ 1022 * 2 := by rw [← pow_succ]
    rw [hp1] at hlarge
    have hp2 : (2 : ℚ) ^ 1022 * 2 ≤ 2 ^ 5000 := by
      rw [← pow_succ]
      exact pow_le_pow_right₀ (by norm_num) (by norm_num)
    have hA0 : (1 : ℚ) ≤ 2 ^ 1022 := one_le_pow₀ (by norm_num)
    have hqfin : (rnd (fmt F80) q).natAbs < (fmt F80).inf := by
      apply rnd_finite
      rw [abs_of_nonneg hq0']
      generalize (2 : ℚ) ^ 1022 = A at *
      generalize (2 : ℚ) ^ 5000 = B at *
      linarith only [hqb, hp2, hlarge80, hA0]
    have hdf : Finite (div x y) := by rw [finite_key, hkd]; exact hqfin
    have hd0 : 0 ≤ value (div x y) := by
      rw [value_key, hkd]
      exact fval_nonneg (rnd_nonneg hq0')
    have hdb : value (div x y) ≤ 2 ^ 1022 * 2 := by
      have h1 := rnd_error (Lawful.good (T := F80)) hqfin
      rw [← hkd, ← value_key, show (fmt F80).frac + 1 = 64 from rfl, abs_of_nonneg hq0'] at h1
      have h3 : (1 : ℚ) / 2 / 2 ^ (fmt F80).scale ≤ 1 / 2 := by
        refine div_le_self (by norm_num) (one_le_pow₀ (by norm_num))
      generalize (1 : ℚ) / 2 / 2 ^ (fmt F80).scale = w at *
      generalize (2 : ℚ) ^ 1022 = A at *
      generalize value (div x y) = v at *
      rcases h1 with h1 | h1
      · have := (abs_le.1 h1).2
        linarith only [this, h3, hqb, hA0]
      · have := (abs_le.1 h1).2
        norm_num at this
        linarith only [this, hqb, hA0, hq0']
    have hkc := key_cast (T := F64) hdf
    have hcf' : Finite (FloatArith.cast (div x y) : F64) := by
      rw [finite_key, hkc]
      apply rnd_finite
      rw [abs_of_nonneg hd0]
      exact lt_of_le_of_lt hdb hlarge
    refine ⟨hcommit ?_, hcf', ?_, fun h => absurd h hRpos.ne', ?_⟩
    · rw [lt_iff hdf (finite_zero _), value_zero]
      exact not_lt.2 hd0
    · rw [value_key, hkc]
      exact fval_nonneg (rnd_nonneg hd0)
    · have h2 := twice_error hkd hdf hkc hcf'
      rw [abs_of_nonneg hq0'] at h2
      have h3 := (Rat.cast_le (K := ℝ)).2 h2
      rw [Rat.cast_abs] at h3
      push_cast at h3
      have h4 := abs_sub_le (value (FloatArith.cast (div x y) : F64) : ℝ) (q : ℝ) σ
      have hσε2 : σ * (ε + 1 / 2 ^ 60) = σ * ε + σ * (1 / 2 ^ 60) := by ring
      have hσε3 : σ * (ε + 1 / 2 ^ 50) = σ * ε + σ * (1 / 2 ^ 50) := by ring
      rw [hσε2] at hσε hq' hq2
      rw [hσε3]
      generalize (1 : ℝ) / 2 ^ 1074 = w at *
      generalize (value (FloatArith.cast (div x y) : F64) : ℝ) = v at *
      generalize σ * ε = u at *
      clear hA0 hp2 hp1 hlarge hdb hlarge80 hσb hqb hkd hkc hb3000 hlo hhi hε1 hε0 hε2 hε1'
      norm_num at *
      linarith

end Feat.FloatStats
