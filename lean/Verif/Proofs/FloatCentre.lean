import Verif.Proofs.FloatScaler
/-
The standard scaler in floating point arithmetic: the error of what it computes.
-/
namespace Feat.FloatStats
open FloatText FloatArith FloatNorms FloatScalers
variable {ι V S : Type}

theorem sum_shifted (l : List ℚ) (a b : ℚ) :
    (l.map fun q => (q - a) ^ 2).sum = (l.map fun q => (q - b) ^ 2).sum + 2 * (b - a) * (l.sum - l.length * b) + l.length * (a - b) ^ 2 := by
  induction l with
  | nil => simp
  | cons x l ih =>
    simp only [List.map_cons, List.sum_cons, List.length_cons, Nat.cast_add, Nat.cast_one, ih]
    ring

theorem squares_about {l : List ℚ} (hl : l ≠ []) (a : ℚ) :
    (l.map fun q => (q - a) ^ 2).sum = squares l + l.length * (a - mean l) ^ 2 := by
  have hn : (l.length : ℚ) ≠ 0 := by
    have := List.length_pos_of_ne_nil hl
    exact_mod_cast this.ne'
  rw [sum_shifted l a (mean l)]
  have : l.sum - l.length * mean l = 0 := by
    unfold mean
    field_simp
    ring
  rw [this, mul_zero, add_zero]
  rfl

theorem squares_nonneg (l : List ℚ) : 0 ≤ squares l := by
  refine List.sum_nonneg ?_
  intro q hq
  obtain ⟨x, _, rfl⟩ := List.mem_map.1 hq
  positivity

theorem meanAbs_nonneg (l : List ℚ) : 0 ≤ meanAbs l := by
  refine div_nonneg (List.sum_nonneg ?_) (by positivity)
  intro q hq
  obtain ⟨x, _, rfl⟩ := List.mem_map.1 hq
  positivity

theorem abs_mean_le (l : List ℚ) : |mean l| ≤ meanAbs l := by
  unfold mean meanAbs
  rw [abs_div, abs_of_nonneg (by positivity : (0 : ℚ) ≤ l.length)]
  refine div_le_div_of_nonneg_right ?_ (by positivity)
  unfold sumAbs
  induction l with
  | nil => simp
  | cons x l ih =>
    simp only [List.map_cons, List.sum_cons]
    have := abs_add_le x l.sum
    linarith

/-- The root mean square distance from `a` and the standard deviation. -/
theorem deviation_about {l : List ℚ} (hl : l ≠ []) (a R : ℚ) (hR : R = (l.map fun q => (q - a) ^ 2).sum) :
    deviation l ≤ Real.sqrt ((R : ℝ) / l.length) ∧ Real.sqrt ((R : ℝ) / l.length) ≤ deviation l + |((a - mean l : ℚ) : ℝ)| := by
  have hn : (0 : ℝ) < l.length := by
    have := List.length_pos_of_ne_nil hl
    exact_mod_cast this
  rw [squares_about hl] at hR
  have hS : (0 : ℝ) ≤ squares l := by exact_mod_cast squares_nonneg l
  have e : (R : ℝ) / l.length = (squares l : ℝ) / l.length + ((a - mean l : ℚ) : ℝ) ^ 2 := by
    rw [hR]
    push_cast
    field_simp
  unfold deviation
  rw [e]
  generalize ((a - mean l : ℚ) : ℝ) = t
  have hS' : 0 ≤ (squares l : ℝ) / l.length := div_nonneg hS hn.le
  generalize (squares l : ℝ) / l.length = s at *
  constructor
  · exact Real.sqrt_le_sqrt (by nlinarith [sq_nonneg t])
  · rw [Real.sqrt_le_iff]
    refine ⟨by positivity, ?_⟩
    have h1 := Real.sq_sqrt hS'
    have h2 := Real.sqrt_nonneg s
    have h3 := abs_nonneg t
    have h4 := sq_abs t
    nlinarith [mul_nonneg h2 h3]

theorem error_le {n : Nat} (hn : n ≤ 2 ^ 60) : error n ≤ 1 / 4 ∧ 0 ≤ error n := by
  have : (n : ℚ) ≤ 2 ^ 60 := by exact_mod_cast hn
  unfold error
  refine ⟨?_, by positivity⟩
  generalize (n : ℚ) = N at this
  norm_num at this ⊢
  linarith

/-- The centre and the scale of a scaler that was trained with the numbers `l`. -/
theorem centre_and_scale {withMean withStd : Bool} {l : List ℚ} (hl : l ≠ []) (hlen : l.length ≤ 2 ^ 60) {a : F64} {d : F80}
    (hw : Within l a) (hnear : |value a - mean l| ≤ error l.length * meanAbs l + 1 / 2 ^ 1074)
    (R : ℚ) (hR : R = (l.map fun q => (q - value a) ^ 2).sum)
    (hd : Finite (FloatArith.cast d : F64)) (h0 : 0 ≤ value (FloatArith.cast d : F64)) (hz : R = 0 → value (FloatArith.cast d : F64) = 0)
    (he : |(value (FloatArith.cast d : F64) : ℝ) - Real.sqrt ((R : ℝ) / l.length)|
        ≤ Real.sqrt ((R : ℝ) / l.length) * (l.length / 2 ^ 63 + 1 / 2 ^ 49) + 1 / 2 ^ 1074) :
    CentreAndScale withMean withStd l (value (if withMean then a else zero false)) (value (scaleOf withStd d)) := by
  obtain ⟨s1, s2, s3, s4, s5⟩ := scaleOf_spec (withStd := withStd) hd h0
  refine ⟨s2, ?_, ?_, ?_, ?_, ?_, s3⟩
  · intro h; rw [h]; exact hnear
  · intro h; rw [h]; exact hw
  · intro h; rw [h]; exact value_zero _
  · intro h hσ
    obtain ⟨k1, k2⟩ := deviation_about hl (value a) R hR
    obtain ⟨e1, e2⟩ := error_le hlen
    have hδ := (Rat.cast_le (K := ℝ)).2 hnear
    rw [Rat.cast_abs] at hδ
    have eE : (l.length / 2 ^ 63 + 1 / 2 ^ 49 : ℝ) = (error l.length : ℚ) - 1 / 2 ^ 49 := by
      unfold error
      push_cast
      ring
    have e1' : ((error l.length : ℚ) : ℝ) ≤ 1 / 4 := by
      have := (Rat.cast_le (K := ℝ)).2 e1
      push_cast at this
      exact this
    have e2' : (0 : ℝ) ≤ ((error l.length : ℚ) : ℝ) := by exact_mod_cast e2
    have hM : (0 : ℝ) ≤ ((meanAbs l : ℚ) : ℝ) := by exact_mod_cast meanAbs_nonneg l
    rw [eE] at he
    push_cast at hδ
    have ew : (1 : ℝ) / 2 ^ 1072 = 4 * (1 / 2 ^ 1074) := by
      rw [show (2 : ℝ) ^ 1074 = 4 * 2 ^ 1072 by rw [show 1074 = 2 + 1072 by rfl, pow_add]; norm_num]
      field_simp
    have ew2 : 4 * ((1 : ℝ) / 2 ^ 1074) ≤ 1 / 2 ^ 1000 := by
      rw [← ew]
      exact one_div_le_one_div_of_le (by positivity) (pow_le_pow_right₀ (by norm_num) (by norm_num))
    have hw0 : (0 : ℝ) < 1 / 2 ^ 1074 := by positivity
    rw [ew]
    push_cast at k2
    generalize (1 : ℝ) / 2 ^ 1000 = v at *
    generalize (1 : ℝ) / 2 ^ 1074 = w at *
    generalize Real.sqrt ((R : ℝ) / l.length) = σa at *
    generalize deviation l = σ at *
    generalize ((error l.length : ℚ) : ℝ) = E at *
    generalize ((meanAbs l : ℚ) : ℝ) = M at *
    generalize |(value a : ℝ) - (mean l : ℚ)| = δ at *
    have hc := abs_le.1 he
    have h1 : σa * (E - 1 / 2 ^ 49) ≤ σa * E := mul_le_mul_of_nonneg_left (by norm_num) (by linarith)
    have h2 : σa * E ≤ (σ + δ) * E := mul_le_mul_of_nonneg_right k2 e2'
    have h3 : σa * E ≤ σa * (1 / 4) := mul_le_mul_of_nonneg_left e1' (by linarith)
    have hpos : (0 : ℝ) < (value (FloatArith.cast d : F64) : ℝ) := by linarith [hc.1]
    have hne : value (FloatArith.cast d : F64) ≠ 0 := by
      intro h0
      rw [h0] at hpos
      simp at hpos
    rw [s5 h hne]
    have h4 : δ * E ≤ δ * (1 / 4) := mul_le_mul_of_nonneg_left e1' (by
      by_contra hneg
      linarith)
    have h5 : 0 ≤ E * M := mul_nonneg e2' hM
    have h6 := abs_sub_le (value (FloatArith.cast d : F64) : ℝ) σa σ
    rw [abs_of_nonneg (by linarith : 0 ≤ σa - σ)] at h6
    have h7 : (σ + δ) * E = σ * E + δ * E := by ring
    have h8 : E * (σ + 2 * M) = σ * E + 2 * (E * M) := by ring
    rw [h8]
    generalize (value (FloatArith.cast d : F64) : ℝ) = c at *
    linarith
  · intro h hall
    refine s4 h (hz ?_)
    rw [hR]
    apply List.sum_eq_zero
    intro x hx
    obtain ⟨q, hq, rfl⟩ := List.mem_map.1 hx
    obtain ⟨⟨lo, hlo, h1⟩, hi, hhi, h2⟩ := hw
    rw [hall q hq lo hlo, show lo = value a from le_antisymm h1 (by rw [hall lo hlo hi hhi]; exact h2), sub_self]
    simp

/-- A column whose numbers are apart is not refused. -/
theorem not_negligible {l : List ℚ} (hl : l ≠ []) (hlen : l.length ≤ 2 ^ 60) {a : F64}
    (hw : Within l a) (hnear : |value a - mean l| ≤ error l.length * meanAbs l + 1 / 2 ^ 1074)
    (R : ℚ) (hR : R = (l.map fun q => (q - value a) ^ 2).sum) (hap : Apart l) {q : ℚ} (hq : q ∈ l) (hqa : q ≠ value a) :
    R < 2 ^ 60 * (q - value a) ^ 2 := by
  rcases hap with hall | hap
  · exfalso
    obtain ⟨⟨lo, hlo, h1⟩, hi, hhi, h2⟩ := hw
    exact hqa (le_antisymm (by rw [hall q hq lo hlo]; exact h1) (by rw [hall q hq hi hhi]; exact h2))
  · obtain ⟨h1, h2, h3⟩ := hap q hq
    rw [squares_about hl] at hR
    have hn : (l.length : ℚ) ≤ 2 ^ 60 := by exact_mod_cast hlen
    have ew : 8 * ((1 : ℚ) / 2 ^ 1074) ≤ 1 / 2 ^ 1000 := by
      rw [show (2 : ℚ) ^ 1074 = 8 * 2 ^ 1071 by rw [show 1074 = 3 + 1071 by rfl, pow_add]; norm_num]
      rw [show 8 * ((1 : ℚ) / (8 * 2 ^ 1071)) = 1 / 2 ^ 1071 by field_simp]
      exact one_div_le_one_div_of_le (by positivity) (pow_le_pow_right₀ (by norm_num) (by norm_num))
    have hw0 : (0 : ℚ) < 1 / 2 ^ 1000 := by positivity
    have hδ : |value a - mean l| ≤ |q - mean l| / 4 := by
      generalize (1 : ℚ) / 2 ^ 1000 = v at *
      generalize (1 : ℚ) / 2 ^ 1074 = w at *
      have : 8 * error l.length * meanAbs l = 8 * (error l.length * meanAbs l) := by ring
      rw [this] at h2
      linarith
    have ht0 : 0 < |q - mean l| := lt_of_lt_of_le hw0 h3
    rw [← sq_abs (q - mean l)] at h1
    have hr : |q - mean l| * (3 / 4) ≤ |q - value a| := by
      have := abs_sub_le q (value a) (mean l)
      linarith
    have hr2 : |q - mean l| ^ 2 * (9 / 16) ≤ (q - value a) ^ 2 := by
      have := pow_le_pow_left₀ (by positivity) hr 2
      rw [sq_abs, mul_pow] at this
      norm_num at this ⊢
      exact this
    have hδ2 : (value a - mean l) ^ 2 ≤ |q - mean l| ^ 2 / 16 := by
      have := pow_le_pow_left₀ (by positivity) hδ 2
      rw [sq_abs, div_pow] at this
      norm_num at this ⊢
      exact this
    have h4 : (l.length : ℚ) * (value a - mean l) ^ 2 ≤ 2 ^ 60 * (|q - mean l| ^ 2 / 16) :=
      mul_le_mul hn hδ2 (by positivity) (by positivity)
    have h5 : 0 < |q - mean l| ^ 2 := by positivity
    rw [hR]
    generalize |q - mean l| ^ 2 = t at *
    generalize (q - value a) ^ 2 = u at *
    generalize (l.length : ℚ) * (value a - mean l) ^ 2 = v at *
    norm_num at *
    linarith

/-- The scaler itself. -/
theorem scales_by {k : StatInput ι V S} {number : ι → Prop} {val : Reading ι} {t : StandardScaler F64}
    (hval : ∀ x, val x = none → k.get x = none)
    (hval' : ∀ x q, number x → val x = some q → |q| ≤ 2 ^ 1020 → ∃ v, k.get x = some v ∧ Finite (k.toD v) ∧ value (k.toD v) = q)
    (ha : Finite t.average) (hab : |value t.average| ≤ 2 ^ 1020) (hs : Finite t.deviation) (hs0 : 0 < value t.deviation) :
    ScalesBy (value t.average) (value t.deviation) number val (execScaler k t) := by
  have hsub : ∀ x q, number x → val x = some q → |q| ≤ 2 ^ 1020 → ∃ v, k.get x = some v ∧ Finite (k.toD v) ∧ value (k.toD v) = q ∧
      Finite (sub (k.toD v) t.average) ∧
      |value (sub (k.toD v) t.average) - (q - value t.average)| ≤ |q - value t.average| / 2 ^ 53 ∧
      execScaler k t x = div (sub (k.toD v) t.average) t.deviation := by
    intro x q hm hx hq
    obtain ⟨v, hv, hf, hvq⟩ := hval' x q hm hx hq
    have hlt : |value (k.toD v) - value t.average| < tooLarge F64 := by
      rw [hvq]
      have h1 : (2 : ℚ) ^ 1020 + 2 ^ 1020 ≤ 2 ^ 1023 := by
        rw [← two_mul, ← pow_succ']
        exact pow_le_pow_right₀ (by norm_num) (by norm_num)
      have h2 := double_large
      have h3 := abs_sub q (value t.average)
      generalize (2 : ℚ) ^ 1020 = A at *
      generalize (2 : ℚ) ^ 1023 = B at *
      linarith
    have he := sub_error hf ha hlt
    rw [hvq, show Binary.frac F64 + 1 = 53 from rfl] at he
    refine ⟨v, hv, hf, hvq, sub_finite hf ha hlt, he, ?_⟩
    simp only [execScaler, hv]
  refine ⟨?_, ?_, ?_, ?_⟩
  · intro x hx
    rw [← isNaN_iff]
    simp only [execScaler, hval x hx]
    decide +kernel
  · intro x q hm hx hq hQ
    obtain ⟨v, hv, hf, hvq, hsf, hse, hex⟩ := hsub x q hm hx hq
    rw [hex]
    obtain ⟨p, hp⟩ : ∃ p, p = value (sub (k.toD v) t.average) / value t.deviation := ⟨_, rfl⟩
    have hpQ : |p - (q - value t.average) / value t.deviation| ≤ |(q - value t.average) / value t.deviation| / 2 ^ 53 := by
      rw [hp, ← sub_div, abs_div, abs_div, abs_of_pos hs0, div_right_comm]
      exact div_le_div_of_nonneg_right hse hs0.le
    have hpb : |p| ≤ |(q - value t.average) / value t.deviation| * (1 + 1 / 2 ^ 53) := by
      have := abs_add_le (p - (q - value t.average) / value t.deviation) ((q - value t.average) / value t.deviation)
      rw [sub_add_cancel] at this
      linarith
    have hlt : |value (sub (k.toD v) t.average) / value t.deviation| < tooLarge F64 := by
      rw [← hp]
      refine lt_of_le_of_lt hpb ?_
      refine lt_of_le_of_lt (mul_le_mul_of_nonneg_right hQ (by positivity)) ?_
      unfold tooLarge
      rw [show Binary.frac F64 = 52 from rfl, show ((bias F64 : Nat) : Int) = 1023 by decide +kernel,
        show (2 : ℚ) ^ (1023 - ((52 : Nat) : Int) - 1 : Int) = 2 ^ 970 from by
          rw [show (1023 - ((52 : Nat) : Int) - 1 : Int) = ((970 : Nat) : Int) by norm_num, zpow_natCast]]
      have h2 : (0 : ℚ) < 2 ^ 970 := by positivity
      rw [show (2 : ℚ) ^ 1023 = 2 ^ 970 * 2 ^ 53 by rw [← pow_add]]
      generalize (2 : ℚ) ^ 970 = A at *
      norm_num
      linarith
    have hde := div_error hsf hs hs0.ne' hlt
    have hk := key_div hsf hs hs0.ne'
    refine ⟨by rw [finite_key, hk]; exact rnd_finite hlt, ?_⟩
    rw [← hp] at hde
    have h3 := abs_sub_le (value (div (sub (k.toD v) t.average) t.deviation)) p ((q - value t.average) / value t.deviation)
    have hw : (0 : ℚ) < 1 / 2 ^ 1075 := by positivity
    have hw2 : (1 : ℚ) / 2 ^ 1074 = 2 * (1 / 2 ^ 1075) := by
      rw [show (2 : ℚ) ^ 1075 = 2 * 2 ^ 1074 by rw [← pow_succ']]
      field_simp
    rw [hw2]
    have hQ0 := abs_nonneg ((q - value t.average) / value t.deviation)
    generalize value (div (sub (k.toD v) t.average) t.deviation) = f at *
    clear hQ hse hq hab hk hlt
    generalize (1 : ℚ) / 2 ^ 1075 = w at *
    generalize |(q - value t.average) / value t.deviation| = Q at *
    rcases hde with h | h
    · norm_num at *
      linarith
    · norm_num at *
      linarith
  · intro x hm hx
    obtain ⟨v, hv, hf, hvq, hsf, hse, hex⟩ := hsub x _ hm hx hab
    rw [sub_self, abs_zero, zero_div, _root_.sub_zero] at hse
    have h0 := abs_nonpos_iff.1 hse
    rw [hex]
    refine ⟨?_, div_zero_num hsf hs h0 hs0⟩
    rw [finite_key, key_div hsf hs hs0.ne', h0, zero_div, rnd_zero]
    simpa using inf_pos _
  · intro x y p q hm hm' hx hy hp hq hpq _ _
    obtain ⟨v, hv, hf, hvq, hsf, -, hex⟩ := hsub x _ hm hx hp
    obtain ⟨v', hv', hf', hvq', hsf', -, hex'⟩ := hsub y _ hm' hy hq
    rw [hex, hex']
    exact div_ordered hsf hsf' hs (sub_ordered hf hf' ha (by rw [hvq, hvq']; exact hpq)) hs0

end Feat.FloatStats
