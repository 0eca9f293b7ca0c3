import Verif.Props.FloatMedian
import Verif.Props.FloatStats
/-
The arithmetic of the robust scaler.
-/
namespace Feat.FloatMedian
open FloatText FloatArith FloatStats FloatNorms FloatScalers
variable {ι V S T τ : Type}

section
variable [FloType T] [Lawful T]

theorem smallest_eq : smallest T = 1 / 2 ^ (fmt T).scale := by
  unfold smallest
  obtain ⟨c, hc, hs, _⟩ := (shape T).bias_scale
  rw [hs, hc, show Binary.frac T = (fmt T).frac from rfl]
  congr 2
  omega

omit [Lawful T] in
theorem smallest_pos : 0 < smallest T := by
  unfold smallest
  positivity

/-- The error of a rounded number. -/
theorem rounded_error {x : T} {q : ℚ} (hk : key x = rnd (fmt T) q) (hq : |q| < tooLarge T) :
    Finite x ∧ |value x - q| ≤ |q| / 2 ^ (Binary.frac T + 1) + smallest T / 2 := by
  have hf := rnd_finite hq
  refine ⟨by rw [finite_key, hk]; exact hf, ?_⟩
  rw [value_key, hk, smallest_eq]
  have h1 : (0 : ℚ) ≤ |q| / 2 ^ (Binary.frac T + 1) := by positivity
  have h2 : (0 : ℚ) ≤ 1 / 2 ^ (fmt T).scale / 2 := by positivity
  rcases rnd_error Lawful.good hf with h | h
  · rw [div_right_comm] at h
    linarith
  · have h' : |fval (fmt T) (rnd (fmt T) q) - q| ≤ |q| / 2 ^ (Binary.frac T + 1) := h
    linarith

theorem frac_le : (19 : Nat) ≤ Binary.frac T := (Lawful.good (T := T)).frac

/-- Dividing the difference. -/
theorem quotient_near {x m s : T} (hx : Finite x) (hm : Finite m) (hs : Finite s) (h0 : 0 < value s)
    (hd : |value x - value m| < tooLarge T) (hq : 2 * |(value x - value m) / value s| < tooLarge T) :
    Finite (div (sub x m) s) ∧
      |value (div (sub x m) s) - (value x - value m) / value s| ≤
        2 * |(value x - value m) / value s| / 2 ^ Binary.frac T + smallest T := by
  have hsf := sub_finite hx hm hd
  have hse := sub_error hx hm hd
  obtain ⟨Q, hQ⟩ : ∃ Q, Q = (value x - value m) / value s := ⟨_, rfl⟩
  obtain ⟨p, hp⟩ : ∃ p, p = value (sub x m) / value s := ⟨_, rfl⟩
  rw [← hQ] at hq ⊢
  have hP : (0 : ℚ) < 2 ^ Binary.frac T := by positivity
  have hP1 : (2 : ℚ) ≤ 2 ^ Binary.frac T :=
    le_trans (by norm_num) (pow_le_pow_right₀ (by norm_num : (1 : ℚ) ≤ 2) (frac_le (T := T)))
  have hpQ : |p - Q| ≤ |Q| / 2 ^ (Binary.frac T + 1) := by
    rw [hp, hQ, ← sub_div, abs_div, abs_div, abs_of_pos h0, div_right_comm]
    exact div_le_div_of_nonneg_right hse h0.le
  rw [pow_succ] at hpQ
  have hQ0 := abs_nonneg Q
  have hpb : |p| ≤ |Q| + |Q| / (2 ^ Binary.frac T * 2) := by
    have := abs_add_le (p - Q) Q
    rw [sub_add_cancel] at this
    linarith
  have hw : |Q| / (2 ^ Binary.frac T * 2) ≤ |Q| / 4 :=
    div_le_div_of_nonneg_left hQ0 (by norm_num) (by linarith)
  obtain ⟨hf, he⟩ := rounded_error (x := div (sub x m) s) (q := p) (by rw [hp]; exact key_div hsf hs h0.ne') (by linarith)
  refine ⟨hf, ?_⟩
  have h3 := abs_sub_le (value (div (sub x m) s)) p Q
  have h4 := smallest_pos (T := T)
  rw [pow_succ] at he
  have h5 : |p| / (2 ^ Binary.frac T * 2) ≤ 2 * |Q| / (2 ^ Binary.frac T * 2) :=
    div_le_div_of_nonneg_right (by linarith) (by positivity)
  have h6 : 2 * |Q| / (2 ^ Binary.frac T * 2) = |Q| / 2 ^ Binary.frac T := by field_simp
  have h7 : |Q| / (2 ^ Binary.frac T * 2) = |Q| / 2 ^ Binary.frac T / 2 := by field_simp
  have h8 : 2 * |Q| / 2 ^ Binary.frac T = 2 * (|Q| / 2 ^ Binary.frac T) := by ring
  have h9 : 0 ≤ |Q| / 2 ^ Binary.frac T := by positivity
  rw [h8]
  rw [h7] at hpQ
  rw [h6] at h5
  linarith

theorem nan_sub {x y : T} (h : isNaN x = true) : isNaN (sub x y) = true := by
  unfold sub add
  rw [if_pos (by simp [h])]
  exact isNaN_nan

theorem nan_div {x y : T} (h : isNaN x = true) : isNaN (div x y) = true := by
  unfold div
  rw [if_pos (by simp [h])]
  exact isNaN_nan

omit [Lawful T] in
theorem tooLarge_pos : 0 < tooLarge T := by
  unfold tooLarge
  have h : (0 : ℚ) < 4 * 2 ^ Binary.frac T - 1 := by
    have : (1 : ℚ) ≤ 2 ^ Binary.frac T := one_le_pow₀ (by norm_num)
    linarith
  exact mul_pos h (zpow_pos (by norm_num) _)

/-- Only finite numbers have finite quotients by finite numbers. -/
theorem finite_num {x y : T} (hy : Finite y) (h : Finite (div x y)) : Finite x := by
  refine finite_or ?_ ?_
  · rw [Bool.eq_false_iff]
    intro hx
    have h1 := nan_div (y := y) hx
    rw [Finite.not_nan h] at h1
    cases h1
  · rw [Bool.eq_false_iff]
    intro hx
    have h1 : isInf (div x y) = true := by
      unfold div
      rw [if_neg (by simp [isNaN_of_inf hx, Finite.not_nan hy]), if_pos hx, if_neg (by simp [Finite.not_inf hy])]
      exact isInf_make _
    rw [Finite.not_inf h] at h1
    cases h1

theorem eq_zero_iff {x : T} (hx : Finite x) : eq x (zero false) = true ↔ value x = 0 := by
  rw [eq_iff hx (finite_zero _), value_zero]

theorem ofInt_one : Finite (ofInt 1 : T) ∧ value (ofInt 1 : T) = 1 := by
  have h := ofInt_exact (T := T) (z := 1) (by
    have : 1 ≤ 2 ^ (fmt T).frac := Nat.one_le_two_pow
    simp only [Int.natAbs_one]
    omega)
  exact ⟨h.1, by rw [h.2]; norm_num⟩

/-- The scaler itself. -/
theorem centred {k : RobustInput ι V S T} {number : ι → Prop} {val : Reading ι} {t : FloRobust T}
    (hval : ∀ x, val x = none → isNaN (k.toT x) = true)
    (hval' : ∀ x q, number x → val x = some q → Finite (k.toT x) ∧ value (k.toT x) = q)
    (hm : Finite t.median) (hs : Finite t.scale) (hs0 : 0 ≤ value t.scale) :
    Centred (value t.median) (if value t.scale = 0 then 1 else value t.scale) number val (execRobust k t) := by
  by_cases h0 : value t.scale = 0
  · have hex : ∀ x, execRobust k t x = sub (k.toT x) t.median := by
      intro x
      simp only [execRobust, (eq_zero_iff hs).2 h0, if_true]
    rw [if_pos h0]
    refine ⟨?_, ?_, ?_, ?_⟩
    · intro x hx
      rw [hex, ← isNaN_iff]
      exact nan_sub (hval x hx)
    · intro x q hn hx hd hq
      obtain ⟨hf, he⟩ := hval' x q hn hx
      rw [← he] at hd ⊢
      rw [hex, div_one]
      refine ⟨sub_finite hf hm hd, le_trans (sub_error hf hm hd) ?_⟩
      have h1 := smallest_pos (T := T)
      have h2 : |value (k.toT x) - value t.median| / 2 ^ (Binary.frac T + 1) ≤ |value (k.toT x) - value t.median| / 2 ^ Binary.frac T :=
        div_le_div_of_nonneg_left (abs_nonneg _) (by positivity) (pow_le_pow_right₀ (by norm_num) (by omega))
      have h3 : 0 ≤ |value (k.toT x) - value t.median| / 2 ^ Binary.frac T := by positivity
      rw [mul_div_assoc]
      linarith
    · intro x hn hx
      obtain ⟨hf, he⟩ := hval' x _ hn hx
      rw [hex]
      refine ⟨sub_finite hf hm ?_, FloatScalers.sub_zero hf hm he⟩
      rw [he, sub_self, abs_zero]
      exact tooLarge_pos
    · intro x y p q hn hn' hx hy hpq _ _
      obtain ⟨hf, he⟩ := hval' x _ hn hx
      obtain ⟨hf', he'⟩ := hval' y _ hn' hy
      rw [hex, hex]
      exact sub_ordered hf hf' hm (by rw [he, he']; exact hpq)
  · have hpos : 0 < value t.scale := lt_of_le_of_ne hs0 (Ne.symm h0)
    have hex : ∀ x, execRobust k t x = div (sub (k.toT x) t.median) t.scale := by
      intro x
      have : eq t.scale (zero false) = false := by
        rw [Bool.eq_false_iff]
        exact fun h => h0 ((eq_zero_iff hs).1 h)
      simp only [execRobust, this, Bool.false_eq_true, if_false]
    rw [if_neg h0]
    refine ⟨?_, ?_, ?_, ?_⟩
    · intro x hx
      rw [hex, ← isNaN_iff]
      exact nan_div (nan_sub (hval x hx))
    · intro x q hn hx hd hq
      obtain ⟨hf, he⟩ := hval' x q hn hx
      rw [← he] at hd hq ⊢
      rw [hex]
      exact quotient_near hf hm hs hpos hd hq
    · intro x hn hx
      obtain ⟨hf, he⟩ := hval' x _ hn hx
      have hz := FloatScalers.sub_zero hf hm he
      have hsf : Finite (sub (k.toT x) t.median) := by
        rw [finite_key, key_sub hf hm, he, sub_self, rnd_zero]
        simpa using inf_pos T
      rw [hex, finite_key, value_key, key_div hsf hs hpos.ne', hz, zero_div, rnd_zero, fval_zero]
      exact ⟨by simpa using inf_pos T, rfl⟩
    · intro x y p q hn hn' hx hy hpq hfx hfy
      obtain ⟨hf, he⟩ := hval' x _ hn hx
      obtain ⟨hf', he'⟩ := hval' y _ hn' hy
      rw [hex] at hfx ⊢
      rw [hex] at hfy ⊢
      have h1 := finite_num hs hfx
      have h2 := finite_num hs hfy
      rw [value_key, value_key (div _ t.scale), key_div h1 hs hpos.ne', key_div h2 hs hpos.ne', fval_le]
      exact rnd_mono Lawful.good
        (div_le_div_of_nonneg_right (sub_ordered hf hf' hm (by rw [he, he']; exact hpq)) hpos.le)

end

/-! ### The range -/

theorem hundred : Finite (ofInt 100 : F32) ∧ value (ofInt 100 : F32) = 100 := by
  have h := ofInt_exact (T := F32) (z := 100) (by decide +kernel)
  exact ⟨h.1, by rw [h.2]; norm_num⟩

theorem large_float : (2 : ℚ) ^ 127 < tooLarge F32 := by
  unfold tooLarge
  rw [show Binary.frac F32 = 23 from rfl, show bias F32 = 127 from rfl]
  norm_num

theorem smallest_float : smallest F32 = 1 / 2 ^ 149 := by
  unfold smallest
  rw [show Binary.frac F32 = 23 from rfl, show bias F32 = 127 from rfl]

/-- The part of the range. -/
theorem ratio_spec {a b : F32} (ha : Finite a) (hb : Finite b) (h0 : 0 ≤ value a) (hab : value a ≤ value b) (h1 : value b ≤ 100) :
    Finite (rangeRatio a b) ∧ 0 ≤ value (rangeRatio a b) ∧ value (rangeRatio a b) ≤ 1 ∧
    |value (rangeRatio a b) - (value b - value a) / 100| ≤ (value b - value a) / 100 / 2 ^ 22 + 1 / 2 ^ 150 ∧
    (value a = value b → value (rangeRatio a b) = 0) := by
  have hd0 : 0 ≤ value b - value a := by linarith
  have hd : |value b - value a| < tooLarge F32 := by
    rw [abs_of_nonneg hd0]
    refine lt_of_le_of_lt ?_ large_float
    norm_num
    linarith
  have hsf := sub_finite hb ha hd
  have hse := sub_error hb ha hd
  have hsk := key_sub hb ha
  rw [abs_of_nonneg hd0] at hse
  have hk : key (rangeRatio a b) = rnd (fmt F32) (value (sub b a) / 100) := by
    have := key_div hsf hundred.1 (by rw [hundred.2]; norm_num)
    rw [hundred.2] at this
    exact this
  have hs0 : 0 ≤ value (sub b a) := by
    rw [value_key, hsk]
    exact fval_nonneg (rnd_nonneg hd0)
  have hs100 : value (sub b a) ≤ 100 := by
    rw [← hundred.2, value_key, value_key (ofInt 100), hsk, fval_le, ← rnd_value hundred.1, hundred.2]
    exact rnd_mono Lawful.good (by linarith)
  have hq0 : 0 ≤ value (sub b a) / 100 := div_nonneg hs0 (by norm_num)
  obtain ⟨hf, he⟩ := rounded_error hk (by
    rw [abs_of_nonneg hq0]
    refine lt_of_le_of_lt ?_ large_float
    norm_num
    linarith)
  refine ⟨hf, ?_, ?_, ?_, ?_⟩
  · rw [value_key, hk]
    exact fval_nonneg (rnd_nonneg hq0)
  · rw [← (ofInt_one (T := F32)).2, value_key, value_key (ofInt 1), hk, fval_le, ← rnd_value ofInt_one.1, ofInt_one.2]
    exact rnd_mono Lawful.good (by linarith)
  · rw [abs_of_nonneg hq0, smallest_float] at he
    rw [show Binary.frac F32 = 23 from rfl] at he hse
    have h2 := abs_sub_le (value (rangeRatio a b)) (value (sub b a) / 100) ((value b - value a) / 100)
    have h3 : |value (sub b a) / 100 - (value b - value a) / 100| ≤ (value b - value a) / 2 ^ 24 / 100 := by
      rw [← sub_div, abs_div, abs_of_pos (show (0 : ℚ) < 100 by norm_num)]
      exact div_le_div_of_nonneg_right hse (by norm_num)
    have h4 := (abs_le.1 hse).2
    norm_num at *
    linarith
  · intro h
    rw [value_key, hk, value_key (sub b a), hsk, h, sub_self, rnd_zero, fval_zero, zero_div, rnd_zero, fval_zero]

/-- Finite numbers are below the limit. -/
theorem finite_lt [FloType T] [Lawful T] {x : T} (hx : Finite x) : |value x| < tooLarge T :=
  (rnd_finite_iff (T := T) (q := value x)).1 (by rw [rnd_value hx, ← finite_key]; exact hx)

/-- A width times the part of the range: `d` is the width as it was computed, `D` the exact one. -/
theorem spread_product [FloType T] [Lawful T] {d r p : T} {D R u : ℚ} (hd : Finite d) (hr : Finite r) (hp : p = mul d r)
    (hD : 0 ≤ D) (hdD : |value d - D| ≤ D / 2 ^ 23) (hd0 : 0 ≤ value d) (hu : smallest T ≤ u)
    (hR : 0 ≤ R) (hr0 : 0 ≤ value r) (hr1 : value r ≤ 1) (hrR : |value r - R| ≤ R / 2 ^ 22 + 1 / 2 ^ 150) (hT : 23 ≤ Binary.frac T) :
    Finite p ∧ 0 ≤ value p ∧ |value p - D * R| ≤ D * R / 2 ^ 21 + D / 2 ^ 149 + u := by
  subst hp
  have hk := key_mul hd hr
  have hpp : 0 ≤ value d * value r := mul_nonneg hd0 hr0
  have hlt : |value d * value r| < tooLarge T := by
    rw [abs_of_nonneg hpp]
    have h1 := finite_lt hd
    rw [abs_of_nonneg hd0] at h1
    have h2 : value d * value r ≤ value d := mul_le_of_le_one_right hd0 hr1
    linarith
  obtain ⟨hf, he⟩ := rounded_error hk hlt
  refine ⟨hf, ?_, ?_⟩
  · rw [value_key, hk]
    exact fval_nonneg (rnd_nonneg hpp)
  · have hP : (2 : ℚ) ^ 24 ≤ 2 ^ (Binary.frac T + 1) := pow_le_pow_right₀ (by norm_num) (by omega)
    rw [abs_of_nonneg hpp] at he
    have h1 : value d * value r / 2 ^ (Binary.frac T + 1) ≤ value d * value r / 2 ^ 24 :=
      div_le_div_of_nonneg_left hpp (by norm_num) hP
    have h2 : |value d * value r - D * R| ≤ |value d - D| * value r + D * |value r - R| := by
      have : value d * value r - D * R = (value d - D) * value r + D * (value r - R) := by ring
      rw [this]
      refine le_trans (abs_add_le _ _) (le_of_eq ?_)
      rw [abs_mul, abs_mul, abs_of_nonneg hr0, abs_of_nonneg hD]
    have h3 : value r ≤ R + R / 2 ^ 22 + 1 / 2 ^ 150 := by linarith [(abs_le.1 hrR).2]
    have h4 : |value d - D| * value r ≤ D / 2 ^ 23 * (R + R / 2 ^ 22 + 1 / 2 ^ 150) :=
      mul_le_mul hdD h3 hr0 (by positivity)
    have h5 : D * |value r - R| ≤ D * (R / 2 ^ 22 + 1 / 2 ^ 150) := mul_le_mul_of_nonneg_left hrR hD
    have h6 : value d * value r ≤ (D + D / 2 ^ 23) * (R + R / 2 ^ 22 + 1 / 2 ^ 150) :=
      mul_le_mul (by linarith [(abs_le.1 hdD).2]) h3 hr0 (by positivity)
    have h7 := abs_sub_le (value (mul d r)) (value d * value r) (D * R)
    have h8 : 0 ≤ D * R := mul_nonneg hD hR
    have h9 := smallest_pos (T := T)
    have h10 : value d * value r / 2 ^ 24 ≤ (D + D / 2 ^ 23) * (R + R / 2 ^ 22 + 1 / 2 ^ 150) / 2 ^ 24 :=
      div_le_div_of_nonneg_right h6 (by norm_num)
    have e1 : D / 2 ^ 23 * (R + R / 2 ^ 22 + 1 / 2 ^ 150) = D * R * (1 / 2 ^ 23 + 1 / 2 ^ 45) + D * (1 / 2 ^ 173) := by ring
    have e2 : D * (R / 2 ^ 22 + 1 / 2 ^ 150) = D * R * (1 / 2 ^ 22) + D * (1 / 2 ^ 150) := by ring
    have e3 : (D + D / 2 ^ 23) * (R + R / 2 ^ 22 + 1 / 2 ^ 150) / 2 ^ 24
        = D * R * ((1 + 1 / 2 ^ 23) * (1 + 1 / 2 ^ 22) / 2 ^ 24) + D * ((1 + 1 / 2 ^ 23) / 2 ^ 174) := by ring
    rw [e1] at h4
    rw [e2] at h5
    rw [e3] at h10
    generalize D * R = A at *
    clear h3 h6 hrR hdD e1 e2 e3 hP
    norm_num at *
    linarith

end Feat.FloatMedian
