import Verif.Spec.FloatText
import Verif.Proofs.FloatText
import Mathlib.Tactic.SplitIfs
/-
The types of floating point numbers (specification) and their formats (model).
-/
namespace Feat.FloatText

/-- The type `T` is the format `F`. -/
structure Shape (T : Type) [Binary T] (F : Fmt) (of : Nat → T) : Prop where
  good : F.Good
  frac : Binary.frac T = F.frac
  exp : Binary.exp T = F.exp
  bits_lt : ∀ x : T, Binary.bits x < 2 * F.signBit
  bits_of : ∀ n, n < 2 * F.signBit → Binary.bits (of n) = n
  of_bits : ∀ x : T, of (Binary.bits x) = x

/-- The sign as a number. -/
def signOf (neg : Bool) : ℚ := if neg then -1 else 1

theorem signed_dist (neg : Bool) (a b : ℚ) : |signOf neg * a - signOf neg * b| = |a - b| := by
  unfold signOf
  cases neg
  · simp
  · simp only [if_true]
    rw [show (-1 : ℚ) * a - -1 * b = -(a - b) by ring, abs_neg]

/-- The other sign is farther. -/
theorem other_dist (neg neg' : Bool) {a b : ℚ} (ha : 0 ≤ a) (hb : 0 ≤ b) : |a - b| ≤ |signOf neg * a - signOf neg' * b| := by
  have h1 : |a - b| ≤ a + b := abs_le.2 ⟨by linarith, by linarith⟩
  unfold signOf
  cases neg <;> cases neg' <;> simp only [Bool.false_eq_true, if_false, if_true]
  · simp
  · rw [show (1 : ℚ) * a - -1 * b = a + b by ring]; exact le_trans h1 (le_abs_self _)
  · rw [show (-1 : ℚ) * a - 1 * b = -(a + b) by ring, abs_neg]; exact le_trans h1 (le_abs_self _)
  · rw [show (-1 : ℚ) * a - -1 * b = -(a - b) by ring, abs_neg]

theorem unit_dist (F : Fmt) (m : Nat) (q : ℚ) : |(F.mag m : ℚ) / 2 ^ F.scale - q| = |(F.mag m : ℚ) - q * 2 ^ F.scale| / 2 ^ F.scale := by
  have h : (0 : ℚ) < 2 ^ F.scale := by positivity
  rw [show |(F.mag m : ℚ) - q * 2 ^ F.scale| / 2 ^ F.scale = |(F.mag m : ℚ) - q * 2 ^ F.scale| / |2 ^ F.scale| by
    rw [abs_of_pos h], ← abs_div]
  congr 1
  field_simp

theorem inf_lt_sign {F : Fmt} (h : F.Good) : F.inf < F.signBit := by
  have := Fmt.inf_lt h
  have : 0 < 2 ^ F.frac := Nat.pow_pos (by norm_num)
  omega

section
variable {T : Type} [Binary T] {F : Fmt} {of : Nat → T}

/-- The bits without the sign. -/
def pattern (F : Fmt) (x : T) : Nat := Binary.bits x % F.signBit

theorem pattern_lt (F : Fmt) (x : T) : pattern F x < F.signBit := Nat.mod_lt _ (Nat.pow_pos (by norm_num))

namespace Shape
variable (B : Shape T F of)
include B

theorem exponent_eq (x : T) : exponent x = pattern F x / 2 ^ F.frac := by
  unfold exponent pattern Fmt.signBit
  rw [B.frac, B.exp, Nat.add_comm, pow_add, Nat.mod_mul_right_div_self]

theorem fraction_eq (x : T) : fraction x = pattern F x % 2 ^ F.frac := by
  unfold fraction pattern Fmt.signBit
  rw [B.frac, Nat.add_comm, pow_add, Nat.mod_mul_right_mod]

theorem negative_eq (x : T) : negative x = decide (F.signBit ≤ Binary.bits x) := by
  unfold negative Fmt.signBit
  rw [B.frac, B.exp]

theorem bits_eq (x : T) : Binary.bits x = (if negative x then F.signBit else 0) + pattern F x := by
  have h := B.bits_lt x
  rw [B.negative_eq]
  unfold pattern
  by_cases h1 : F.signBit ≤ Binary.bits x
  · rw [decide_eq_true h1, if_pos rfl, Nat.mod_eq_sub_mod h1, Nat.mod_eq_of_lt (by omega)]
    omega
  · rw [decide_eq_false h1, if_neg (by simp), Nat.mod_eq_of_lt (by omega), Nat.zero_add]

theorem of_pattern (neg : Bool) {m : Nat} (hm : m < F.signBit) :
    pattern F (of ((if neg then F.signBit else 0) + m)) = m ∧ negative (of ((if neg then F.signBit else 0) + m)) = neg := by
  rw [B.negative_eq]
  unfold pattern
  rw [B.bits_of _ (by split_ifs <;> omega)]
  cases neg
  · simp only [Bool.false_eq_true, if_false, Nat.zero_add]
    exact ⟨Nat.mod_eq_of_lt hm, decide_eq_false (by omega)⟩
  · simp only [if_true]
    exact ⟨by rw [Nat.add_mod_left, Nat.mod_eq_of_lt hm], decide_eq_true (by omega)⟩

theorem finite_iff (x : T) : Finite x ↔ pattern F x < F.inf := by
  unfold Finite
  rw [B.exponent_eq, B.exp]
  have hP : 0 < 2 ^ F.frac := Nat.pow_pos (by norm_num)
  have h1 : pattern F x / 2 ^ F.frac < 2 ^ F.exp := by
    rw [Nat.div_lt_iff_lt_mul hP, ← pow_add]
    exact pattern_lt F x
  unfold Fmt.inf
  rw [← Nat.div_lt_iff_lt_mul hP]
  omega

theorem bias_scale : ∃ c, bias T = c + 1 ∧ F.scale = c + F.frac ∧ 2 ^ F.exp - 4 = 2 * c := by
  unfold bias Fmt.scale
  rw [B.exp]
  have h3 := B.good.exp
  obtain ⟨w, hw⟩ : ∃ w, F.exp = w + 3 := ⟨F.exp - 3, by omega⟩
  rw [hw, show w + 3 - 1 = w + 2 by omega]
  have : 2 ^ (w + 3) = 2 * 2 ^ (w + 2) := by rw [pow_succ]; ring
  have h4 : 4 ≤ 2 ^ (w + 2) := by
    have := Nat.pow_le_pow_right (n := 2) (by norm_num) (show 2 ≤ w + 2 by omega)
    omega
  exact ⟨2 ^ (w + 2) - 2, by omega, by omega, by omega⟩

/-- The number, in terms of the pattern. -/
theorem value_eq (x : T) : value x = signOf (negative x) * ((F.mag (pattern F x) : ℚ) / 2 ^ F.scale) := by
  obtain ⟨c, hc, hs, _⟩ := B.bias_scale
  unfold value signOf
  congr 1
  rw [B.exponent_eq, B.fraction_eq, B.frac, hc, hs, pow_add]
  have hz : (1 : ℤ) - ((c + 1 : Nat) : ℤ) = -(c : ℤ) := by push_cast; ring
  unfold Fmt.mag
  by_cases h0 : pattern F x / 2 ^ F.frac = 0
  · have hm : pattern F x % 2 ^ F.frac = pattern F x := by
      apply Nat.mod_eq_of_lt
      rcases Nat.div_eq_zero_iff.1 h0 with h | h
      · have : 0 < 2 ^ F.frac := Nat.pow_pos (by norm_num)
        omega
      · exact h
    rw [if_pos h0, if_pos h0, hm, hz, zpow_neg, zpow_natCast]
    field_simp
  · rw [if_neg h0, if_neg h0]
    obtain ⟨e, he⟩ : ∃ e, pattern F x / 2 ^ F.frac = e + 1 := ⟨_, (Nat.succ_pred_eq_of_ne_zero h0).symm⟩
    rw [he, Nat.add_sub_cancel, show ((e + 1 : Nat) : ℤ) - ((c + 1 : Nat) : ℤ) = (e : ℤ) - c by push_cast; ring,
      zpow_sub₀ (by norm_num), zpow_natCast, zpow_natCast]
    push_cast
    field_simp

/-- The nearest pattern, with the sign, is the nearest number. -/
theorem nearest_of (neg : Bool) {q : ℚ} (hq : 0 ≤ q) {m : Nat} (hm : F.Near (q * 2 ^ F.scale) m) (hi : m < F.inf) :
    IsNearest (signOf neg * q) (of ((if neg then F.signBit else 0) + m)) := by
  have hsb : m < F.signBit := by
    have := inf_lt_sign B.good
    omega
  obtain ⟨hp, hn⟩ := B.of_pattern neg hsb
  have hpos : (0 : ℚ) < 2 ^ F.scale := by positivity
  have hbits : Binary.bits (of ((if neg then F.signBit else 0) + m)) = (if neg then F.signBit else 0) + m :=
    B.bits_of _ (by split_ifs <;> omega)
  generalize of ((if neg then F.signBit else 0) + m) = x at hp hn hbits
  have hx : |value x - signOf neg * q| = |(F.mag m : ℚ) / 2 ^ F.scale - q| := by
    rw [B.value_eq, hp, hn, signed_dist]
  have hy : ∀ y : T, |(F.mag (pattern F y) : ℚ) / 2 ^ F.scale - q| ≤ |value y - signOf neg * q| := by
    intro y
    rw [B.value_eq]
    exact other_dist _ _ (by positivity) hq
  have hmin : ∀ m', |(F.mag m : ℚ) / 2 ^ F.scale - q| ≤ |(F.mag m' : ℚ) / 2 ^ F.scale - q| := by
    intro m'
    rw [unit_dist F, unit_dist F]
    exact div_le_div_of_nonneg_right (hm m').1 hpos.le
  have heven : m % 2 = 0 → Binary.bits x % 2 = 0 := by
    intro h
    have h2 : F.signBit % 2 = 0 := by
      unfold Fmt.signBit
      obtain ⟨p, hp⟩ : ∃ p, F.exp + F.frac = p + 1 := ⟨F.exp + F.frac - 1, by have := B.good.frac; omega⟩
      rw [hp, pow_succ]
      omega
    rw [hbits]
    split_ifs <;> omega
  refine ⟨(B.finite_iff x).2 (by rw [hp]; exact hi), fun y _ => ?_, fun y _ he hne => heven ?_⟩
  · rw [hx]
    exact le_trans (hmin _) (hy y)
  · rw [hx] at he
    have h1 : |(F.mag (pattern F y) : ℚ) / 2 ^ F.scale - q| = |(F.mag m : ℚ) / 2 ^ F.scale - q| :=
      le_antisymm (le_trans (hy y) he.le) (hmin _)
    by_cases hpm : pattern F y = m
    · -- the same pattern with the other sign: then the number is zero
      exfalso
      rw [hpm] at h1
      have hv : value y = signOf (negative y) * ((F.mag m : ℚ) / 2 ^ F.scale) := by rw [B.value_eq, hpm]
      have hv' : value x = signOf neg * ((F.mag m : ℚ) / 2 ^ F.scale) := by rw [B.value_eq, hp, hn]
      have h0 := (hmin 0)
      have hz : (F.mag 0 : ℚ) = 0 := by simp [Fmt.mag]
      rw [hz, zero_div, zero_sub, abs_neg, abs_of_nonneg hq] at h0
      rw [hv, hv'] at hne
      rw [hv] at he
      have ha : (0 : ℚ) ≤ (F.mag m : ℚ) / 2 ^ F.scale := by positivity
      generalize (F.mag m : ℚ) / 2 ^ F.scale = a at *
      unfold signOf at he hne
      cases hny : negative y <;> cases neg <;> simp only [hny, Bool.false_eq_true, if_false, if_true] at he hne
      · exact hne rfl
      · rw [show (1 : ℚ) * a - -1 * q = a + q by ring, abs_of_nonneg (by linarith)] at he
        have : a = 0 := by rcases abs_cases (a - q) with ⟨b, b'⟩ | ⟨b, b'⟩ <;> linarith
        exact hne (by rw [this]; ring)
      · rw [show (-1 : ℚ) * a - 1 * q = -(a + q) by ring, abs_neg, abs_of_nonneg (by linarith)] at he
        have : a = 0 := by rcases abs_cases (a - q) with ⟨b, b'⟩ | ⟨b, b'⟩ <;> linarith
        exact hne (by rw [this]; ring)
      · exact hne rfl
    · refine (hm (pattern F y)).2 hpm ?_
      rw [unit_dist F, unit_dist F] at h1
      exact (div_left_inj' hpos.ne').1 h1

/-- The nearest number has the nearest pattern, unless it is the largest one. -/
theorem near_of {q : ℚ} {x : T} (h : IsNearest q x) (hmax : pattern F x < F.inf - 1) :
    F.Near (|q| * 2 ^ F.scale) (pattern F x) := by
  have hpos : (0 : ℚ) < 2 ^ F.scale := by positivity
  obtain ⟨neg, hneg⟩ : ∃ neg, q = signOf neg * |q| := by
    rcases le_total 0 q with h | h
    · exact ⟨false, by simp [signOf, abs_of_nonneg h]⟩
    · exact ⟨true, by simp [signOf, abs_of_nonpos h]⟩
  have hsb : ∀ m, m < F.inf → m < F.signBit := fun m hm => by
    have := inf_lt_sign B.good
    omega
  have hx : |(F.mag (pattern F x) : ℚ) - |q| * 2 ^ F.scale| / 2 ^ F.scale ≤ |value x - q| := by
    rw [← unit_dist F, B.value_eq]
    conv_rhs => rw [hneg]
    exact other_dist _ _ (by positivity) (abs_nonneg _)
  have hy : ∀ m, m < F.inf → |value (of ((if neg then F.signBit else 0) + m)) - q| =
      |(F.mag m : ℚ) - |q| * 2 ^ F.scale| / 2 ^ F.scale := by
    intro m hm
    obtain ⟨hp, hn⟩ := B.of_pattern neg (hsb m hm)
    rw [← unit_dist F, B.value_eq, hp, hn]
    conv_lhs => rw [hneg]
    exact signed_dist _ _ _
  have hfin : ∀ m, m < F.inf → Finite (of ((if neg then F.signBit else 0) + m)) := by
    intro m hm
    rw [B.finite_iff, (B.of_pattern neg (hsb m hm)).1]
    exact hm
  have hle : ∀ m, m < F.inf → |(F.mag (pattern F x) : ℚ) - |q| * 2 ^ F.scale| ≤ |(F.mag m : ℚ) - |q| * 2 ^ F.scale| := by
    intro m hm
    have := le_trans hx (h.least _ (hfin m hm))
    rw [hy m hm] at this
    exact (div_le_div_iff_of_pos_right hpos).1 this
  intro m'
  by_cases hm : m' < F.inf
  · refine ⟨hle m' hm, fun hne he => ?_⟩
    have h1 : |value x - q| = |value (of ((if neg then F.signBit else 0) + m')) - q| := by
      apply le_antisymm (h.least _ (hfin m' hm))
      rw [hy m' hm, he]
      exact hx
    have h2 := h.even _ (hfin m' hm) h1.symm (by
      obtain ⟨hp, hn⟩ := B.of_pattern neg (hsb m' hm)
      rw [B.value_eq, hp, hn, B.value_eq x]
      intro he
      apply hne
      apply F.mag_mono.injective
      have := congrArg abs he
      have hs : ∀ b, |signOf b| = 1 := by intro b; cases b <;> simp [signOf]
      rw [abs_mul, abs_mul, hs, hs, one_mul, one_mul, abs_of_nonneg (by positivity), abs_of_nonneg (by positivity),
        div_left_inj' hpos.ne'] at this
      exact_mod_cast this)
    rw [B.bits_eq] at h2
    have h3 : F.signBit % 2 = 0 := by
      unfold Fmt.signBit
      obtain ⟨p, hp⟩ : ∃ p, F.exp + F.frac = p + 1 := ⟨F.exp + F.frac - 1, by have := B.good.frac; omega⟩
      rw [hp, pow_succ]
      omega
    split_ifs at h2 <;> omega
  · have h1 := hle (F.inf - 1) (by have := Fmt.inf_pos B.good; omega)
    have l1 : (F.mag (pattern F x) : ℚ) < F.mag (F.inf - 1) := by exact_mod_cast F.mag_mono hmax
    have l2 : (F.mag (F.inf - 1) : ℚ) < F.mag m' := by
      exact_mod_cast F.mag_mono (by have := Fmt.inf_pos B.good; omega)
    have h2 : |(F.mag (pattern F x) : ℚ) - |q| * 2 ^ F.scale| < |(F.mag m' : ℚ) - |q| * 2 ^ F.scale| := by
      rcases abs_cases ((F.mag (pattern F x) : ℚ) - |q| * 2 ^ F.scale) with ⟨a, a'⟩ | ⟨a, a'⟩ <;>
        rcases abs_cases ((F.mag (F.inf - 1) : ℚ) - |q| * 2 ^ F.scale) with ⟨b, b'⟩ | ⟨b, b'⟩ <;>
        rcases abs_cases ((F.mag m' : ℚ) - |q| * 2 ^ F.scale) with ⟨c, c'⟩ | ⟨c, c'⟩ <;> linarith
    exact ⟨h2.le, fun _ he => absurd he h2.ne'⟩

theorem value_abs (x : T) : |value x| = (F.mag (pattern F x) : ℚ) / 2 ^ F.scale := by
  rw [B.value_eq, abs_mul]
  have : |signOf (negative x)| = 1 := by cases negative x <;> simp [signOf]
  rw [this, one_mul, abs_of_nonneg (by positivity)]

end Shape
end

end Feat.FloatText
