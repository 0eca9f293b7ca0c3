import Verif.Spec.FloatScalers
import Verif.Proofs.FloatArith
/-
The arithmetic of the model is that of IEEE 754: each operation on finite numbers yields the exact result, rounded.
-/
namespace Feat.FloatArith
open FloatText FloatScalers
section
variable {T : Type} [FloType T] [Lawful T]

/-- A number at the place of the rounded `q`, with the sign of `q` if it is infinite. -/
theorem rounded_of_key {x : T} {q : ℚ} (hk : key x = rnd (fmt T) q) : Rounded q x := by
  have hf : (rnd (fmt T) q).natAbs < (fmt T).inf ↔ |q| < tooLarge T := rnd_finite_iff
  constructor
  · intro h
    exact nearest_of_key hk (by rw [finite_key, hk]; exact hf.2 h)
  · intro h
    have h1 : ¬ (rnd (fmt T) q).natAbs < (fmt T).inf := fun hh => absurd (hf.1 hh) (not_lt.2 h)
    have h2 := rnd_bound (F := fmt T) q
    have h3 : (key x).natAbs = (fmt T).inf := by rw [hk]; omega
    refine ⟨(isInf_iff x).1 (by unfold isInf; rw [decide_eq_true_iff, ← key_natAbs, h3]), ?_⟩
    rw [← neg?_eq]
    have hp := inf_pos T
    have hp' : pat x = (fmt T).inf := by rw [← key_natAbs, h3]
    unfold key at hk
    rw [hp'] at hk
    unfold rnd at hk
    by_cases hq : q < 0
    · rw [if_pos hq] at hk
      rw [decide_eq_true hq]
      cases hn : neg? x
      · rw [hn] at hk
        simp only [Bool.false_eq_true, if_false] at hk
        omega
      · rfl
    · rw [if_neg hq] at hk
      rw [decide_eq_false hq]
      cases hn : neg? x
      · rfl
      · rw [hn] at hk
        simp only [if_true] at hk
        omega

/-- Addition. -/
theorem add_rounded {x y : T} (hx : Finite x) (hy : Finite y) : Rounded (value x + value y) (add x y) :=
  rounded_of_key (key_add hx hy)

/-- Subtraction. -/
theorem sub_rounded {x y : T} (hx : Finite x) (hy : Finite y) : Rounded (value x - value y) (sub x y) :=
  rounded_of_key (key_sub hx hy)

/-- Multiplication. -/
theorem mul_rounded {x y : T} (hx : Finite x) (hy : Finite y) : Rounded (value x * value y) (mul x y) :=
  rounded_of_key (key_mul hx hy)

/-- Division. -/
theorem div_rounded {x y : T} (hx : Finite x) (hy : Finite y) (h0 : value y ≠ 0) : Rounded (value x / value y) (div x y) :=
  rounded_of_key (key_div hx hy h0)

/-- Conversion from another floating point type. -/
theorem cast_rounded {S : Type} [FloType S] [Lawful S] {x : S} (hx : Finite x) : Rounded (value x) (cast x : T) :=
  rounded_of_key (key_cast hx)

/-- Conversion from an integer. -/
theorem ofInt_rounded (z : Int) : Rounded (z : ℚ) (ofInt z : T) := rounded_of_key (key_ofInt z)

end

/-! Non-vacuity: 0.1 + 0.2 as `double` is 0.30000000000000004. -/
example : (add ⟨4591870180066957722⟩ ⟨4596373779694328218⟩ : F64) = ⟨4599075939470750516⟩ ∧
    Finite (⟨4591870180066957722⟩ : F64) ∧ Finite (⟨4596373779694328218⟩ : F64) :=
  ⟨by decide +kernel, by unfold Finite exponent; decide +kernel, by unfold Finite exponent; decide +kernel⟩

/-! Infinities, signed zeros and NaN. -/
example : (sub (infinity false) (infinity false) : F64) = nan ∧ (div (ofInt 1) (zero true) : F64) = infinity true ∧
    (mul (zero false) (infinity true) : F32) = nan ∧ (add (zero true) (zero true) : F32) = zero true ∧
    (add largest largest : F64) = infinity false ∧ lt (nan : F64) nan = false ∧ eq (nan : F64) nan = false ∧
    eq (zero true : F64) (zero false) = true := by
  decide +kernel

end Feat.FloatArith
