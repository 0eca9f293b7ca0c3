import Verif.Proofs.FloatSums
import Verif.Proofs.FloatMinMax
/-
Subtraction of close numbers is exact, and what adding the difference back and subtracting again costs.
-/
namespace Feat.FloatArith
open FloatText

/-- The difference of two numbers that are at most a factor 2 apart is a number. -/
theorem mag_sub (F : Fmt) {a b : Nat} (hab : b ≤ a) (h : F.mag a ≤ 2 * F.mag b) : ∃ m ≤ b, F.mag m = F.mag a - F.mag b := by
  have hP : 0 < 2 ^ F.frac := Nat.pow_pos (by norm_num)
  obtain ⟨s, n, hs, hn, hb⟩ : ∃ s n, (s = 0 ∨ (s + 1) * 2 ^ F.frac ≤ b) ∧ n ≤ 2 * 2 ^ F.frac ∧ F.mag b = n * 2 ^ s := by
    by_cases h0 : b / 2 ^ F.frac = 0
    · refine ⟨0, b, .inl rfl, ?_, by unfold Fmt.mag; rw [if_pos h0]; simp⟩
      rcases Nat.div_eq_zero_iff.1 h0 with h | h <;> omega
    · refine ⟨b / 2 ^ F.frac - 1, 2 ^ F.frac + b % 2 ^ F.frac, .inr ?_, ?_, by unfold Fmt.mag; rw [if_neg h0]⟩
      · rw [Nat.sub_add_cancel (Nat.pos_of_ne_zero h0)]
        exact Nat.div_mul_le_self _ _
      · have := Nat.mod_lt b hP
        omega
  obtain ⟨j, hj⟩ := F.mag_dvd s a (hs.imp id (fun h => h.trans hab))
  have e : F.mag a - F.mag b = (j - n) * 2 ^ s := by rw [hj, hb, Nat.sub_mul]
  have h2 : j ≤ 2 * n := by
    rw [hj, hb, ← Nat.mul_assoc] at h
    exact Nat.le_of_mul_le_mul_right h (Nat.pow_pos (by norm_num))
  obtain ⟨m, -, hm⟩ := mag_exists F s (j - n) (by omega)
  refine ⟨m, ?_, hm.trans e.symm⟩
  rw [← F.mag_mono.le_iff_le, hm, ← e]
  omega

variable {T : Type} [FloType T] [Lawful T]

theorem value_nonneg_eq {x : T} (h : 0 ≤ value x) : value x = (((fmt T).mag (pat x) : Nat) : ℚ) / 2 ^ (fmt T).scale := by
  rw [← abs_of_nonneg h]
  exact (shape T).value_abs x

theorem pat_le_of_value {x y : T} (hx : 0 ≤ value x) (h : value x ≤ value y) : pat x ≤ pat y := by
  have hy : 0 ≤ value y := hx.trans h
  rw [value_nonneg_eq hx, value_nonneg_eq hy, div_le_div_iff_of_pos_right (by positivity)] at h
  exact (fmt T).mag_mono.le_iff_le.1 (by exact_mod_cast h)

/-- Of two numbers of the same sign that are at most a factor 2 apart the difference is exact. -/
theorem sterbenz {x y : T} (hx : Finite x) (h0 : 0 ≤ value x) (h1 : value x ≤ value y) (h2 : value y ≤ 2 * value x) :
    ∃ d : T, Finite d ∧ value d = value y - value x := by
  have hp := pat_le_of_value h0 h1
  have e1 := value_nonneg_eq h0
  have e2 := value_nonneg_eq (h0.trans h1)
  have hm : (fmt T).mag (pat y) ≤ 2 * (fmt T).mag (pat x) := by
    rw [e1, e2, ← mul_div_assoc, div_le_div_iff_of_pos_right (by positivity)] at h2
    exact_mod_cast h2
  obtain ⟨m, h3, h4⟩ := mag_sub (fmt T) hp hm
  have hlt : m < (fmt T).signBit := lt_of_le_of_lt h3 (pat_lt x)
  refine ⟨make false m, ?_, ?_⟩
  · rw [finite_key, key_natAbs, make_pat false hlt]
    rw [finite_key, key_natAbs] at hx
    omega
  · rw [value_key, key_make false hlt, if_neg (by simp), fval_nat, e1, e2, h4,
      Nat.cast_sub ((fmt T).mag_mono.le_iff_le.2 hp), sub_div]

/-- Of ordered numbers either the difference is exact, or neither number is more than twice the difference. -/
theorem sub_exact_or {lo hi : T} (hlo : Finite lo) (hhi : Finite hi) (h : value lo ≤ value hi) :
    (∃ d : T, Finite d ∧ value d = value hi - value lo) ∨ |value hi| ≤ 2 * (value hi - value lo) := by
  rcases le_total 0 (value lo) with h0 | h0
  · by_cases h2 : value hi ≤ 2 * value lo
    · exact .inl (sterbenz hlo h0 h h2)
    · right
      rw [abs_of_nonneg (h0.trans h)]
      linarith
  · rcases le_total 0 (value hi) with h1 | h1
    · right
      rw [abs_of_nonneg h1]
      linarith
    · by_cases h2 : -value lo ≤ 2 * -value hi
      · obtain ⟨d, h3, h4⟩ := sterbenz (x := negate hi) (y := negate lo) (finite_negate.2 hhi) (by rw [value_negate]; linarith)
          (by rw [value_negate, value_negate]; linarith) (by rw [value_negate, value_negate]; exact h2)
        exact .inl ⟨d, h3, by rw [h4, value_negate, value_negate]; ring⟩
      · right
        rw [abs_of_nonpos h1]
        linarith

/-- Subtracting, adding back and subtracting again: the second difference is close to the first one. -/
theorem reload_span (hT : 10 ≤ Binary.frac T) {lo hi : T} (hlo : Finite lo) (hhi : Finite hi) (h : value lo ≤ value hi)
    (hs : 2 * (value hi - value lo) < tooLarge T) (h2 : 2 * value hi < tooLarge T) :
    Finite (sub hi lo) ∧ Finite (add lo (sub hi lo)) ∧ value lo ≤ value (add lo (sub hi lo)) ∧
      Finite (sub (add lo (sub hi lo)) lo) ∧
      |value (sub hi lo) - (value hi - value lo)| ≤ (value hi - value lo) / 2 ^ (Binary.frac T + 1) ∧
      |value (sub (add lo (sub hi lo)) lo) - value (sub hi lo)| ≤ 4 / 2 ^ (Binary.frac T + 1) * value (sub hi lo) := by
  have hu : (1 : ℚ) / 2 ^ (Binary.frac T + 1) ≤ 1 / 1024 := by
    refine one_div_le_one_div_of_le (by norm_num) ?_
    rw [show (1024 : ℚ) = 2 ^ 10 by norm_num]
    exact pow_le_pow_right₀ (by norm_num) (by omega)
  have hu0 : (0 : ℚ) < 1 / 2 ^ (Binary.frac T + 1) := by positivity
  have hd0 : 0 ≤ value hi - value lo := by linarith
  have f1 : Finite (sub hi lo) := by
    rw [finite_key, key_sub hhi hlo]
    exact rnd_finite (by rw [abs_of_nonneg hd0]; linarith)
  have e1 := FloatScalers.sub_error hhi hlo (by rw [abs_of_nonneg hd0]; linarith)
  rw [abs_of_nonneg hd0] at e1
  have n1 : 0 ≤ value (sub hi lo) := by
    rw [value_key, key_sub hhi hlo]
    exact fval_nonneg (rnd_nonneg hd0)
  have l1 : value lo ≤ value (add lo (sub hi lo)) := by
    rw [value_key (add lo (sub hi lo)), key_add hlo f1, value_key lo, fval_le (F := fmt T), ← value_key lo]
    have := rnd_mono (F := fmt T) Lawful.good (show value lo ≤ value lo + value (sub hi lo) by linarith)
    rwa [rnd_value hlo] at this
  generalize hu' : (1 : ℚ) / 2 ^ (Binary.frac T + 1) = u at hu hu0
  rw [show (4 : ℚ) / 2 ^ (Binary.frac T + 1) = 4 * u by rw [← hu']; ring]
  rw [show (value hi - value lo) / 2 ^ (Binary.frac T + 1) = (value hi - value lo) * u by rw [← hu']; ring] at e1 ⊢
  have e1' := abs_le.1 e1
  have hb : value lo + value (sub hi lo) < tooLarge T := by nlinarith
  have hbl : -tooLarge T < value lo + value (sub hi lo) := by
    have := (abs_lt.1 ((rnd_finite_iff (T := T)).1 (by rw [rnd_value hlo]; exact (finite_key lo).1 hlo))).1
    linarith
  obtain ⟨f2, e2⟩ := add_error hlo f1 (abs_lt.2 ⟨hbl, hb⟩)
  rw [show |value lo + value (sub hi lo)| / 2 ^ (Binary.frac T + 1) = |value lo + value (sub hi lo)| * u by rw [← hu']; ring] at e2
  rcases sub_exact_or hlo hhi h with ⟨d, hd, he⟩ | hbig
  · have hk : key (sub hi lo) = key d := by rw [key_sub hhi hlo, ← he, rnd_value hd]
    have hv : value (sub hi lo) = value hi - value lo := by rw [value_key, hk, ← value_key, he]
    have hka : key (add lo (sub hi lo)) = key hi := by
      rw [key_add hlo f1, hv, show value lo + (value hi - value lo) = value hi by ring, rnd_value hhi]
    have hva : value (add lo (sub hi lo)) = value hi := by rw [value_key, hka, ← value_key]
    have hk2 : key (sub (add lo (sub hi lo)) lo) = key (sub hi lo) := by
      rw [key_sub f2 hlo, key_sub hhi hlo, hva]
    refine ⟨f1, f2, l1, by rw [finite_key, hk2, ← finite_key]; exact f1, e1, ?_⟩
    rw [value_key, hk2, ← value_key, sub_self, abs_zero]
    positivity
  · generalize hD : value hi - value lo = D at *
    generalize hS : value (sub hi lo) = S at *
    generalize hM : value (add lo (sub hi lo)) = M at *
    have hab : |value lo + S| ≤ 2 * D + u * D := by
      rw [show value lo + S = value hi + (S - D) by rw [← hD]; ring]
      refine (abs_add_le _ _).trans ?_
      linarith
    have hm := abs_le.1 (e2.trans (mul_le_mul_of_nonneg_right hab hu0.le))
    have hDS : D ≤ 513 / 512 * S := by
      have hDu : u * D ≤ 1 / 1024 * D := mul_le_mul_of_nonneg_right hu hd0
      linarith only [hDu, e1'.1, mul_comm D u, hd0]
    have hDu : u * D ≤ 1 / 1024 * D := mul_le_mul_of_nonneg_right hu hd0
    have hDuu : u * (u * D) ≤ 1 / 1024 * (u * D) := mul_le_mul_of_nonneg_right hu (by positivity)
    have hML : M - value lo < tooLarge T := by linarith only [hm.2, hDu, hDuu, e1'.2, hs, hd0, mul_comm D u,
      show (2 * D + u * D) * u = 2 * (u * D) + u * (u * D) by ring]
    have e3 := FloatScalers.sub_error f2 hlo (by rw [hM, abs_of_nonneg (by linarith)]; exact hML)
    have f3 : Finite (sub (add lo (sub hi lo)) lo) := by
      rw [finite_key, key_sub f2 hlo]
      exact rnd_finite (by rw [hM, abs_of_nonneg (by linarith)]; exact hML)
    rw [hM, abs_of_nonneg (show 0 ≤ M - value lo by linarith),
      show (M - value lo) / 2 ^ (Binary.frac T + 1) = (M - value lo) * u by rw [← hu']; ring] at e3
    refine ⟨f1, f2, hM ▸ l1, f3, e1, ?_⟩
    have e3' := abs_le.1 e3
    have q1 : u * D ≤ 513 / 512 * (u * S) := by
      have := mul_le_mul_of_nonneg_left hDS hu0.le
      linarith only [this]
    have q5 : (2 * D + u * D) * u = 2 * (u * D) + u * (u * D) := by ring
    have q3 : (M - value lo) * u ≤ u * S + (2 * (u * D) + u * (u * D)) * u := by
      have : M - value lo ≤ S + (2 * (u * D) + u * (u * D)) := by linarith only [hm.2, q5]
      have := mul_le_mul_of_nonneg_right this hu0.le
      linarith only [this]
    have hud : 0 ≤ u * D := by positivity
    have q4 : (2 * (u * D) + u * (u * D)) * u ≤ 1 / 100 * (u * D) := by
      have w1 : 2 * (u * D) + u * (u * D) ≤ 3 * (u * D) := by linarith only [hDuu, hud]
      have w2 := mul_le_mul w1 hu hu0.le (by linarith only [hud])
      linarith only [w2, hud]
    have hus : 0 ≤ u * S := by positivity
    rw [abs_le]
    constructor
    · linarith only [e3'.1, hm.1, q1, q3, q4, q5, hDuu, hus, hud]
    · linarith only [e3'.2, hm.2, q1, q3, q4, q5, hDuu, hus, hud]

end Feat.FloatArith
