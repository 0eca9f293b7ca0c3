import Verif.Proofs.FloatSums
import Verif.Spec.FloatNorms
import Verif.Props.FloatMaxAbs
/-
The elements of a row divided by its norm.
-/
namespace Feat.FloatNorms
open FloatText FloatArith
variable {V : Type}

/-- What the proofs use of an input type. -/
structure NormLawful (k : NormInput V) (ok : V → Prop) (val : Reading V) : Prop where
  null : ∀ x, k.null x = (val x).isNone
  exact : ∀ x q, ok x → val x = some q → Finite (k.toL x) ∧ value (k.toL x) = q
  grid : ∀ x q, ok x → val x = some q → ∃ z : Int, q = z / 2 ^ 1074
  small : ∀ x q, ok x → val x = some q → |q| ≤ 2 ^ 1024

/-- A multiple of the unit exceeds the number it is rounded to by less than half a gap above that. -/
theorem rnd_upper {F : Fmt} (h : F.Good) {z : Int} (hz : 0 ≤ z) (hfin : (rnd F ((z : ℚ) / 2 ^ F.scale)).natAbs < F.inf) :
    (z : ℚ) / 2 ^ F.scale ≤ fval F (rnd F ((z : ℚ) / 2 ^ F.scale)) * (1 + 1 / 2 ^ (F.frac + 1)) := by
  have hP : (0 : ℚ) < 2 ^ F.scale := by positivity
  have hq : (0 : ℚ) ≤ (z : ℚ) / 2 ^ F.scale := div_nonneg (by exact_mod_cast hz) hP.le
  have hl := rnd_least h hfin
  have h0 := rnd_nonneg (F := F) hq
  generalize hqq : (z : ℚ) / 2 ^ F.scale = q at *
  obtain ⟨m, hm⟩ : ∃ m : Nat, rnd F q = m := ⟨(rnd F q).natAbs, by omega⟩
  rw [hm] at hl ⊢
  have hl := hl ((m + 1 : Nat) : Int)
  rw [fval_nat, fval_nat] at hl
  rw [fval_nat]
  have hs : (F.mag (m + 1) : ℚ) = F.mag m + 2 ^ (m / 2 ^ F.frac - 1) := by exact_mod_cast F.mag_succ m
  have e : q = q * 2 ^ F.scale / 2 ^ F.scale := by field_simp
  rw [e, ← sub_div, ← sub_div, abs_div, abs_div, div_le_div_iff_of_pos_right (by positivity), hs] at hl
  rw [e, div_mul_eq_mul_div, div_le_div_iff_of_pos_right hP]
  have hzq : q * 2 ^ F.scale = z := by rw [← hqq]; field_simp
  rw [hzq] at hl ⊢
  by_cases hle : (z : ℚ) ≤ F.mag m
  · have : (0 : ℚ) ≤ F.mag m * (1 / 2 ^ (F.frac + 1)) := by positivity
    linarith
  · push Not at hle
    rw [abs_of_neg (by linarith)] at hl
    have hmid : (z : ℚ) - F.mag m ≤ 2 ^ (m / 2 ^ F.frac - 1) / 2 := by
      rcases le_total (z : ℚ) (F.mag m + 2 ^ (m / 2 ^ F.frac - 1)) with h1 | h1
      · rw [abs_of_nonneg (by linarith)] at hl
        linarith
      · rw [abs_of_nonpos (by linarith)] at hl
        have : (0 : ℚ) < 2 ^ (m / 2 ^ F.frac - 1) := by positivity
        linarith
    by_cases he : m / 2 ^ F.frac ≤ 1
    · exfalso
      rw [show m / 2 ^ F.frac - 1 = 0 by omega, pow_zero] at hmid
      have h1 : (F.mag m : Int) < z := by exact_mod_cast hle
      have h2 : ((F.mag m : Int) : ℚ) + 1 ≤ z := by exact_mod_cast h1
      push_cast at h2
      linarith
    · have hmag : (2 : ℚ) ^ F.frac * 2 ^ (m / 2 ^ F.frac - 1) ≤ F.mag m := by
        have : 2 ^ F.frac * 2 ^ (m / 2 ^ F.frac - 1) ≤ F.mag m := by
          unfold Fmt.mag
          rw [if_neg (by omega)]
          exact Nat.mul_le_mul_right _ (Nat.le_add_right _ _)
        exact_mod_cast this
      have h1 : (2 : ℚ) ^ (m / 2 ^ F.frac - 1) / 2 ≤ F.mag m * (1 / 2 ^ (F.frac + 1)) := by
        rw [mul_one_div, le_div_iff₀ (by positivity), pow_succ]
        linarith
      linarith

/-- One and half of the gap above it, in `long double` and in `double`. -/
theorem rnd_tie : rnd (fmt F64) (1 + 1 / 2 ^ 53) = rnd (fmt F64) 1 := by decide +kernel

theorem long_tie : fval (fmt F80) (rnd (fmt F80) (1 + 1 / 2 ^ 53)) = 1 + 1 / 2 ^ 53 := by
  have e : (1 + 1 / 2 ^ 53 : ℚ) = fval (fmt F80) ((fmt F80).nearest (2 ^ 53 + 1) (2 ^ 53) : Nat) := by
    rw [fval_nat, show (fmt F80).mag ((fmt F80).nearest (2 ^ 53 + 1) (2 ^ 53)) = (2 ^ 53 + 1) * 2 ^ 16392 by decide +kernel,
      show (fmt F80).scale = 16445 by decide +kernel, show 16445 = 53 + 16392 by norm_num, pow_add]
    push_cast
    rw [mul_div_mul_right _ _ (by positivity)]
    norm_num
  rw [e, rnd_fval Lawful.good (by decide +kernel)]

theorem long_two : (2 : ℚ) < tooLarge F80 := by
  have h := ofInt_exact (T := F80) (z := 2) (by decide +kernel)
  have hk := key_ofInt (T := F80) 2
  have := (rnd_finite_iff (T := F80) (q := ((2 : Int) : ℚ))).1 (by rw [← hk, ← finite_key]; exact h.1)
  rw [show |((2 : Int) : ℚ)| = 2 by norm_num] at this
  exact this

section
variable {k : NormInput V} {ok : V → Prop} {val : Reading V} (L : NormLawful k ok val)
include L

omit L in
theorem quotient_null {n : F64} {x : V} (h : k.null x = true) : IsNaN (quotient k n x) := by
  unfold quotient
  rw [if_pos h, ← isNaN_iff]
  exact FloatScalers.isNaN_nan

theorem quotient_eq {n : F64} {x : V} {q : ℚ} (hv : val x = some q) :
    quotient k n x = FloatArith.cast (div (k.toL x) (FloatArith.cast n)) := by
  unfold quotient
  rw [if_neg (by rw [L.null, hv]; simp)]

/-- Division by infinity. -/
theorem quotient_inf {n : F64} (hn : isNaN n = false) (hi : isInf n = true) {x : V} {q : ℚ} (ho : ok x) (hv : val x = some q) :
    Finite (quotient k n x) ∧ value (quotient k n x) = 0 := by
  obtain ⟨hf, _⟩ := L.exact x q ho hv
  have e1 : (FloatArith.cast n : F80) = infinity (neg? n) := by
    unfold FloatArith.cast
    rw [hn, hi]; simp
  have hp : pat (infinity (neg? n) : F80) = (fmt F80).inf := make_pat _ (inf_lt_signBit F80)
  have h1 : isNaN (infinity (neg? n) : F80) = false := by
    unfold isNaN
    rw [hp]; simp
  have h2 : isInf (infinity (neg? n) : F80) = true := by
    unfold isInf
    rw [hp]; simp
  have e2 : ∃ b, div (k.toL x) (infinity (neg? n)) = zero b := by
    unfold div
    rw [h1, h2, Finite.not_nan hf, Finite.not_inf hf]
    exact ⟨_, rfl⟩
  obtain ⟨b, e2⟩ := e2
  rw [quotient_eq L hv, e1, e2]
  have hk : key (FloatArith.cast (zero b : F80) : F64) = 0 := by
    rw [key_cast (finite_zero b), value_zero, rnd_zero]
  refine ⟨?_, by rw [value_key, hk, fval_zero]⟩
  rw [finite_key, hk]
  exact inf_pos F64

/-- Zero divided by zero. -/
theorem quotient_zeros {n : F64} (hn : Finite n) (h0 : value n = 0) {x : V} (ho : ok x) (hv : val x = some 0) :
    IsNaN (quotient k n x) := by
  obtain ⟨hf, he⟩ := L.exact x 0 ho hv
  obtain ⟨hc, hcv⟩ := cast_exact (T := F80) hn
  have u1 : units (k.toL x) = 0 := by
    rw [units_eq_zero, ← fval_eq_zero (F := fmt F80), ← value_key, he]
  have u2 : units (FloatArith.cast n : F80) = 0 := by
    rw [units_eq_zero, ← fval_eq_zero (F := fmt F80), ← value_key, hcv, h0]
  have e : div (k.toL x) (FloatArith.cast n) = nan := by
    unfold div
    rw [Finite.not_nan hf, Finite.not_nan hc, Finite.not_inf hf, Finite.not_inf hc, u1, u2]
    rfl
  rw [quotient_eq L hv, e, ← isNaN_iff]
  have h1 : isNaN (nan : F80) = true := FloatScalers.isNaN_nan
  unfold FloatArith.cast
  rw [if_pos h1]
  exact FloatScalers.isNaN_nan

/-- The two roundings of a quotient. -/
theorem quotient_key {n : F64} (hn : Finite n) (h0 : 0 < value n) {x : V} {q : ℚ} (ho : ok x) (hv : val x = some q)
    (hq : |q / value n| ≤ 2) :
    (rnd (fmt F80) (q / value n)).natAbs < (fmt F80).inf ∧
    key (quotient k n x) = rnd (fmt F64) (fval (fmt F80) (rnd (fmt F80) (q / value n))) := by
  obtain ⟨hf, he⟩ := L.exact x q ho hv
  obtain ⟨hc, hcv⟩ := cast_exact (T := F80) hn
  have hfin := rnd_finite (T := F80) (lt_of_le_of_lt hq long_two)
  have hk := key_div hf hc (by rw [hcv]; exact h0.ne')
  rw [he, hcv] at hk
  have hd : Finite (div (k.toL x) (FloatArith.cast n)) := by
    rw [finite_key, hk]
    exact hfin
  refine ⟨hfin, ?_⟩
  rw [quotient_eq L hv, key_cast hd, value_key, hk]

/-- A number of the row divided by a norm that is at least the number, rounded. -/
theorem quotient_unit {n : F64} (hn : Finite n) (h0 : 0 < value n) {x : V} {q : ℚ} (ho : ok x) (hv : val x = some q)
    (hle : rnd (fmt F64) |q| ≤ key n) :
    |q / value n| ≤ 1 + 1 / 2 ^ 53 ∧ Finite (quotient k n x) ∧ |value (quotient k n x)| ≤ 1 := by
  have hb : |q / value n| ≤ 1 + 1 / 2 ^ 53 := by
    obtain ⟨z, hz⟩ := L.grid x q ho hv
    have hza : |q| = ((|z| : Int) : ℚ) / 2 ^ (fmt F64).scale := by
      rw [hz, abs_div, show (fmt F64).scale = 1074 by decide +kernel]
      push_cast
      rw [abs_of_pos (show (0 : ℚ) < 2 ^ 1074 by positivity)]
    have hfin : (rnd (fmt F64) |q|).natAbs < (fmt F64).inf := by
      have h1 := rnd_nonneg (F := fmt F64) (abs_nonneg q)
      have h2 := (finite_key n).1 hn
      omega
    have hu := rnd_upper (Lawful.good (T := F64)) (abs_nonneg z) (by rw [← hza]; exact hfin)
    rw [← hza, show (fmt F64).frac + 1 = 53 from rfl] at hu
    have hmono : fval (fmt F64) (rnd (fmt F64) |q|) ≤ value n := by rw [value_key]; exact fval_le.2 hle
    rw [abs_div, abs_of_pos h0, div_le_iff₀ h0]
    have := mul_le_mul_of_nonneg_right hmono (show (0 : ℚ) ≤ 1 + 1 / 2 ^ 53 by norm_num)
    linarith
  obtain ⟨hf, hk⟩ := quotient_key L hn h0 ho hv (le_trans hb (by norm_num))
  have hr : |rnd (fmt F64) (fval (fmt F80) (rnd (fmt F80) (q / value n)))| ≤ rnd (fmt F64) 1 := by
    have key : ∀ r : ℚ, r ≤ 1 + 1 / 2 ^ 53 → rnd (fmt F64) (fval (fmt F80) (rnd (fmt F80) r)) ≤ rnd (fmt F64) 1 := by
      intro r hr
      rw [← rnd_tie]
      refine rnd_mono Lawful.good ?_
      rw [← long_tie]
      exact fval_le.2 (rnd_mono Lawful.good hr)
    rw [abs_le] at hb ⊢
    constructor
    · have h1 := key (-(q / value n)) (by linarith)
      rw [rnd_neg Lawful.good, fval_neg, rnd_neg Lawful.good] at h1
      omega
    · exact key _ hb.2
  have h1 := FloatScalers.value_one
  rw [FloatScalers.rnd_one] at hr
  refine ⟨hb, ?_, ?_⟩
  · rw [finite_key, hk]
    have := (finite_key _).1 h1.1
    rw [Int.abs_eq_natAbs] at hr
    omega
  · rw [← hk, abs_le] at hr
    rw [← h1.2, value_key (quotient k n x), value_key (ofInt 1 : F64), abs_le, ← fval_neg]
    exact ⟨fval_le.2 hr.1, fval_le.2 hr.2⟩

/-- A row divided by a norm. -/
theorem row_normalized {row : List V} (hrow : ∀ x ∈ row, ok x) {n : F64} (hn : isNaN n = false)
    (hzero : (∀ q ∈ numbers val row, q = 0) → Finite n ∧ value n = 0)
    (hpos : (∃ q ∈ numbers val row, q ≠ 0) → 0 < key n ∧ ∀ q ∈ numbers val row, rnd (fmt F64) |q| ≤ key n) :
    Normalized val row (row.map (quotient k n)) := by
  have hget : ∀ (i : Nat) x y, row[i]? = some x → (row.map (quotient k n))[i]? = some y → x ∈ row ∧ y = quotient k n x := by
    intro i x y h1 h2
    rw [List.getElem?_map, h1] at h2
    simp only [Option.map_some, Option.some.injEq] at h2
    exact ⟨List.mem_of_getElem? h1, h2.symm⟩
  have hmem : ∀ x q, x ∈ row → val x = some q → q ∈ numbers val row := fun x q h1 h2 => List.mem_filterMap.2 ⟨x, h1, h2⟩
  -- finite or infinite
  have hcase : ∀ x q, x ∈ row → val x = some q → (∃ q ∈ numbers val row, q ≠ 0) →
      (isInf n = true ∨ (Finite n ∧ 0 < value n)) := by
    intro x q h1 h2 h3
    cases hi : isInf n
    · right
      have hf : Finite n := by
        rw [finite_key]
        have h4 := isNaN_false.1 hn
        have h5 := isInf_false.1 hi
        omega
      refine ⟨hf, ?_⟩
      rw [value_key, fval_pos]
      exact (hpos h3).1
    · exact .inl rfl
  refine ⟨by simp, ?_, ?_, ?_, ?_⟩
  · intro i x y h1 h2 h3
    obtain ⟨_, rfl⟩ := hget i x y h1 h2
    exact quotient_null (by rw [L.null, h3]; rfl)
  · intro hex i x y q h1 h2 h3
    obtain ⟨hx, rfl⟩ := hget i x y h1 h2
    rcases hcase x q hx h3 hex with hi | ⟨hf, h0⟩
    · obtain ⟨h4, h5⟩ := quotient_inf L hn hi (hrow x hx) h3
      rw [h5]
      exact ⟨h4, by norm_num, by norm_num⟩
    · obtain ⟨hb, h4, h5⟩ := quotient_unit L hf h0 (hrow x hx) h3 ((hpos hex).2 q (hmem x q hx h3))
      refine ⟨h4, h5, ?_⟩
      obtain ⟨_, hk⟩ := quotient_key L hf h0 (hrow x hx) h3 (le_trans hb (by norm_num))
      rw [value_key, hk]
      rcases le_total 0 q with hq | hq
      · exact mul_nonneg hq (fval_nonneg (rnd_nonneg (fval_nonneg (rnd_nonneg (div_nonneg hq h0.le)))))
      · have : 0 ≤ fval (fmt F64) (rnd (fmt F64) (fval (fmt F80) (rnd (fmt F80) (-(q / value n))))) :=
          fval_nonneg (rnd_nonneg (fval_nonneg (rnd_nonneg (by rw [← neg_div]; exact div_nonneg (by linarith) h0.le))))
        rw [rnd_neg Lawful.good, fval_neg, rnd_neg Lawful.good, fval_neg] at this
        nlinarith
  · intro hex i j x x' y y' q q' h1 h2 h1' h2' h3 h3' hle
    obtain ⟨hx, rfl⟩ := hget i x y h1 h2
    obtain ⟨hx', rfl⟩ := hget j x' y' h1' h2'
    rcases hcase x q hx h3 hex with hi | ⟨hf, h0⟩
    · rw [(quotient_inf L hn hi (hrow x hx) h3).2, (quotient_inf L hn hi (hrow x' hx') h3').2]
    · obtain ⟨hb, _⟩ := quotient_unit L hf h0 (hrow x hx) h3 ((hpos hex).2 q (hmem x q hx h3))
      obtain ⟨hb', _⟩ := quotient_unit L hf h0 (hrow x' hx') h3' ((hpos hex).2 q' (hmem x' q' hx' h3'))
      obtain ⟨_, hk⟩ := quotient_key L hf h0 (hrow x hx) h3 (le_trans hb (by norm_num))
      obtain ⟨_, hk'⟩ := quotient_key L hf h0 (hrow x' hx') h3' (le_trans hb' (by norm_num))
      rw [value_key, value_key, hk, hk']
      exact fval_le.2 (rnd_mono Lawful.good (fval_le.2 (rnd_mono Lawful.good (div_le_div_of_nonneg_right hle h0.le))))
  · intro hall y hy
    obtain ⟨x, hx, rfl⟩ := List.mem_map.1 hy
    cases hv : val x with
    | none => exact quotient_null (by rw [L.null, hv]; rfl)
    | some q =>
      have hq := hall q (hmem x q hx hv)
      subst hq
      obtain ⟨hf, h0⟩ := hzero hall
      exact quotient_zeros L hf h0 (hrow x hx) hv

/-- The distance of a computed quotient from the exact one. -/
theorem quotient_near {n : F64} (hn : Finite n) (h0 : 0 < value n) {x : V} {q : ℚ} (ho : ok x) (hv : val x = some q)
    (hle : rnd (fmt F64) |q| ≤ key n) : |value (quotient k n x) - q / value n| ≤ 1 / 2 ^ 51 := by
  obtain ⟨hb, hfin, _⟩ := quotient_unit L hn h0 ho hv hle
  obtain ⟨hf, hk⟩ := quotient_key L hn h0 ho hv (le_trans hb (by norm_num))
  have e1 := rnd_error (Lawful.good (T := F80)) hf
  have e2 := rnd_error (Lawful.good (T := F64)) (q := fval (fmt F80) (rnd (fmt F80) (q / value n))) (by
    rw [← hk, ← finite_key]; exact hfin)
  rw [← hk, ← value_key, show (fmt F64).frac + 1 = 53 from rfl] at e2
  rw [show (fmt F80).frac + 1 = 64 from rfl] at e1
  have w1 : (1 : ℚ) / 2 / 2 ^ (fmt F80).scale ≤ 1 / 2 ^ 63 := by
    rw [div_div, ← pow_succ']
    exact one_div_le_one_div_of_le (by positivity) (pow_le_pow_right₀ (by norm_num) (by decide +kernel))
  have w2 : (1 : ℚ) / 2 / 2 ^ (fmt F64).scale ≤ 1 / 2 ^ 63 := by
    rw [div_div, ← pow_succ']
    exact one_div_le_one_div_of_le (by positivity) (pow_le_pow_right₀ (by norm_num) (by decide +kernel))
  generalize value (quotient k n x) = y at *
  generalize fval (fmt F80) (rnd (fmt F80) (q / value n)) = d at *
  generalize q / value n = r at *
  have h1 : |d - r| ≤ 1 / 2 ^ 63 := by
    rcases e1 with h | h
    · linarith
    · refine le_trans h ?_
      rw [div_le_div_iff₀ (by positivity) (by positivity)]
      linarith
  have hd : |d| ≤ 2 := by
    have := abs_sub_abs_le_abs_sub d r
    have h3 : (1 : ℚ) / 2 ^ 63 ≤ 1 / 4 := by norm_num
    have h4 : (1 : ℚ) / 2 ^ 53 ≤ 1 / 4 := by norm_num
    linarith
  have h2 : |y - d| ≤ 1 / 2 ^ 52 := by
    rcases e2 with h | h
    · refine le_trans h (le_trans w2 (by norm_num))
    · refine le_trans h ?_
      rw [div_le_div_iff₀ (by positivity) (by positivity)]
      linarith
  have := abs_sub_le y d r
  have h3 : (1 : ℚ) / 2 ^ 63 + 1 / 2 ^ 52 ≤ 1 / 2 ^ 51 := by norm_num
  linarith

theorem row_near {row : List V} (hrow : ∀ x ∈ row, ok x) {n : F64} (hn : Finite n) {S ε : ℝ} (hS : 0 < S) (hε : 0 ≤ ε)
    (hε1 : ε ≤ 1 / 2) (hd : |(value n : ℝ) - S| ≤ S * ε)
    (hle : ∀ q ∈ numbers val row, rnd (fmt F64) |q| ≤ key n ∧ ((|q| : ℚ) : ℝ) ≤ S) :
    Near S (2 * ε + 1 / 2 ^ 51) val row (row.map (quotient k n)) := by
  intro i x y q h1 h2 hv
  rw [List.getElem?_map, h1] at h2
  simp only [Option.map_some, Option.some.injEq] at h2
  subst h2
  have hx := List.mem_of_getElem? h1
  obtain ⟨hk, hq⟩ := hle q (List.mem_filterMap.2 ⟨x, hx, hv⟩)
  obtain ⟨hpos, he⟩ := FloatScalers.quotient_error (n := ((|q| : ℚ) : ℝ)) (p := ((|q| : ℚ) : ℝ)) (δ := 0)
    (by exact_mod_cast abs_nonneg q) hq hS (le_refl _) hε (by linarith) (by simp) hd
  have hnear := quotient_near L hn (by exact_mod_cast hpos) (hrow x hx) hv hk
  have hnear' : |(value (quotient k n x) : ℝ) - q / value n| ≤ 1 / 2 ^ 51 := by
    have := (Rat.cast_le (K := ℝ)).2 hnear
    push_cast at this
    exact this
  have he' : |(q : ℝ) / value n - q / S| ≤ 2 * ε := by
    have e : |(q : ℝ) / value n - q / S| = |((|q| : ℚ) : ℝ) / value n - ((|q| : ℚ) : ℝ) / S| := by
      rcases le_total 0 q with h | h
      · rw [abs_of_nonneg h]
      · rw [abs_of_nonpos h]
        push_cast
        rw [show -(q : ℝ) / value n - -(q : ℝ) / S = -((q : ℝ) / value n - q / S) by ring, abs_neg]
    rw [e]
    refine le_trans he ?_
    rw [div_le_iff₀ (by linarith)]
    nlinarith
  have := abs_sub_le (value (quotient k n x) : ℝ) (q / value n) (q / S)
  linarith

/-- A row divided by what the updater commits. -/
theorem row_of_commit {row : List V} (hrow : ∀ x ∈ row, ok x) {c : F80} (hc : Finite c)
    (hzero : (∀ q ∈ numbers val row, q = 0) → value c = 0) (hle : ∀ q ∈ numbers val row, |q| ≤ value c) (hc0 : 0 ≤ value c) :
    FloatArith.lt (FloatArith.cast c : F64) (zero false) = false ∧
    Normalized val row (row.map (quotient k (FloatArith.cast c))) ∧
    ∀ S η : ℝ, 1 / 2 ^ 1000 ≤ S → S ≤ 2 ^ 1023 → 0 ≤ η → η ≤ 1 / 4 → |(value c : ℝ) - S| ≤ S * η →
      (∀ q ∈ numbers val row, ((|q| : ℚ) : ℝ) ≤ S) →
      Near S (2 * η + 1 / 2 ^ 50) val row (row.map (quotient k (FloatArith.cast c))) := by
  have hk : key (FloatArith.cast c : F64) = rnd (fmt F64) (value c) := key_cast hc
  have hkle : ∀ q ∈ numbers val row, rnd (fmt F64) |q| ≤ key (FloatArith.cast c : F64) := by
    intro q hq
    rw [hk]
    exact rnd_mono Lawful.good (hle q hq)
  have hn : isNaN (FloatArith.cast c : F64) = false := by
    rw [isNaN_false, hk]
    exact rnd_bound _
  refine ⟨?_, row_normalized L hrow hn ?_ ?_, ?_⟩
  · unfold FloatArith.lt
    rw [key_zero, hk, decide_eq_false (by have := rnd_nonneg (F := fmt F64) hc0; omega)]
    simp
  · intro hall
    have h0 := hzero hall
    rw [h0, rnd_zero] at hk
    refine ⟨?_, by rw [value_key, hk, fval_zero]⟩
    rw [finite_key, hk]
    exact inf_pos F64
  · rintro ⟨q, hq, hne⟩
    refine ⟨?_, hkle⟩
    refine lt_of_lt_of_le ?_ (hkle q hq)
    obtain ⟨x, hx, hv⟩ := List.mem_filterMap.1 hq
    obtain ⟨z, hz⟩ := L.grid x q (hrow x hx) hv
    have hza : |q| = ((|z| : Int) : ℚ) / 2 ^ (fmt F64).scale := by
      rw [hz, abs_div, show (fmt F64).scale = 1074 by decide +kernel]
      push_cast
      rw [abs_of_pos (show (0 : ℚ) < 2 ^ 1074 by positivity)]
    refine lt_of_le_of_ne (rnd_nonneg (abs_nonneg _)) (Ne.symm ?_)
    rw [hza, Ne, rnd_eq_zero_of_multiple Lawful.good, abs_eq_zero]
    rintro rfl
    exact hne (by rw [hz]; simp)
  · intro S η hS1 hS2 hη hη4 hd hq
    have hSpos : 0 < S := lt_of_lt_of_le (by positivity) hS1
    have hSη : S * η ≤ S * (1 / 4) := mul_le_mul_of_nonneg_left hη4 hSpos.le
    have hup : (value c : ℝ) ≤ S * (5 / 4) := by have := (abs_le.1 hd).2; linarith
    have hlow : S * (3 / 4) ≤ (value c : ℝ) := by have := (abs_le.1 hd).1; linarith
    have hbig : value c < tooLarge F64 := by
      have h1 : (value c : ℝ) ≤ ((2 ^ 1023 * (5 / 4) : ℚ) : ℝ) := by
        push_cast
        linarith
      have h2 : value c ≤ 2 ^ 1023 * (5 / 4) := (Rat.cast_le (K := ℝ)).1 h1
      refine lt_of_le_of_lt h2 ?_
      unfold tooLarge
      rw [show Binary.frac F64 = 52 from rfl, show ((bias F64 : Nat) : Int) = 1023 by decide +kernel,
        show (2 : ℚ) ^ (1023 - ((52 : Nat) : Int) - 1 : Int) = 2 ^ 970 from by
          rw [show (1023 - ((52 : Nat) : Int) - 1 : Int) = ((970 : Nat) : Int) by norm_num, zpow_natCast],
        show (2 : ℚ) ^ 1023 = 2 ^ 53 * 2 ^ 970 by rw [← pow_add]]
      have : (0 : ℚ) < 2 ^ 970 := by positivity
      generalize (2 : ℚ) ^ 970 = W at *
      norm_num
      linarith
    have hfr := rnd_finite (T := F64) (q := value c) (by rwa [abs_of_nonneg hc0])
    have hf : Finite (FloatArith.cast c : F64) := by rw [finite_key, hk]; exact hfr
    have herr : |(value (FloatArith.cast c : F64) : ℝ) - value c| ≤ S / 2 ^ 52 := by
      have w : (1 : ℚ) / 2 / 2 ^ (fmt F64).scale ≤ 1 / 2 ^ 1075 := by
        rw [div_div, ← pow_succ']
        exact one_div_le_one_div_of_le (by positivity) (pow_le_pow_right₀ (by norm_num) (by decide +kernel))
      have w' : (1 : ℝ) / 2 ^ 1075 ≤ S / 2 ^ 75 := by
        rw [le_div_iff₀ (by positivity)]
        refine le_trans (le_of_eq ?_) hS1
        rw [show (2 : ℝ) ^ 1075 = 2 ^ 1000 * 2 ^ 75 by rw [← pow_add]]
        field_simp
      have w'' : S / 2 ^ 75 ≤ S / 2 ^ 52 := div_le_div_of_nonneg_left hSpos.le (by positivity) (by norm_num)
      have e := rnd_error (Lawful.good (T := F64)) hfr
      rw [← hk, ← value_key, show (fmt F64).frac + 1 = 53 from rfl, abs_of_nonneg hc0] at e
      rcases e with e | e
      · have := (Rat.cast_le (K := ℝ)).2 (le_trans e w)
        push_cast at this
        linarith
      · have := (Rat.cast_le (K := ℝ)).2 e
        push_cast at this
        refine le_trans this ?_
        rw [div_le_div_iff₀ (by positivity) (by positivity)]
        have h53 : (2 : ℝ) ^ 53 = 2 * 2 ^ 52 := by norm_num
        rw [h53]
        nlinarith
    have := row_near L hrow hf (S := S) (ε := η + 1 / 2 ^ 52) hSpos (by positivity)
      (by have : (1 : ℝ) / 2 ^ 52 ≤ 1 / 4 := by norm_num
          linarith)
      (by have h1 := abs_sub_le (value (FloatArith.cast c : F64) : ℝ) (value c) S
          have h2 : S * (η + 1 / 2 ^ 52) = S * η + S / 2 ^ 52 := by ring
          linarith) (fun q h => ⟨hkle q h, hq q h⟩)
    intro i x y q h1 h2 h3
    refine le_trans (this i x y q h1 h2 h3) ?_
    have : 2 * (η + 1 / 2 ^ 52) + 1 / 2 ^ 51 = 2 * η + 1 / 2 ^ 50 := by ring
    linarith

end

end Feat.FloatNorms
