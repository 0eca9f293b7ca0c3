import Verif.Model.FloatArith
import Verif.Proofs.FloatShape
/-
Floating point arithmetic as rounding of exact results.
-/
namespace Feat.FloatArith
open FloatText

/-! ### Rounding of rational numbers -/

/-- The number at a place in the order. -/
def fval (F : Fmt) (k : Int) : ℚ := if k < 0 then -((F.mag k.natAbs : ℚ) / 2 ^ F.scale) else (F.mag k.natAbs : ℚ) / 2 ^ F.scale

/-- The place of the rounded number. -/
def rnd (F : Fmt) (q : ℚ) : Int :=
  if q < 0 then -((min (F.nearest q.num.natAbs q.den) F.inf : Nat) : Int) else (min (F.nearest q.num.natAbs q.den) F.inf : Nat)

section
variable {F : Fmt}

theorem mag_zero : F.mag 0 = 0 := by simp [Fmt.mag]

theorem fval_zero : fval F 0 = 0 := by simp [fval, mag_zero]

theorem fval_neg (k : Int) : fval F (-k) = -fval F k := by
  unfold fval
  rcases lt_trichotomy k 0 with h | rfl | h
  · rw [if_neg (by omega), if_pos h, Int.natAbs_neg, neg_neg]
  · simp [mag_zero]
  · rw [if_pos (by omega), if_neg (by omega), Int.natAbs_neg]

theorem fval_nat (m : Nat) : fval F m = (F.mag m : ℚ) / 2 ^ F.scale := by
  unfold fval
  rw [if_neg (by omega), Int.natAbs_natCast]

theorem fval_nonneg {k : Int} (h : 0 ≤ k) : 0 ≤ fval F k := by
  unfold fval
  rw [if_neg (by omega)]
  positivity

theorem fval_mono : StrictMono (fval F) := by
  have hpos : (0 : ℚ) < 2 ^ F.scale := by positivity
  have key : ∀ a b : Nat, a < b → fval F a < fval F b := by
    intro a b h
    rw [fval_nat, fval_nat]
    have : (F.mag a : ℚ) < F.mag b := by exact_mod_cast F.mag_mono h
    exact div_lt_div_of_pos_right this hpos
  intro a b h
  rcases lt_or_ge a 0 with ha | ha
  · rcases lt_or_ge b 0 with hb | hb
    · obtain ⟨m, rfl⟩ : ∃ m : Nat, a = -(m : Int) := ⟨a.natAbs, by omega⟩
      obtain ⟨n, rfl⟩ : ∃ m : Nat, b = -(m : Int) := ⟨b.natAbs, by omega⟩
      rw [fval_neg, fval_neg]
      have := key n m (by omega)
      linarith
    · obtain ⟨m, rfl⟩ : ∃ m : Nat, a = -(m : Int) := ⟨a.natAbs, by omega⟩
      have h1 := key 0 m (by omega)
      rw [Nat.cast_zero, fval_zero] at h1
      rw [fval_neg]
      have := fval_nonneg (F := F) hb
      linarith
  · obtain ⟨m, rfl⟩ : ∃ m : Nat, a = m := ⟨a.toNat, by omega⟩
    obtain ⟨n, rfl⟩ : ∃ m : Nat, b = m := ⟨b.toNat, by omega⟩
    exact key m n (by omega)

theorem fval_le {a b : Int} : fval F a ≤ fval F b ↔ a ≤ b := fval_mono.le_iff_le
theorem fval_lt {a b : Int} : fval F a < fval F b ↔ a < b := fval_mono.lt_iff_lt
theorem fval_inj {a b : Int} : fval F a = fval F b ↔ a = b := fval_mono.injective.eq_iff
theorem fval_eq_zero {a : Int} : fval F a = 0 ↔ a = 0 := by rw [← fval_zero (F := F), fval_inj]
theorem fval_pos {a : Int} : 0 < fval F a ↔ 0 < a := by rw [← fval_zero (F := F), fval_lt]

theorem near_rat (h : F.Good) (q : ℚ) : F.Near (|q| * 2 ^ F.scale) (F.nearest q.num.natAbs q.den) := by
  have := F.nearest_spec (by have := h.frac; omega) q.num.natAbs q.den q.den_pos
  rwa [show |q| * 2 ^ F.scale = ((q.num.natAbs : Nat) : ℚ) * 2 ^ F.scale / (q.den : ℚ) by
    rw [mul_div_right_comm]
    congr 1
    rw [Nat.cast_natAbs, Int.cast_abs]
    conv_lhs => rw [← Rat.num_div_den q]
    rw [abs_div, Nat.abs_cast]]

theorem rnd_neg (_h : F.Good) (q : ℚ) : rnd F (-q) = -rnd F q := by
  unfold rnd
  rw [Rat.neg_num, Int.natAbs_neg, Rat.neg_den]
  rcases lt_trichotomy q 0 with h1 | rfl | h1
  · rw [if_neg (by linarith), if_pos h1, neg_neg]
  · simp [Fmt.nearest_zero]
  · rw [if_pos (by linarith), if_neg (by linarith)]

theorem rnd_nonneg {q : ℚ} (hq : 0 ≤ q) : 0 ≤ rnd F q := by
  unfold rnd
  rw [if_neg (by linarith)]
  omega

/-- The rounding of non-negative numbers. -/
theorem rnd_of_near (h : F.Good) {q : ℚ} (hq : 0 ≤ q) {m : Nat} (hm : F.Near (q * 2 ^ F.scale) m) :
    rnd F q = (min m F.inf : Nat) := by
  have h1 := near_rat h q
  rw [abs_of_nonneg hq] at h1
  unfold rnd
  rw [if_neg (by linarith), h1.unique hm]

theorem rnd_near (h : F.Good) {q : ℚ} (hq : 0 ≤ q) : ∃ m, F.Near (q * 2 ^ F.scale) m ∧ rnd F q = (min m F.inf : Nat) := by
  have h1 := near_rat h q
  rw [abs_of_nonneg hq] at h1
  exact ⟨_, h1, rnd_of_near h hq h1⟩

theorem rnd_mono (h : F.Good) : Monotone (rnd F) := by
  have key : ∀ p q : ℚ, 0 ≤ p → p ≤ q → rnd F p ≤ rnd F q := by
    intro p q hp hpq
    obtain ⟨m, hm, e⟩ := rnd_near h hp
    obtain ⟨m', hm', e'⟩ := rnd_near h (le_trans hp hpq)
    have := hm.mono hm' (mul_le_mul_of_nonneg_right hpq (by positivity))
    rw [e, e']
    omega
  intro p q hpq
  rcases le_total 0 p with hp | hp
  · exact key p q hp hpq
  · rcases le_total 0 q with hq | hq
    · have h1 := rnd_nonneg (F := F) (show 0 ≤ -p by linarith)
      rw [rnd_neg h] at h1
      have := rnd_nonneg (F := F) hq
      omega
    · have := key (-q) (-p) (by linarith) (by linarith)
      rw [rnd_neg h, rnd_neg h] at this
      omega

theorem rnd_fval (h : F.Good) {k : Int} (hk : k.natAbs ≤ F.inf) : rnd F (fval F k) = k := by
  have key : ∀ m : Nat, m ≤ F.inf → rnd F (fval F m) = m := by
    intro m hm
    have h1 : F.Near (fval F m * 2 ^ F.scale) m := by
      rw [fval_nat, div_mul_cancel₀ _ (by positivity)]
      exact Fmt.near_self m
    rw [rnd_of_near h (fval_nonneg (by omega)) h1, Nat.min_eq_left hm]
  rcases le_total 0 k with h0 | h0
  · obtain ⟨m, rfl⟩ : ∃ m : Nat, k = m := ⟨k.toNat, by omega⟩
    exact key m (by omega)
  · obtain ⟨m, rfl⟩ : ∃ m : Nat, k = -(m : Int) := ⟨k.natAbs, by omega⟩
    rw [fval_neg, rnd_neg h, key m (by omega)]

theorem rnd_zero : rnd F 0 = 0 := by
  simp [rnd, Fmt.nearest_zero]

theorem rnd_bound (q : ℚ) : (rnd F q).natAbs ≤ F.inf := by
  unfold rnd
  split_ifs <;> omega

/-- No number is nearer than the rounded one. -/
theorem rnd_least (h : F.Good) {q : ℚ} (hfin : (rnd F q).natAbs < F.inf) (k : Int) : |fval F (rnd F q) - q| ≤ |fval F k - q| := by
  have key : ∀ q : ℚ, 0 ≤ q → (rnd F q).natAbs < F.inf → ∀ k, |fval F (rnd F q) - q| ≤ |fval F k - q| := by
    intro q hq hfin k
    obtain ⟨m, hm, e⟩ := rnd_near h hq
    rw [e] at hfin ⊢
    rw [Nat.min_eq_left (by omega), fval_nat, unit_dist]
    have h1 : |(F.mag k.natAbs : ℚ) / 2 ^ F.scale - q| ≤ |fval F k - q| := by
      unfold fval
      split_ifs
      · have : (0 : ℚ) ≤ (F.mag k.natAbs : ℚ) / 2 ^ F.scale := by positivity
        generalize (F.mag k.natAbs : ℚ) / 2 ^ F.scale = a at *
        rw [show |-a - q| = a + q by rw [show -a - q = -(a + q) by ring, abs_neg, abs_of_nonneg (by linarith)]]
        exact abs_le.2 ⟨by linarith, by linarith⟩
      · exact le_refl _
    refine le_trans ?_ h1
    rw [unit_dist]
    exact div_le_div_of_nonneg_right (hm _).1 (by positivity)
  rcases le_total 0 q with hq | hq
  · exact key q hq hfin k
  · have := key (-q) (by linarith) (by rw [rnd_neg h]; omega) (-k)
    rw [rnd_neg h, fval_neg, fval_neg] at this
    rwa [show -fval F (rnd F q) - -q = -(fval F (rnd F q) - q) by ring, abs_neg,
      show -fval F k - -q = -(fval F k - q) by ring, abs_neg] at this

theorem rnd_eq_zero_of_multiple (h : F.Good) {z : Int} : rnd F ((z : ℚ) / 2 ^ F.scale) = 0 ↔ z = 0 := by
  constructor
  · intro h0
    have hi := Fmt.inf_pos h
    by_contra hz
    have h1 : fval F 1 = 1 / 2 ^ F.scale := by
      have : F.mag 1 = 1 := by
        have := h.frac
        unfold Fmt.mag
        rw [if_pos (Nat.div_eq_of_lt (Nat.one_lt_two_pow (by omega)))]
      rw [show (1 : Int) = ((1 : Nat) : Int) from rfl, fval_nat, this]
      simp
    have h2 : rnd F (fval F 1) = 1 := rnd_fval h (by show 1 ≤ F.inf; omega)
    rcases lt_or_gt_of_ne hz with hz | hz
    · have : ((z : ℚ)) / 2 ^ F.scale ≤ -(fval F 1) := by
        rw [h1, ← neg_div]
        exact div_le_div_of_nonneg_right (by exact_mod_cast (by omega : z ≤ -1)) (by positivity)
      have := rnd_mono h this
      rw [rnd_neg h, h2, h0] at this
      omega
    · have : fval F 1 ≤ ((z : ℚ)) / 2 ^ F.scale := by
        rw [h1]
        exact div_le_div_of_nonneg_right (by exact_mod_cast (by omega : 1 ≤ z)) (by positivity)
      have := rnd_mono h this
      rw [h2, h0] at this
      omega
  · rintro rfl
    simp [rnd_zero]

/-! ### Errors -/

theorem near_error {t : ℚ} {m : Nat} (hm : F.Near t m) (ht : 0 ≤ t) :
    |(F.mag m : ℚ) - t| ≤ 1 / 2 ∨ |(F.mag m : ℚ) - t| * 2 ^ (F.frac + 1) ≤ t := by
  -- between the patterns `a` and `a + 1`
  have step : ∀ a : Nat, (F.mag a : ℚ) ≤ t → t ≤ F.mag (a + 1) → (m = a ∨ m = a + 1) →
      |(F.mag m : ℚ) - t| ≤ 1 / 2 ∨ |(F.mag m : ℚ) - t| * 2 ^ (F.frac + 1) ≤ t := by
    intro a h1 h2 hma
    have hs := F.mag_succ a
    have hs' : (F.mag (a + 1) : ℚ) = F.mag a + 2 ^ (a / 2 ^ F.frac - 1) := by exact_mod_cast hs
    have hd : |(F.mag m : ℚ) - t| ≤ 2 ^ (a / 2 ^ F.frac - 1) / 2 := by
      have n1 := (hm a).1
      have n2 := (hm (a + 1)).1
      rw [abs_of_nonpos (show (F.mag a : ℚ) - t ≤ 0 by linarith)] at n1
      rw [abs_of_nonneg (show 0 ≤ (F.mag (a + 1) : ℚ) - t by linarith), hs'] at n2
      linarith
    by_cases he : a / 2 ^ F.frac ≤ 1
    · left
      rw [show a / 2 ^ F.frac - 1 = 0 by omega] at hd
      linarith
    · right
      have hmag : (2 : ℚ) ^ F.frac * 2 ^ (a / 2 ^ F.frac - 1) ≤ F.mag a := by
        have : 2 ^ F.frac * 2 ^ (a / 2 ^ F.frac - 1) ≤ F.mag a := by
          unfold Fmt.mag
          rw [if_neg (by omega)]
          exact Nat.mul_le_mul_right _ (Nat.le_add_right _ _)
        exact_mod_cast this
      rw [pow_succ]
      have := mul_le_mul_of_nonneg_right hd (show (0 : ℚ) ≤ 2 ^ F.frac * 2 by positivity)
      refine le_trans this (le_trans (le_of_eq ?_) (le_trans hmag h1))
      ring
  rcases le_total (F.mag m : ℚ) t with h | h
  · by_cases h' : t ≤ F.mag (m + 1)
    · exact step m h h' (.inl rfl)
    · exfalso
      have n2 := (hm (m + 1)).1
      have l : (F.mag m : ℚ) < F.mag (m + 1) := by exact_mod_cast F.mag_mono (Nat.lt_succ_self m)
      rw [abs_of_nonpos (by linarith), abs_of_nonpos (by linarith)] at n2
      linarith
  · cases m with
    | zero =>
      left
      rw [mag_zero, Nat.cast_zero] at h ⊢
      rw [show t = 0 by linarith]
      norm_num
    | succ a =>
      by_cases h' : (F.mag a : ℚ) ≤ t
      · exact step a h' h (.inr rfl)
      · exfalso
        have n2 := (hm a).1
        have l : (F.mag a : ℚ) < F.mag (a + 1) := by exact_mod_cast F.mag_mono (Nat.lt_succ_self a)
        rw [abs_of_nonneg (by linarith), abs_of_nonneg (by linarith)] at n2
        linarith

/-- The error of rounding: half a unit, or relative. -/
theorem rnd_error (h : F.Good) {q : ℚ} (hfin : (rnd F q).natAbs < F.inf) :
    |fval F (rnd F q) - q| ≤ 1 / 2 / 2 ^ F.scale ∨ |fval F (rnd F q) - q| ≤ |q| / 2 ^ (F.frac + 1) := by
  have key : ∀ q : ℚ, 0 ≤ q → (rnd F q).natAbs < F.inf →
      |fval F (rnd F q) - q| ≤ 1 / 2 / 2 ^ F.scale ∨ |fval F (rnd F q) - q| ≤ |q| / 2 ^ (F.frac + 1) := by
    intro q hq hfin
    obtain ⟨m, hm, e⟩ := rnd_near h hq
    rw [e] at hfin ⊢
    rw [Nat.min_eq_left (by omega), fval_nat, unit_dist, abs_of_nonneg hq]
    rcases near_error hm (by positivity) with h1 | h1
    · left
      exact div_le_div_of_nonneg_right h1 (by positivity)
    · right
      rw [div_le_div_iff₀ (by positivity) (by positivity)]
      exact h1
  rcases le_total 0 q with hq | hq
  · exact key q hq hfin
  · have := key (-q) (by linarith) (by rw [rnd_neg h]; omega)
    rw [rnd_neg h, fval_neg, abs_neg q] at this
    rwa [show -fval F (rnd F q) - -q = -(fval F (rnd F q) - q) by ring, abs_neg] at this

/-- The error of rounding a multiple of the unit is relative. -/
theorem rnd_error_int (h : F.Good) {z : Int} (hfin : (rnd F ((z : ℚ) / 2 ^ F.scale)).natAbs < F.inf) :
    |fval F (rnd F ((z : ℚ) / 2 ^ F.scale)) - (z : ℚ) / 2 ^ F.scale| ≤ |(z : ℚ) / 2 ^ F.scale| / 2 ^ (F.frac + 1) := by
  rcases rnd_error h hfin with h1 | h1
  · have hint : ∃ w : Int, fval F (rnd F ((z : ℚ) / 2 ^ F.scale)) = (w : ℚ) / 2 ^ F.scale := by
      unfold fval
      split_ifs
      · exact ⟨-(F.mag _ : Int), by push_cast; ring⟩
      · exact ⟨(F.mag _ : Int), by push_cast; ring⟩
    obtain ⟨w, hw⟩ := hint
    rw [hw] at h1 ⊢
    rw [← sub_div, abs_div, abs_of_pos (show (0 : ℚ) < 2 ^ F.scale by positivity),
      div_le_div_iff_of_pos_right (by positivity)] at h1
    have : w = z := by
      by_contra hne
      have h2 : (1 : ℚ) ≤ |(w : ℚ) - z| := by
        rw [← Int.cast_sub, ← Int.cast_abs]
        exact_mod_cast Int.one_le_abs (sub_ne_zero.2 hne)
      linarith
    rw [this, sub_self, abs_zero]
    positivity
  · exact h1

end

/-! ### Representable numbers -/

theorem mag_exists (F : Fmt) (e : Nat) : ∀ n, n ≤ 2 * 2 ^ F.frac → ∃ m ≤ (e + 2) * 2 ^ F.frac, F.mag m = n * 2 ^ e := by
  induction e with
  | zero =>
    intro n hn
    refine ⟨n, by omega, ?_⟩
    have := F.mag_line 0 n hn (.inl rfl)
    rwa [Nat.zero_mul, Nat.zero_add] at this
  | succ e ih =>
    intro n hn
    by_cases h : 2 ^ F.frac ≤ n
    · refine ⟨(e + 1) * 2 ^ F.frac + n, ?_, F.mag_line (e + 1) n hn (.inr h)⟩
      rw [show (e + 1 + 2) * 2 ^ F.frac = (e + 1) * 2 ^ F.frac + 2 * 2 ^ F.frac by ring]
      omega
    · obtain ⟨m, h1, h2⟩ := ih (2 * n) (by omega)
      refine ⟨m, le_trans h1 (Nat.mul_le_mul_right _ (by omega)), ?_⟩
      rw [h2, pow_succ]
      ring

/-- A pattern as a number of at most `frac + 1` bits and a power of two. -/
theorem mag_split (F : Fmt) {m : Nat} (hm : m < F.inf) : ∃ n e, F.mag m = n * 2 ^ e ∧ n ≤ 2 * 2 ^ F.frac ∧ e + 3 ≤ 2 ^ F.exp ∨
    F.mag m = n * 2 ^ e ∧ n ≤ 2 * 2 ^ F.frac ∧ e = 0 := by
  have hP : 0 < 2 ^ F.frac := Nat.pow_pos (by norm_num)
  by_cases h0 : m / 2 ^ F.frac = 0
  · refine ⟨m, 0, .inr ⟨by unfold Fmt.mag; rw [if_pos h0]; simp, ?_, rfl⟩⟩
    rcases Nat.div_eq_zero_iff.1 h0 with h | h <;> omega
  · refine ⟨2 ^ F.frac + m % 2 ^ F.frac, m / 2 ^ F.frac - 1, .inl ⟨by unfold Fmt.mag; rw [if_neg h0], ?_, ?_⟩⟩
    · have := Nat.mod_lt m hP
      omega
    · unfold Fmt.inf at hm
      have := (Nat.div_lt_iff_lt_mul hP).2 hm
      generalize m / 2 ^ F.frac = r at *
      generalize 2 ^ F.exp = E at *
      omega

/-! ### The types -/

/-- A floating point type with a usual format. -/
class Lawful (T : Type) [FloType T] : Prop where
  good : (fmt T).Good
  wide : (fmt T).scale + 3 < 2 ^ (fmt T).exp

instance : Lawful F32 := ⟨by constructor <;> decide +kernel, by decide +kernel⟩
instance : Lawful F64 := ⟨by constructor <;> decide +kernel, by decide +kernel⟩
instance : Lawful F80 := ⟨by constructor <;> decide +kernel, by decide +kernel⟩

/-- `T` contains the numbers of `S`. -/
class Wider (S T : Type) [FloType S] [FloType T] : Prop where
  frac : (fmt S).frac ≤ (fmt T).frac
  scale : (fmt S).scale ≤ (fmt T).scale
  exp : 2 ^ (fmt S).exp + ((fmt T).scale - (fmt S).scale) < 2 ^ (fmt T).exp

instance : Wider F32 F64 := ⟨by decide +kernel, by decide +kernel, by decide +kernel⟩
instance : Wider F32 F80 := ⟨by decide +kernel, by decide +kernel, by decide +kernel⟩
instance : Wider F64 F80 := ⟨by decide +kernel, by decide +kernel, by decide +kernel⟩

section
variable {T : Type} [FloType T] [Lawful T]

theorem shape (T : Type) [FloType T] [Lawful T] : Shape T (fmt T) FloType.of where
  good := Lawful.good
  frac := rfl
  exp := rfl
  bits_lt x := by
    have := FloType.bits_lt x
    rw [pow_succ] at this
    show _ < 2 * 2 ^ (Binary.exp T + Binary.frac T)
    omega
  bits_of n hn := by
    apply FloType.bits_of
    rw [pow_succ]
    have : n < 2 * 2 ^ (Binary.exp T + Binary.frac T) := hn
    omega
  of_bits := FloType.of_bits

theorem neg?_eq (x : T) : neg? x = negative x := ((shape T).negative_eq x).symm

omit [Lawful T] in
theorem pat_lt (x : T) : pat x < (fmt T).signBit := pattern_lt (fmt T) x

theorem make_pat (neg : Bool) {m : Nat} (hm : m < (fmt T).signBit) : pat (make neg m : T) = m := ((shape T).of_pattern neg hm).1

theorem make_neg (neg : Bool) {m : Nat} (hm : m < (fmt T).signBit) : neg? (make neg m : T) = neg := by
  rw [neg?_eq]
  exact ((shape T).of_pattern neg hm).2

theorem inf_lt_signBit (T : Type) [FloType T] [Lawful T] : (fmt T).inf < (fmt T).signBit := inf_lt_sign Lawful.good

theorem inf_pos (T : Type) [FloType T] [Lawful T] : 0 < (fmt T).inf := Fmt.inf_pos Lawful.good

omit [Lawful T] in
theorem key_natAbs (x : T) : (key x).natAbs = pat x := by
  unfold key
  split_ifs <;> omega

theorem finite_key (x : T) : Finite x ↔ (key x).natAbs < (fmt T).inf := by
  rw [(shape T).finite_iff, key_natAbs]
  rfl

omit [Lawful T] in
theorem isNaN_false {x : T} : isNaN x = false ↔ (key x).natAbs ≤ (fmt T).inf := by
  unfold isNaN
  rw [decide_eq_false_iff_not, key_natAbs, not_lt]

omit [Lawful T] in
theorem isInf_false {x : T} : isInf x = false ↔ (key x).natAbs ≠ (fmt T).inf := by
  unfold isInf
  rw [decide_eq_false_iff_not, key_natAbs]

theorem Finite.not_nan {x : T} (h : Finite x) : isNaN x = false := by
  rw [isNaN_false]
  rw [finite_key] at h
  omega

theorem Finite.not_inf {x : T} (h : Finite x) : isInf x = false := by
  rw [isInf_false]
  rw [finite_key] at h
  omega

theorem isNaN_iff (x : T) : isNaN x = true ↔ IsNaN x := by
  have h1 := finite_key x
  have h2 := inf_pos T
  unfold isNaN IsNaN
  unfold Finite at h1
  rw [decide_eq_true_iff, (shape T).fraction_eq]
  rw [key_natAbs] at h1
  have hP : 0 < 2 ^ (fmt T).frac := Nat.pow_pos (by norm_num)
  have hlt := pat_lt x
  have hs := Fmt.inf_lt (F := fmt T) Lawful.good
  have hmod : (fmt T).inf % 2 ^ (fmt T).frac = 0 := by
    unfold Fmt.inf
    exact Nat.mul_mod_left _ _
  have hm : ¬ pat x < (fmt T).inf → pat x % 2 ^ (fmt T).frac = pat x - (fmt T).inf := by
    intro h
    obtain ⟨r, hr⟩ : ∃ r, pat x = (fmt T).inf + r := ⟨pat x - (fmt T).inf, by omega⟩
    rw [hr, Nat.add_mod, hmod, Nat.zero_add, Nat.mod_mod, Nat.mod_eq_of_lt (by omega)]
    omega
  change _ ↔ _ ∧ pat x % _ ≠ 0
  by_cases h : pat x < (fmt T).inf
  · have := h1.2 h
    constructor
    · intro h'; omega
    · intro h'; exact absurd h'.1 this
  · rw [hm h]
    have : exponent x = 2 ^ Binary.exp T - 1 := not_not.1 fun hh => h (h1.1 hh)
    constructor
    · intro h'; exact ⟨this, by omega⟩
    · intro h'; omega

theorem isInf_iff (x : T) : isInf x = true ↔ IsInf x := by
  have h1 := isNaN_iff x
  have h2 := finite_key x
  rw [key_natAbs] at h2
  unfold isNaN IsNaN at h1
  unfold isInf IsInf
  unfold Finite at h2
  rw [decide_eq_true_iff] at h1 ⊢
  constructor
  · intro h
    have h3 : exponent x = 2 ^ Binary.exp T - 1 := not_not.1 fun hh => by have := h2.1 hh; omega
    refine ⟨h3, ?_⟩
    by_contra hf
    have := h1.2 ⟨h3, hf⟩
    omega
  · rintro ⟨h3, h4⟩
    have h5 : ¬ pat x < (fmt T).inf := fun hh => h2.2 hh h3
    have h6 : ¬ (fmt T).inf < pat x := fun hh => (h1.1 hh).2 h4
    omega

theorem value_key (x : T) : value x = fval (fmt T) (key x) := by
  rw [(shape T).value_eq, ← neg?_eq]
  unfold key fval
  change signOf (neg? x) * (((fmt T).mag (pat x) : ℚ) / _) = _
  cases hn : neg? x
  · simp only [Bool.false_eq_true, if_false]
    rw [if_neg (by omega), Int.natAbs_natCast]
    simp [signOf]
  · simp only [if_true]
    rw [Int.natAbs_neg, Int.natAbs_natCast]
    by_cases h0 : pat x = 0
    · rw [h0]
      simp [mag_zero]
    · rw [if_pos (by omega)]
      simp [signOf]

theorem value_units (x : T) : value x = (signedUnits x : ℚ) / 2 ^ (fmt T).scale := by
  rw [(shape T).value_eq, ← neg?_eq]
  unfold signedUnits
  change signOf (neg? x) * (((fmt T).mag (pat x) : ℚ) / _) = _
  cases hn : neg? x
  · simp [signOf, units]
  · simp only [if_true, signOf, units]
    push_cast
    ring

theorem abs_value (x : T) : |value x| = (units x : ℚ) / 2 ^ (fmt T).scale := (shape T).value_abs x

theorem key_make (neg : Bool) {m : Nat} (hm : m < (fmt T).signBit) : key (make neg m : T) = if neg then -(m : Int) else m := by
  unfold key
  rw [make_pat neg hm, make_neg neg hm]

theorem key_roundTo (neg : Bool) (n : Nat) {d : Nat} (hd : 0 < d) :
    key (roundTo neg n d : T) = rnd (fmt T) (signOf neg * ((n : ℚ) / d)) := by
  have hg : (fmt T).Good := Lawful.good
  have hlt := inf_lt_signBit T
  unfold roundTo
  rw [key_make neg (by omega)]
  have h1 := (fmt T).nearest_spec (by have := hg.frac; omega) n d hd
  have h2 : rnd (fmt T) ((n : ℚ) / d) = (min ((fmt T).nearest n d) (fmt T).inf : Nat) := by
    apply rnd_of_near hg (by positivity)
    rwa [div_mul_eq_mul_div]
  cases neg
  · simp only [Bool.false_eq_true, if_false, signOf, one_mul]
    exact h2.symm
  · simp only [if_true, signOf]
    rw [show (-1 : ℚ) * (n / d) = -(n / d) by ring, rnd_neg hg, h2]

theorem key_negate (x : T) : key (negate x) = -key x := by
  unfold negate
  rw [key_make _ (pat_lt x)]
  unfold key
  cases neg? x <;> simp

theorem key_absolute (x : T) : key (absolute x) = |key x| := by
  unfold absolute
  rw [key_make _ (pat_lt x)]
  unfold key
  cases neg? x <;> simp

theorem value_negate (x : T) : value (negate x) = -value x := by
  rw [value_key, key_negate, fval_neg, ← value_key]

theorem finite_negate {x : T} : Finite (negate x) ↔ Finite x := by
  rw [finite_key, finite_key, key_negate, Int.natAbs_neg]

theorem units_eq_zero {x : T} : units x = 0 ↔ key x = 0 := by
  have := abs_value x
  constructor
  · intro h
    rw [h, Nat.cast_zero, zero_div, abs_eq_zero, value_key, fval_eq_zero] at this
    exact this
  · intro h
    unfold units
    rw [← key_natAbs, h]
    exact mag_zero

theorem key_zero (neg : Bool) : key (zero neg : T) = 0 := by
  have := inf_lt_signBit T
  unfold zero
  rw [key_make _ (by omega)]
  split_ifs <;> rfl

/-! ### Operations on finite numbers -/

theorem key_add {x y : T} (hx : Finite x) (hy : Finite y) : key (add x y) = rnd (fmt T) (value x + value y) := by
  unfold add
  rw [if_neg (by simp [Finite.not_nan hx, Finite.not_nan hy]), if_neg (by simp [Finite.not_inf hx]),
    if_neg (by simp [Finite.not_inf hy])]
  have hv : value x + value y = ((signedUnits x + signedUnits y : Int) : ℚ) / 2 ^ (fmt T).scale := by
    rw [value_units, value_units]
    push_cast
    ring
  rw [hv]
  generalize signedUnits x + signedUnits y = s
  split_ifs with h0
  · rw [h0, key_zero]
    simp [rnd_zero]
  · rw [key_roundTo _ _ (Nat.pow_pos (by norm_num))]
    congr 1
    push_cast
    rw [← mul_div_assoc]
    congr 1
    rw [Nat.cast_natAbs]
    rcases lt_or_gt_of_ne h0 with h | h
    · rw [decide_eq_true h, abs_of_neg h]
      simp [signOf]
    · rw [decide_eq_false (by omega), abs_of_pos h]
      simp [signOf]

theorem key_sub {x y : T} (hx : Finite x) (hy : Finite y) : key (sub x y) = rnd (fmt T) (value x - value y) := by
  unfold sub
  rw [key_add hx (finite_negate.2 hy), value_negate, sub_eq_add_neg]

omit [Lawful T] in
theorem sign_xor (x y : T) : signOf (neg? x != neg? y) = signOf (neg? x) * signOf (neg? y) := by
  cases neg? x <;> cases neg? y <;> simp [signOf]

theorem value_signed (x : T) : value x = signOf (neg? x) * ((units x : ℚ) / 2 ^ (fmt T).scale) := by
  rw [(shape T).value_eq, ← neg?_eq]
  rfl

theorem key_mul {x y : T} (hx : Finite x) (hy : Finite y) : key (mul x y) = rnd (fmt T) (value x * value y) := by
  unfold mul
  rw [if_neg (by simp [Finite.not_nan hx, Finite.not_nan hy]), if_neg (by simp [Finite.not_inf hx]),
    if_neg (by simp [Finite.not_inf hy]), key_roundTo _ _ (Nat.mul_pos (Nat.pow_pos (by norm_num)) (Nat.pow_pos (by norm_num))),
    sign_xor, value_signed x, value_signed y]
  congr 1
  push_cast
  field_simp

theorem key_div {x y : T} (hx : Finite x) (hy : Finite y) (h0 : value y ≠ 0) :
    key (div x y) = rnd (fmt T) (value x / value y) := by
  have hu : units y ≠ 0 := by
    intro h
    rw [units_eq_zero] at h
    rw [value_key, h, fval_zero] at h0
    exact h0 rfl
  have hs : ∀ b, signOf b * signOf b = 1 := by intro b; cases b <;> simp [signOf]
  unfold div
  rw [if_neg (by simp [Finite.not_nan hx, Finite.not_nan hy]), if_neg (by simp [Finite.not_inf hx]),
    if_neg (by simp [Finite.not_inf hy]), if_neg hu, key_roundTo _ _ (by omega),
    sign_xor, value_signed x, value_signed y]
  congr 1
  have hu' : (units y : ℚ) ≠ 0 := by exact_mod_cast hu
  have hs0 : signOf (neg? y) ≠ 0 := by cases neg? y <;> simp [signOf]
  rw [mul_div_mul_comm, div_div_div_cancel_right₀ (by positivity)]
  congr 1
  rw [eq_comm, div_eq_iff hs0, mul_assoc, hs, mul_one]

theorem key_ofInt (z : Int) : key (ofInt z : T) = rnd (fmt T) z := by
  unfold ofInt
  rw [key_roundTo _ _ (by norm_num)]
  congr 1
  rw [Nat.cast_natAbs, Nat.cast_one, div_one]
  rcases lt_or_ge z 0 with h | h
  · rw [decide_eq_true h, abs_of_neg h]
    simp [signOf]
  · rw [decide_eq_false (by omega), abs_of_nonneg h]
    simp [signOf]

theorem key_cast {S : Type} [FloType S] [Lawful S] {x : S} (hx : Finite x) : key (cast x : T) = rnd (fmt T) (value x) := by
  unfold cast
  rw [if_neg (by simp [Finite.not_nan hx]), if_neg (by simp [Finite.not_inf hx]), key_roundTo _ _ (Nat.pow_pos (by norm_num)),
    value_signed]
  congr 1
  push_cast
  rfl

theorem lt_iff {x y : T} (hx : Finite x) (hy : Finite y) : lt x y = true ↔ value x < value y := by
  unfold lt
  rw [Finite.not_nan hx, Finite.not_nan hy, value_key, value_key, fval_lt]
  simp

theorem eq_iff {x y : T} (hx : Finite x) (hy : Finite y) : eq x y = true ↔ value x = value y := by
  unfold eq
  rw [Finite.not_nan hx, Finite.not_nan hy, value_key, value_key, fval_inj]
  simp

/-- A result that is not too large. -/
theorem finite_of_key {x : T} {q : ℚ} (hk : key x = rnd (fmt T) q) {k : Int} (hq : |q| ≤ |fval (fmt T) k|)
    (hlt : k.natAbs < (fmt T).inf) : Finite x := by
  have hg : (fmt T).Good := Lawful.good
  rw [finite_key, hk]
  have h1 : |fval (fmt T) k| = fval (fmt T) |k| := by
    rcases le_total 0 k with h | h
    · rw [abs_of_nonneg h, abs_of_nonneg (fval_nonneg h)]
    · rw [abs_of_nonpos h, fval_neg, abs_of_nonpos]
      have := fval_nonneg (F := fmt T) (show 0 ≤ -k by omega)
      rw [fval_neg] at this
      linarith
  rw [h1] at hq
  have h2 := rnd_mono hg (abs_le.1 hq).2
  have h3 := rnd_mono hg (abs_le.1 hq).1
  have h4 : |k|.natAbs ≤ (fmt T).inf := by rw [Int.natAbs_abs]; omega
  rw [rnd_neg hg, rnd_fval hg h4] at h3
  rw [rnd_fval hg h4] at h2
  have : |k| = k.natAbs := Int.abs_eq_natAbs k
  omega

/-- A rounded result is the nearest number. -/
theorem nearest_of_key {x : T} {q : ℚ} (hk : key x = rnd (fmt T) q) (hx : Finite x) : IsNearest q x := by
  have hg : (fmt T).Good := Lawful.good
  have hlt := inf_lt_signBit T
  have hf := (finite_key x).1 hx
  have hn := near_rat hg q
  generalize hmm : (fmt T).nearest q.num.natAbs q.den = m at hn
  have hpat : m < (fmt T).inf ∧ pat x = m := by
    rw [key_natAbs] at hf
    have := key_natAbs x
    rw [hk] at this
    unfold rnd at this
    rw [hmm] at this
    split_ifs at this <;> omega
  have h1 := (shape T).nearest_of (decide (q < 0)) (abs_nonneg q) hn hpat.1
  have hs : signOf (decide (q < 0)) * |q| = q := by
    rcases lt_or_ge q 0 with h | h
    · rw [decide_eq_true h, abs_of_neg h]
      simp [signOf]
    · rw [decide_eq_false (not_lt.2 h), abs_of_nonneg h]
      simp [signOf]
  rw [hs] at h1
  have hk' : key (make (decide (q < 0)) m : T) = key x := by
    rw [key_make _ (by omega), hk]
    unfold rnd
    rw [hmm, Nat.min_eq_left (by omega)]
    simp only [decide_eq_true_eq]
  change IsNearest q (make (decide (q < 0)) m : T) at h1
  have hv : value (make (decide (q < 0)) m : T) = value x := by rw [value_key, value_key, hk']
  have heven : Binary.bits (make (decide (q < 0)) m : T) % 2 = 0 → Binary.bits x % 2 = 0 := by
    have hp1 := make_pat (T := T) (decide (q < 0)) (show m < (fmt T).signBit by omega)
    have h2 : (fmt T).signBit % 2 = 0 := by
      unfold Fmt.signBit
      obtain ⟨p, hp⟩ : ∃ p, (fmt T).exp + (fmt T).frac = p + 1 := ⟨(fmt T).exp + (fmt T).frac - 1, by have := hg.frac; omega⟩
      rw [hp, pow_succ]
      omega
    have e1 := (shape T).bits_eq (make (decide (q < 0)) m : T)
    have e2 := (shape T).bits_eq x
    change _ = _ + pat _ at e1
    change _ = _ + pat _ at e2
    rw [e1, e2, hp1, hpat.2]
    split_ifs <;> omega
  refine ⟨hx, fun y hy => ?_, fun y hy he hne => heven ?_⟩
  · rw [← hv]
    exact h1.least y hy
  · rw [← hv] at he hne
    exact h1.even y hy he hne

/-- The places of the limits. -/
theorem key_largest : key (largest : T) = ((fmt T).inf - 1 : Nat) := by
  have := inf_lt_signBit T
  unfold largest
  rw [key_make _ (by omega)]
  rfl

theorem key_lowest : key (lowest : T) = -((fmt T).inf - 1 : Nat) := by
  have := inf_lt_signBit T
  unfold lowest
  rw [key_make _ (by omega)]
  rfl

theorem finite_largest : Finite (largest : T) := by
  have := inf_pos T
  rw [finite_key, key_largest]
  omega

theorem finite_lowest : Finite (lowest : T) := by
  have := inf_pos T
  rw [finite_key, key_lowest]
  omega

theorem finite_zero (neg : Bool) : Finite (zero neg : T) := by
  have := inf_pos T
  rw [finite_key, key_zero]
  omega

theorem value_zero (neg : Bool) : value (zero neg : T) = 0 := by rw [value_key, key_zero, fval_zero]

theorem value_le_largest {x : T} (h : Finite x) : value x ≤ value (largest : T) := by
  rw [value_key, value_key, fval_le, key_largest]
  rw [finite_key] at h
  omega

theorem lowest_le_value {x : T} (h : Finite x) : value (lowest : T) ≤ value x := by
  rw [value_key, value_key, fval_le, key_lowest]
  rw [finite_key] at h
  omega

/-- A finite number is its own rounding. -/
theorem rnd_value {x : T} (h : Finite x) : rnd (fmt T) (value x) = key x := by
  rw [value_key, rnd_fval Lawful.good (by rw [finite_key] at h; omega)]

theorem limit_units : ((fmt T).limit : ℚ) = tooLarge T * 2 ^ (fmt T).scale := by
  obtain ⟨c, hc, hs, hl⟩ := (shape T).bias_scale
  unfold Fmt.limit tooLarge
  rw [hl, hc, hs]
  change _ = (4 * 2 ^ (fmt T).frac - 1) * 2 ^ (((c + 1 : Nat) : ℤ) - ((fmt T).frac : ℤ) - 1) * _
  rw [show (((c + 1 : Nat) : ℤ) - ((fmt T).frac : ℤ) - 1) = (c : ℤ) - ((fmt T).frac : ℤ) by push_cast; ring,
    zpow_sub₀ (by norm_num), zpow_natCast, zpow_natCast, pow_add, pow_mul]
  have : 1 ≤ 4 * 2 ^ (fmt T).frac := by
    have : 1 ≤ 2 ^ (fmt T).frac := Nat.one_le_two_pow
    omega
  push_cast [Nat.cast_sub this]
  rw [show (4 : ℚ) ^ c = 2 ^ c * 2 ^ c by rw [← mul_pow]; norm_num]
  field_simp

/-- Numbers below the limit are rounded to finite ones, the others to infinity. -/
theorem rnd_finite_iff {q : ℚ} : (rnd (fmt T) q).natAbs < (fmt T).inf ↔ |q| < tooLarge T := by
  have hg : (fmt T).Good := Lawful.good
  have ho := (near_rat hg q).over_iff hg
  rw [limit_units, mul_le_mul_iff_left₀ (by positivity)] at ho
  rw [← not_le, ← not_le (a := tooLarge T), ← ho]
  unfold rnd
  split_ifs <;> omega

theorem rnd_finite {q : ℚ} (hq : |q| < tooLarge T) : (rnd (fmt T) q).natAbs < (fmt T).inf := rnd_finite_iff.2 hq

/-- A representable number is its own rounding. -/
theorem of_exists {x : T} {q : ℚ} (hk : key x = rnd (fmt T) q) {m : Nat} (hm : m < (fmt T).inf)
    (hq : |q| = ((fmt T).mag m : ℚ) / 2 ^ (fmt T).scale) : Finite x ∧ value x = q := by
  have hg : (fmt T).Good := Lawful.good
  rcases le_total 0 q with h | h
  · rw [abs_of_nonneg h, ← fval_nat] at hq
    rw [hq, rnd_fval hg (by omega)] at hk
    rw [finite_key, value_key, hk, hq]
    exact ⟨by omega, rfl⟩
  · rw [abs_of_nonpos h, ← fval_nat] at hq
    have hq' : q = fval (fmt T) (-(m : Int)) := by rw [fval_neg, ← hq, neg_neg]
    rw [hq', rnd_fval hg (by omega)] at hk
    rw [finite_key, value_key, hk, hq']
    exact ⟨by omega, rfl⟩

/-- Integers of up to `frac + 1` bits are exact. -/
theorem ofInt_exact {z : Int} (hz : z.natAbs ≤ 2 * 2 ^ (fmt T).frac) : Finite (ofInt z : T) ∧ value (ofInt z : T) = z := by
  obtain ⟨m, h1, h2⟩ := mag_exists (fmt T) (fmt T).scale z.natAbs hz
  have hP : 0 < 2 ^ (fmt T).frac := Nat.pow_pos (by norm_num)
  refine of_exists (key_ofInt z) (m := m) (lt_of_le_of_lt h1 ?_) ?_
  · unfold Fmt.inf
    have := Lawful.wide (T := T)
    exact Nat.mul_lt_mul_of_pos_right (by omega) hP
  · rw [h2]
    push_cast
    rw [mul_div_assoc, div_self (by positivity), mul_one, Nat.cast_natAbs, Int.cast_abs]

/-- Conversions to a wider type are exact. -/
theorem cast_exact {S : Type} [FloType S] [Lawful S] [Wider S T] {x : S} (hx : Finite x) :
    Finite (cast x : T) ∧ value (cast x : T) = value x := by
  have hw1 := Wider.frac (S := S) (T := T)
  have hw2 := Wider.scale (S := S) (T := T)
  have hw3 := Wider.exp (S := S) (T := T)
  have hP : 0 < 2 ^ (fmt T).frac := Nat.pow_pos (by norm_num)
  have hpow := Nat.pow_le_pow_right (n := 2) (by norm_num) hw1
  have hf : pat x < (fmt S).inf := by rw [finite_key, key_natAbs] at hx; exact hx
  have h8 := (Lawful.good (T := S)).exp_pow
  obtain ⟨n, e, hne⟩ := mag_split (fmt S) hf
  have hne' : (fmt S).mag (pat x) = n * 2 ^ e ∧ n ≤ 2 * 2 ^ (fmt S).frac ∧ e + 3 ≤ 2 ^ (fmt S).exp := by
    rcases hne with h | h
    · exact h
    · exact ⟨h.1, h.2.1, by omega⟩
  obtain ⟨m, h1, h2⟩ := mag_exists (fmt T) (e + ((fmt T).scale - (fmt S).scale)) n (by omega)
  refine of_exists (key_cast hx) (m := m) (lt_of_le_of_lt h1 ?_) ?_
  · unfold Fmt.inf
    exact Nat.mul_lt_mul_of_pos_right (by omega) hP
  · rw [abs_value]
    unfold units
    rw [hne'.1, h2]
    push_cast
    obtain ⟨d, hd⟩ : ∃ d, (fmt T).scale = (fmt S).scale + d := ⟨(fmt T).scale - (fmt S).scale, by omega⟩
    rw [hd, show (fmt S).scale + d - (fmt S).scale = d by omega, pow_add, pow_add]
    field_simp

/-- A conversion to the same type does not change a number. -/
theorem cast_self {x : T} (hx : Finite x) : Finite (cast x : T) ∧ value (cast x : T) = value x := by
  have h := key_cast (T := T) hx
  rw [rnd_value hx] at h
  rw [finite_key, value_key, h, ← value_key, ← finite_key]
  exact ⟨hx, rfl⟩

end
end Feat.FloatArith
