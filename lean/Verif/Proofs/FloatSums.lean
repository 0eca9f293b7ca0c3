import Verif.Proofs.FloatMinMax
import Verif.Model.FloatNorms
import Mathlib.Analysis.Real.Sqrt
/-
Running sums of floating point numbers that are not negative, and square roots.
-/
namespace Feat.FloatArith
open FloatText

section
variable {T : Type} [FloType T] [Lawful T]

/-- The error of a sum, relative to it. -/
theorem add_error {x y : T} (hx : Finite x) (hy : Finite y) (h : |value x + value y| < tooLarge T) :
    Finite (add x y) ∧ |value (add x y) - (value x + value y)| ≤ |value x + value y| / 2 ^ (Binary.frac T + 1) := by
  have e : value x + value y = ((signedUnits x + signedUnits y : Int) : ℚ) / 2 ^ (fmt T).scale := by
    rw [value_units, value_units]
    push_cast
    ring
  have hk := key_add hx hy
  have hf := rnd_finite h
  refine ⟨by rw [finite_key, hk]; exact hf, ?_⟩
  rw [value_key (add x y), hk]
  rw [e] at hf ⊢
  exact rnd_error_int Lawful.good hf

/-- A sum of numbers that are not negative is at least each of them. -/
theorem le_add {x y : T} (hx : Finite x) (hy : Finite y) (hx0 : 0 ≤ value x) (hy0 : 0 ≤ value y) :
    key x ≤ key (add x y) ∧ key y ≤ key (add x y) := by
  rw [key_add hx hy]
  constructor
  · rw [← rnd_value hx]
    exact rnd_mono Lawful.good (by linarith)
  · rw [← rnd_value hy]
    exact rnd_mono Lawful.good (by linarith)

end

/-- A pattern is at most `2^(frac + 1)` gaps. -/
theorem mag_gap (F : Fmt) (m : Nat) : F.mag (m + 1) ≤ 2 ^ (F.frac + 1) * 2 ^ (m / 2 ^ F.frac - 1) := by
  rw [F.mag_succ]
  unfold Fmt.mag
  have hP : 0 < 2 ^ F.frac := Nat.pow_pos (by norm_num)
  rw [pow_succ]
  generalize 2 ^ F.frac = P at *
  have hlt := Nat.mod_lt m hP
  split_ifs with h
  · rw [h]
    rcases Nat.div_eq_zero_iff.1 h with h | h
    · omega
    · simp; omega
  · have : (P + m % P) * 2 ^ (m / P - 1) + 2 ^ (m / P - 1) = (P + m % P + 1) * 2 ^ (m / P - 1) := by ring
    rw [this]
    exact Nat.mul_le_mul_right _ (by omega)

/-- A number above the middle between two neighbours is not rounded to the lower one. -/
theorem rnd_above {F : Fmt} (h : F.Good) {m : Int} (hm0 : 0 < m) (hm : m.natAbs < F.inf) {q : ℚ}
    (hq : (fval F (m - 1) + fval F m) / 2 < q) : m ≤ rnd F q := by
  by_contra hlt
  push Not at hlt
  have h1 : fval F (m - 1) < fval F m := fval_lt.2 (by omega)
  by_cases hle : fval F m ≤ q
  · have := rnd_mono h hle
    rw [rnd_fval h (by omega)] at this
    omega
  · push Not at hle
    have hpos : 0 ≤ fval F (m - 1) := fval_nonneg (by omega)
    have h0 : 0 ≤ rnd F q := rnd_nonneg (by linarith)
    have hl := rnd_least h (q := q) (by omega) m
    have h2 : fval F (rnd F q) ≤ fval F (m - 1) := fval_le.2 (by omega)
    rw [abs_of_nonpos (by linarith), abs_of_nonneg (by linarith)] at hl
    linarith

end Feat.FloatArith

namespace Feat.FloatNorms
open FloatText FloatArith
variable {V : Type}

/-! ### Running sums -/

/-- The loop over the terms of a sum. -/
def sumAll : List F80 → F80 → Except Err Unit × F80
  | [], a => (.ok (), a)
  | d :: ds, a => match accumulate a d with
    | (.error e, a') => (.error e, a')
    | (.ok (), a') => sumAll ds a'

/-- The terms of a row. -/
def terms (k : NormInput V) (g : F80 → F80) (row : List V) : List F80 := (row.filter fun x => !k.null x).map fun x => g (k.toL x)

theorem updateAll_sum (k : NormInput V) (g : F80 → F80) (c : F80 → F80) (row : List V) (s : Acc) :
    updateAll k ⟨fun a x => accumulate a (g x), c⟩ row s =
      ((sumAll (terms k g row) s.acc).1, ⟨(sumAll (terms k g row) s.acc).2, s.valid || !(terms k g row).isEmpty⟩) := by
  induction row generalizing s with
  | nil => simp [updateAll, terms, sumAll]
  | cons x row ih =>
    unfold updateAll
    by_cases h : k.null x = true
    · rw [if_pos h, ih]
      have : terms k g (x :: row) = terms k g row := by simp [terms, h]
      rw [this]
    · have e : terms k g (x :: row) = g (k.toL x) :: terms k g row := by simp [terms, h]
      rw [if_neg h, e]
      simp only [sumAll]
      rcases hacc : accumulate s.acc (g (k.toL x)) with ⟨r, a⟩
      cases r with
      | error e => simp
      | ok u =>
        cases u
        simp only [ih]
        simp

theorem pow_bound {u : ℚ} (hu : 0 ≤ u) (n : Nat) : (1 + u) ^ n * (1 - n * u) ≤ 1 := by
  induction n with
  | zero => simp
  | succ n ih =>
    refine le_trans ?_ ih
    rw [pow_succ, mul_assoc]
    refine mul_le_mul_of_nonneg_left ?_ (by positivity)
    push_cast
    nlinarith [mul_nonneg hu hu, mul_nonneg (Nat.cast_nonneg (α := ℚ) n) (mul_nonneg hu hu)]

/-- The unit of rounding of `long double`. -/
theorem pow_small {n : Nat} (hn : n ≤ 2 ^ 62) : (1 + 1 / 2 ^ 64 : ℚ) ^ n - 1 ≤ n / 2 ^ 63 := by
  have h := pow_bound (u := 1 / 2 ^ 64) (by positivity) n
  have hn' : (n : ℚ) ≤ 2 ^ 62 := by exact_mod_cast hn
  have h0 : (0 : ℚ) ≤ n := Nat.cast_nonneg n
  generalize (1 + 1 / 2 ^ 64 : ℚ) ^ n = p at *
  have hs : (n : ℚ) * (1 / 2 ^ 64) ≤ 1 / 4 := by linarith
  have hs0 : 0 ≤ (n : ℚ) * (1 / 2 ^ 64) := by positivity
  have e : (n : ℚ) / 2 ^ 63 = 2 * (n * (1 / 2 ^ 64)) := by ring
  rw [e]
  generalize (n : ℚ) * (1 / 2 ^ 64) = t at *
  nlinarith

theorem pow_le_half {n : Nat} (hn : n ≤ 2 ^ 62) : (1 + 1 / 2 ^ 64 : ℚ) ^ n ≤ 3 / 2 := by
  have := pow_small hn
  have hn' : (n : ℚ) ≤ 2 ^ 62 := by exact_mod_cast hn
  linarith

/-- An addition that does not throw. -/
theorem accumulate_ok {a d : F80} (ha : Finite a) (hd : Finite d) (ha0 : 0 ≤ value a) (hd0 : 0 ≤ value d)
    (hbig : value d = 0 ∨ value a < 2 ^ 63 * value d) (hfin : value a + value d < tooLarge F80) :
    accumulate a d = (.ok (), add a d) ∧ Finite (add a d) ∧
      |value (add a d) - (value a + value d)| ≤ (value a + value d) / 2 ^ 64 := by
  have hs : (0 : ℚ) ≤ value a + value d := by linarith
  obtain ⟨hf, he⟩ := add_error ha hd (by rwa [abs_of_nonneg hs])
  rw [abs_of_nonneg hs, show Binary.frac F80 + 1 = 64 from rfl] at he
  refine ⟨?_, hf, he⟩
  unfold accumulate
  rw [if_neg, if_neg]
  · rw [Finite.not_inf hf]; simp
  · simp only [Bool.and_eq_true, Bool.not_eq_true', not_and, Bool.not_eq_false]
    intro h
    rw [eq_iff hf ha] at h
    rw [eq_iff hd (finite_zero _), value_zero]
    rcases hbig with h0 | h0
    · exact h0
    · exfalso
      rw [h, show value a - (value a + value d) = -value d by ring, abs_neg, abs_of_nonneg hd0,
        le_div_iff₀ (by positivity)] at he
      norm_num at he h0
      linarith

/-- A sum that does not throw, with its error. -/
theorem sum_run (D : ℚ) (hD : 2 * D < tooLarge F80) (ds : List F80) : ∀ (a : F80) (S : ℚ) (i : Nat), Finite a → 0 ≤ S →
    |value a - S| ≤ ((1 + 1 / 2 ^ 64) ^ i - 1) * S →
    (∀ d ∈ ds, Finite d ∧ 0 ≤ value d ∧ (value d = 0 ∨ D < 2 ^ 62 * value d)) → S + (ds.map value).sum ≤ D →
    i + ds.length ≤ 2 ^ 62 →
    ∃ b, sumAll ds a = (.ok (), b) ∧ Finite b ∧
      |value b - (S + (ds.map value).sum)| ≤ ((1 + 1 / 2 ^ 64) ^ (i + ds.length) - 1) * (S + (ds.map value).sum) ∧
      value a ≤ value b ∧ ∀ d ∈ ds, value d ≤ value b := by
  induction ds with
  | nil =>
    intro a S i ha hS h _ _ _
    exact ⟨a, rfl, ha, by simpa using h, le_refl _, by simp⟩
  | cons d ds ih =>
    intro a S i ha hS h hds hsum hn
    obtain ⟨hd, hd0, hbig⟩ := hds d (by simp)
    simp only [List.map_cons, List.sum_cons, List.length_cons] at hsum hn ⊢
    have hrest : 0 ≤ (ds.map value).sum := List.sum_nonneg (by
      intro q hq
      obtain ⟨e, he, rfl⟩ := List.mem_map.1 hq
      exact (hds e (List.mem_cons_of_mem _ he)).2.1)
    have hp1 : (1 : ℚ) ≤ (1 + 1 / 2 ^ 64) ^ i := one_le_pow₀ (by norm_num)
    have hp2 : (1 + 1 / 2 ^ 64 : ℚ) ^ i ≤ 3 / 2 := pow_le_half (by omega)
    have hps : (1 + 1 / 2 ^ 64 : ℚ) ^ (i + 1) = (1 + 1 / 2 ^ 64) ^ i * (1 + 1 / 2 ^ 64) := pow_succ _ _
    have hstep := ih (add a d) (S + value d) (i + 1)
    rw [hps] at hstep
    rw [show i + (ds.length + 1) = i + 1 + ds.length by ring, ← add_assoc]
    generalize (1 + 1 / 2 ^ 64 : ℚ) ^ i = p at *
    have hb := abs_le.1 h
    have ha0 : 0 ≤ value a := by nlinarith
    have hap : value a ≤ p * S := by linarith [hb.2]
    have hpS : p * S ≤ 3 / 2 * S := mul_le_mul_of_nonneg_right hp2 hS
    obtain ⟨h1, h2, h3⟩ := accumulate_ok ha hd ha0 hd0 (by
      rcases hbig with h0 | h0
      · exact .inl h0
      · right; linarith) (by linarith)
    obtain ⟨b, h4, h5, h6, h7, h8⟩ := hstep h2 (by linarith) (by
      have := abs_sub_le (value (add a d)) (value a + value d) (S + value d)
      rw [show value a + value d - (S + value d) = value a - S by ring] at this
      refine le_trans this ?_
      have h9 : (value a + value d) / 2 ^ 64 ≤ (p * S + value d) * (1 / 2 ^ 64) := by
        rw [div_eq_mul_one_div]
        exact mul_le_mul_of_nonneg_right (by linarith) (by positivity)
      have h10 : (0 : ℚ) ≤ (p - 1) * (1 + 1 / 2 ^ 64) * value d := by
        have : 0 ≤ p - 1 := by linarith
        positivity
      have := le_trans (add_le_add h3 h) (add_le_add_left h9 _)
      linarith) (fun e he => hds e (List.mem_cons_of_mem _ he)) (by linarith) (by omega)
    have hle := le_add ha hd ha0 hd0
    have hla : value a ≤ value b := le_trans (by rw [value_key a, value_key (add a d), fval_le]; exact hle.1) h7
    have hlb : value d ≤ value b := le_trans (by rw [value_key d, value_key (add a d), fval_le]; exact hle.2) h7
    refine ⟨b, ?_, h5, h6, hla, ?_⟩
    · unfold sumAll
      rw [h1]
      exact h4
    · intro e he
      rcases List.mem_cons.1 he with rfl | he
      · exact hlb
      · exact h8 e he

theorem accumulate_next {a d b : F80} (h : accumulate a d = (.ok (), b)) : b = add a d := by
  unfold accumulate at h
  split_ifs at h <;> simp only [Prod.mk.injEq, reduceCtorEq, false_and, true_and] at h
  exact h.symm

/-- A sum that did not throw, with its error. -/
theorem sum_accepted (D : ℚ) (hD : 2 * D < tooLarge F80) (ds : List F80) : ∀ (a b : F80) (S : ℚ) (i : Nat), Finite a → 0 ≤ S →
    |value a - S| ≤ ((1 + 1 / 2 ^ 64) ^ i - 1) * S →
    (∀ d ∈ ds, Finite d ∧ 0 ≤ value d) → S + (ds.map value).sum ≤ D →
    i + ds.length ≤ 2 ^ 62 → sumAll ds a = (.ok (), b) →
    Finite b ∧
      |value b - (S + (ds.map value).sum)| ≤ ((1 + 1 / 2 ^ 64) ^ (i + ds.length) - 1) * (S + (ds.map value).sum) ∧
      value a ≤ value b ∧ ∀ d ∈ ds, value d ≤ value b := by
  induction ds with
  | nil =>
    intro a b S i ha hS h _ _ _ hs
    simp only [sumAll, Prod.mk.injEq, true_and] at hs
    subst hs
    exact ⟨ha, by simpa using h, le_refl _, by simp⟩
  | cons d ds ih =>
    intro a b S i ha hS h hds hsum hn hs
    obtain ⟨hd, hd0⟩ := hds d (by simp)
    simp only [List.map_cons, List.sum_cons, List.length_cons] at hsum hn ⊢
    have hrest : 0 ≤ (ds.map value).sum := List.sum_nonneg (by
      intro q hq
      obtain ⟨e, he, rfl⟩ := List.mem_map.1 hq
      exact (hds e (List.mem_cons_of_mem _ he)).2)
    have hnext : sumAll ds (add a d) = (.ok (), b) := by
      unfold sumAll at hs
      rcases hacc : accumulate a d with ⟨r, a'⟩
      rw [hacc] at hs
      cases r with
      | error e => simp at hs
      | ok u =>
        cases u
        rw [← accumulate_next hacc]
        exact hs
    have hp1 : (1 : ℚ) ≤ (1 + 1 / 2 ^ 64) ^ i := one_le_pow₀ (by norm_num)
    have hp2 : (1 + 1 / 2 ^ 64 : ℚ) ^ i ≤ 3 / 2 := pow_le_half (by omega)
    have hps : (1 + 1 / 2 ^ 64 : ℚ) ^ (i + 1) = (1 + 1 / 2 ^ 64) ^ i * (1 + 1 / 2 ^ 64) := pow_succ _ _
    have hstep := ih (add a d) b (S + value d) (i + 1)
    rw [hps] at hstep
    rw [show i + (ds.length + 1) = i + 1 + ds.length by ring, ← add_assoc]
    generalize (1 + 1 / 2 ^ 64 : ℚ) ^ i = p at *
    have hb := abs_le.1 h
    have ha0 : 0 ≤ value a := by nlinarith
    have hap : value a ≤ p * S := by linarith [hb.2]
    have hpS : p * S ≤ 3 / 2 * S := mul_le_mul_of_nonneg_right hp2 hS
    have hs0 : (0 : ℚ) ≤ value a + value d := by linarith
    obtain ⟨h2, h3⟩ := add_error ha hd (by rw [abs_of_nonneg hs0]; linarith)
    rw [abs_of_nonneg hs0, show Binary.frac F80 + 1 = 64 from rfl] at h3
    obtain ⟨h5, h6, h7, h8⟩ := hstep h2 (by linarith) (by
      have := abs_sub_le (value (add a d)) (value a + value d) (S + value d)
      rw [show value a + value d - (S + value d) = value a - S by ring] at this
      refine le_trans this ?_
      have h9 : (value a + value d) / 2 ^ 64 ≤ (p * S + value d) * (1 / 2 ^ 64) := by
        rw [div_eq_mul_one_div]
        exact mul_le_mul_of_nonneg_right (by linarith) (by positivity)
      have h10 : (0 : ℚ) ≤ (p - 1) * (1 + 1 / 2 ^ 64) * value d := by
        have : 0 ≤ p - 1 := by linarith
        positivity
      have := le_trans (add_le_add h3 h) (add_le_add_left h9 _)
      linarith) (fun e he => hds e (List.mem_cons_of_mem _ he)) (by linarith) (by omega) hnext
    have hle := le_add ha hd ha0 hd0
    have hla : value a ≤ value b := le_trans (by rw [value_key a, value_key (add a d), fval_le]; exact hle.1) h7
    have hlb : value d ≤ value b := le_trans (by rw [value_key d, value_key (add a d), fval_le]; exact hle.2) h7
    refine ⟨h5, h6, hla, ?_⟩
    intro e he
    rcases List.mem_cons.1 he with rfl | he
    · exact hlb
    · exact h8 e he

/-- Sums of natural numbers up to `2^64` are exact. -/
theorem sum_exact (ds : List F80) : ∀ (a : F80) (A : Nat) (zs : List Nat), Finite a → value a = A →
    (∀ d ∈ ds, Finite d) → ds.map value = zs.map (fun z : Nat => (z : ℚ)) → A + zs.sum ≤ 2 ^ 64 →
    ∃ b, sumAll ds a = (.ok (), b) ∧ Finite b ∧ value b = ((A + zs.sum : Nat) : ℚ) := by
  induction ds with
  | nil =>
    intro a A zs ha hA _ hz _
    have : zs = [] := by simpa using hz.symm
    subst this
    exact ⟨a, rfl, ha, by simpa using hA⟩
  | cons d ds ih =>
    intro a A zs ha hA hf hz hs
    cases zs with
    | nil => simp at hz
    | cons z zs =>
      simp only [List.map_cons, List.cons.injEq, List.sum_cons] at hz hs
      have hd := hf d (by simp)
      have hex := ofInt_exact (T := F80) (z := ((A + z : Nat) : Int)) (by
        rw [Int.natAbs_natCast, show (fmt F80).frac = 63 from rfl]; omega)
      have hk : key (add a d) = key (ofInt ((A + z : Nat) : Int) : F80) := by
        rw [key_add ha hd, hA, hz.1, ← rnd_value hex.1, hex.2]
        congr 1
        push_cast
        ring
      have hfin : Finite (add a d) := by rw [finite_key, hk, ← finite_key]; exact hex.1
      have hval : value (add a d) = ((A + z : Nat) : ℚ) := by
        rw [value_key, hk, ← value_key, hex.2]; push_cast; rfl
      obtain ⟨b, h1, h2, h3⟩ := ih (add a d) (A + z) zs hfin hval (fun e he => hf e (List.mem_cons_of_mem _ he)) hz.2
        (by omega)
      refine ⟨b, ?_, h2, ?_⟩
      · unfold sumAll
        have hok : accumulate a d = (.ok (), add a d) := by
          unfold accumulate
          rw [if_neg, if_neg]
          · rw [Finite.not_inf hfin]; simp
          · simp only [Bool.and_eq_true, Bool.not_eq_true', not_and, Bool.not_eq_false]
            intro h
            rw [eq_iff hfin ha, hval, hA] at h
            rw [eq_iff hd (finite_zero _), value_zero, hz.1]
            push_cast at h
            linarith
        rw [hok]
        exact h1
      · rw [h3, List.sum_cons, add_assoc]

/-! ### Square roots -/

section
variable {T : Type} [FloType T] [Lawful T]

/-- The rational number that is rounded to give the square root. -/
theorem key_sqrt {a : T} (ha : Finite a) (h0 : value a ≠ 0) : ∃ s : Nat, ∃ q : ℚ, key (sqrt a) = rnd (fmt T) q ∧
    s * s ≤ units a * 2 ^ (fmt T).scale ∧ units a * 2 ^ (fmt T).scale < (s + 1) * (s + 1) ∧
    (s * s = units a * 2 ^ (fmt T).scale ∧ q = s / 2 ^ (fmt T).scale ∨
     s * s < units a * 2 ^ (fmt T).scale ∧ q = (s + 1 / 2) / 2 ^ (fmt T).scale) := by
  have hu : units a ≠ 0 := by
    rw [Ne, units_eq_zero]
    intro h
    exact h0 (by rw [value_key, h, fval_zero])
  have hl := Nat.sqrt_le (units a * 2 ^ (fmt T).scale)
  have hs := Nat.sqrt_lt.1 (Nat.lt_succ_self (Nat.sqrt (units a * 2 ^ (fmt T).scale)))
  have hP : (0 : ℚ) < 2 ^ (fmt T).scale := by positivity
  have hPn : 0 < 2 ^ (fmt T).scale := by positivity
  unfold sqrt
  rw [if_neg (by rw [Finite.not_nan ha]; simp), if_neg (by rw [Finite.not_inf ha]; simp [hu])]
  simp only
  rw [key_roundTo _ _ (by positivity)]
  generalize hn : units a * 2 ^ (fmt T).scale = n at *
  generalize Nat.sqrt n = s at *
  by_cases he : s * s = n
  · refine ⟨s, _, rfl, hl, hs, .inl ⟨he, ?_⟩⟩
    rw [show signOf false = (1 : ℚ) from rfl, one_mul]
    simp only [if_pos he]
    push_cast
    field_simp
  · refine ⟨s, _, rfl, hl, hs, .inr ⟨by omega, ?_⟩⟩
    rw [show signOf false = (1 : ℚ) from rfl, one_mul]
    simp only [if_neg he]
    push_cast
    field_simp

/-- The parts of a pattern: the number is `c` gaps below it, and the gap is a power of two. -/
theorem mag_gaps (F : Fmt) (m : Nat) (hm : 2 ≤ m / 2 ^ F.frac) : ∃ c h, 1 ≤ c ∧ c ≤ 2 * 2 ^ F.frac ∧ h = 2 ^ (m / 2 ^ F.frac - 2) ∧
    F.mag (m + 1) = 2 * c * h ∧ F.mag m = 2 * c * h - 2 * h := by
  refine ⟨2 ^ F.frac + m % 2 ^ F.frac + 1, 2 ^ (m / 2 ^ F.frac - 2), by omega, ?_, rfl, ?_, ?_⟩
  · have := Nat.mod_lt m (show 0 < 2 ^ F.frac by positivity)
    omega
  · rw [F.mag_succ]
    unfold Fmt.mag
    rw [if_neg (by omega), show m / 2 ^ F.frac - 1 = m / 2 ^ F.frac - 2 + 1 by omega, pow_succ]
    ring
  · unfold Fmt.mag
    rw [if_neg (by omega), show m / 2 ^ F.frac - 1 = m / 2 ^ F.frac - 2 + 1 by omega, pow_succ]
    generalize 2 ^ (m / 2 ^ F.frac - 2) = h
    generalize 2 ^ F.frac + m % 2 ^ F.frac = c
    rw [show 2 * (c + 1) * h = c * (h * 2) + 2 * h by ring]
    omega

/-- A power of two that is a multiple of the unit and not too large is a number. -/
theorem rnd_pow {e : Nat} (hq : (2 : ℚ) ^ e / 2 ^ (fmt T).scale < tooLarge T) :
    fval (fmt T) (rnd (fmt T) ((2 : ℚ) ^ e / 2 ^ (fmt T).scale)) = (2 : ℚ) ^ e / 2 ^ (fmt T).scale := by
  have hP : 0 < 2 ^ (fmt T).frac := by positivity
  obtain ⟨m, _, hm⟩ := mag_exists (fmt T) e 1 (by omega)
  have hv : fval (fmt T) (m : Int) = (2 : ℚ) ^ e / 2 ^ (fmt T).scale := by
    rw [fval_nat, hm]
    push_cast
    ring
  rw [← hv] at hq ⊢
  rw [rnd_fval Lawful.good]
  by_contra hlt
  push Not at hlt
  have h1 : fval (fmt T) ((fmt T).inf : Nat) ≤ fval (fmt T) (m : Int) := fval_le.2 (by omega)
  have h2 := rnd_mono (Lawful.good (T := T)) h1
  rw [rnd_fval Lawful.good (by simp)] at h2
  have h3 := rnd_finite (T := T) (q := fval (fmt T) (m : Int)) (by rwa [abs_of_nonneg (fval_nonneg (by omega))])
  omega

/-- The square root of a rounded square, or of anything larger, is not less than the number. -/
theorem sqrt_ge {t a : T} (ht : Finite t) (ht0 : 0 < value t) (hgap : 2 ≤ ((key t).natAbs - 1) / 2 ^ (fmt T).frac)
    (hgrid : ∃ z : Int, value t ^ 2 = z / 2 ^ (fmt T).scale) (hsq : value t ^ 2 < tooLarge T) (ha : Finite a)
    (hle : rnd (fmt T) (value t ^ 2) ≤ key a) : key t ≤ key (sqrt a) := by
  have hk0 : 0 < key t := by rwa [value_key, fval_pos] at ht0
  obtain ⟨m, hm⟩ : ∃ m : Nat, key t = (m + 1 : Nat) := ⟨(key t).natAbs - 1, by omega⟩
  rw [hm, Int.natAbs_natCast, Nat.add_sub_cancel] at hgap
  obtain ⟨c, h, hc1, hc2, hh, hX, hm0⟩ := mag_gaps (fmt T) m hgap
  have hP : (0 : ℚ) < 2 ^ (fmt T).scale := by positivity
  have hPn : 0 < 2 ^ (fmt T).scale := by positivity
  have hhpos : 0 < h := by rw [hh]; positivity
  have hvt : value t = (2 * c * h : Nat) / 2 ^ (fmt T).scale := by rw [value_key, hm, fval_nat, hX]
  -- the rounded square
  have hp : (((2 * c - 1) * h : Nat) : ℚ) ^ 2 / 2 ^ (fmt T).scale / 2 ^ (fmt T).scale < fval (fmt T) (rnd (fmt T) (value t ^ 2)) := by
    obtain ⟨z, hz⟩ := hgrid
    have hfin := rnd_finite (T := T) (q := value t ^ 2) (by rwa [abs_of_nonneg (by positivity)])
    have hsqv : value t ^ 2 = ((2 * c * h : Nat) : ℚ) ^ 2 / 2 ^ (fmt T).scale / 2 ^ (fmt T).scale := by
      rw [hvt, div_pow, div_div, ← pow_two]
    have hcq : ((2 * c - 1 : Nat) : ℚ) = 2 * c - 1 := by
      rw [Nat.cast_sub (by omega)]; push_cast; rfl
    have hhq : (0 : ℚ) < h := by exact_mod_cast hhpos
    have hcq1 : (1 : ℚ) ≤ c := by exact_mod_cast hc1
    by_cases hc : c = 2 * 2 ^ (fmt T).frac
    · -- a power of two
      have hpow : ∃ e : Nat, value t ^ 2 = (2 : ℚ) ^ e / 2 ^ (fmt T).scale := by
        have e1 : ((2 * c * h : Nat) : ℚ) = 2 ^ (2 + (fmt T).frac + (m / 2 ^ (fmt T).frac - 2)) := by
          rw [hc, hh]
          push_cast
          rw [pow_add, pow_add]
          ring
        generalize 2 + (fmt T).frac + (m / 2 ^ (fmt T).frac - 2) = j at e1
        rw [hsqv, e1] at hz ⊢
        have hzz : ((2 : ℚ) ^ j) ^ 2 / 2 ^ (fmt T).scale = z := by
          field_simp at hz
          field_simp
          linarith
        have hzn : (2 : Int) ^ (2 * j) = z * 2 ^ (fmt T).scale := by
          rw [div_eq_iff hP.ne', ← pow_mul, mul_comm j 2] at hzz
          exact_mod_cast hzz
        have hj : (fmt T).scale ≤ 2 * j := by
          by_contra hlt
          push Not at hlt
          have h1 : (2 : Int) ^ (2 * j) < 2 ^ (fmt T).scale := pow_lt_pow_right₀ (by norm_num) hlt
          have h2 : (0 : Int) < 2 ^ (2 * j) := by positivity
          have h3 : (0 : Int) < 2 ^ (fmt T).scale := by positivity
          rw [hzn] at h1 h2
          have h4 : 0 < z := by
            by_contra h0
            push Not at h0
            nlinarith
          nlinarith
        refine ⟨2 * j - (fmt T).scale, ?_⟩
        rw [← pow_mul, mul_comm j 2]
        congr 1
        rw [div_eq_iff hP.ne', ← pow_add]
        congr 1
        omega
      obtain ⟨e, he⟩ := hpow
      rw [he] at hsq
      rw [he, rnd_pow hsq, ← he, hsqv]
      rw [div_lt_div_iff_of_pos_right hP, div_lt_div_iff_of_pos_right hP]
      push_cast
      rw [hcq]
      have : ((2 * (c : ℚ) - 1) * h) < 2 * c * h := by nlinarith
      exact pow_lt_pow_left₀ this (by apply mul_nonneg _ hhq.le; linarith) (by norm_num)
    · have herr : |fval (fmt T) (rnd (fmt T) (value t ^ 2)) - value t ^ 2| ≤ value t ^ 2 / 2 ^ ((fmt T).frac + 1) := by
        have := hfin
        rw [hz] at this ⊢
        have := rnd_error_int (Lawful.good (T := T)) this
        rwa [← hz, abs_of_nonneg (show (0 : ℚ) ≤ value t ^ 2 by positivity), hz] at this
      have hlow := (abs_le.1 herr).1
      refine lt_of_lt_of_le ?_ (show value t ^ 2 - value t ^ 2 / 2 ^ ((fmt T).frac + 1) ≤ _ by linarith)
      have hPf : (1 : ℚ) ≤ 2 ^ (fmt T).frac := one_le_pow₀ (by norm_num)
      have hc3 : (c : ℚ) + 1 ≤ 2 * 2 ^ (fmt T).frac := by
        have : c + 1 ≤ 2 * 2 ^ (fmt T).frac := by omega
        exact_mod_cast this
      rw [hsqv, pow_succ (2 : ℚ) (fmt T).frac]
      push_cast
      rw [hcq]
      generalize (2 : ℚ) ^ (fmt T).frac = P at *
      rw [show (2 * (c : ℚ) * h) ^ 2 / 2 ^ (fmt T).scale / 2 ^ (fmt T).scale -
          (2 * (c : ℚ) * h) ^ 2 / 2 ^ (fmt T).scale / 2 ^ (fmt T).scale / (P * 2) =
          ((2 * (c : ℚ) * h) ^ 2 - (2 * (c : ℚ) * h) ^ 2 / (P * 2)) / 2 ^ (fmt T).scale / 2 ^ (fmt T).scale by ring,
        div_lt_div_iff_of_pos_right hP, div_lt_div_iff_of_pos_right hP]
      have h1 : (2 * (c : ℚ) * h) ^ 2 / (P * 2) < (4 * c - 1) * (h : ℚ) ^ 2 := by
        rw [div_lt_iff₀ (by linarith)]
        have h2 : 0 ≤ ((c : ℚ) - 1) * (2 * P - c - 1) := mul_nonneg (by linarith) (by linarith)
        have h3 : (2 * (c : ℚ)) ^ 2 < (4 * c - 1) * (P * 2) := by nlinarith
        have h4 := mul_lt_mul_of_pos_right h3 (pow_pos hhq 2)
        nlinarith
      rw [show ((2 * (c : ℚ) - 1) * h) ^ 2 = (2 * (c : ℚ) * h) ^ 2 - (4 * c - 1) * (h : ℚ) ^ 2 by ring]
      linarith
  have hv : fval (fmt T) (rnd (fmt T) (value t ^ 2)) ≤ value a := by
    rw [value_key a]; exact fval_le.2 hle
  have hva : value a = (units a : ℚ) / 2 ^ (fmt T).scale := by
    rw [← abs_value, abs_of_nonneg]
    exact le_trans (fval_nonneg (rnd_nonneg (by positivity))) hv
  have hM : ((2 * c - 1) * h) * ((2 * c - 1) * h) < units a * 2 ^ (fmt T).scale := by
    have h1 := lt_of_lt_of_le hp hv
    rw [hva, div_lt_div_iff_of_pos_right hP, div_lt_iff₀ hP, pow_two] at h1
    exact_mod_cast h1
  have ha0 : value a ≠ 0 := by
    have : (0 : ℚ) ≤ (((2 * c - 1) * h : Nat) : ℚ) ^ 2 / 2 ^ (fmt T).scale / 2 ^ (fmt T).scale := by positivity
    exact (lt_of_le_of_lt this (lt_of_lt_of_le hp hv)).ne'
  obtain ⟨s, q, hks, hs1, hs2, hs3⟩ := key_sqrt ha ha0
  rw [hks, hm]
  refine rnd_above Lawful.good (by omega) ?_ ?_
  · rw [finite_key, hm] at ht
    exact ht
  · have e1 : fval (fmt T) (((m + 1 : Nat) : Int) - 1) = (2 * c * h - 2 * h : Nat) / 2 ^ (fmt T).scale := by
      rw [show (((m + 1 : Nat) : Int) - 1) = (m : Nat) by push_cast; ring, fval_nat, hm0]
    rw [e1, fval_nat, hX]
    have h2 : 2 * h ≤ 2 * c * h := Nat.mul_le_mul_right h (by omega)
    have h3 : h ≤ 2 * c * h := by omega
    have e2 : (((2 * c * h - 2 * h : Nat) : ℚ) / 2 ^ (fmt T).scale + ((2 * c * h : Nat) : ℚ) / 2 ^ (fmt T).scale) / 2 =
        (((2 * c - 1) * h : Nat) : ℚ) / 2 ^ (fmt T).scale := by
      rw [Nat.sub_mul, one_mul, Nat.cast_sub h2, Nat.cast_sub h3]
      push_cast
      field_simp
      ring
    rw [e2]
    generalize (2 * c - 1) * h = M at *
    have hMs : M ≤ s := by
      by_contra hlt
      push Not at hlt
      have : (s + 1) * (s + 1) ≤ M * M := Nat.mul_le_mul hlt hlt
      omega
    have hMq : (M : ℚ) ≤ s := by exact_mod_cast hMs
    rcases hs3 with ⟨h4, h5⟩ | ⟨h4, h5⟩
    · rw [h5, div_lt_div_iff_of_pos_right hP]
      have : M < s := by
        rcases Nat.lt_or_ge M s with h6 | h6
        · exact h6
        · have : M = s := by omega
          subst this
          omega
      exact_mod_cast this
    · rw [h5, div_lt_div_iff_of_pos_right hP]
      linarith

/-- What is rounded is within half a unit of the real square root, and not too large. -/
theorem sqrt_near {a : T} (h0 : 0 < value a) {s : Nat} {q : ℚ}
    (hs1 : s * s ≤ units a * 2 ^ (fmt T).scale) (hs2 : units a * 2 ^ (fmt T).scale < (s + 1) * (s + 1))
    (hs3 : s * s = units a * 2 ^ (fmt T).scale ∧ q = s / 2 ^ (fmt T).scale ∨
      s * s < units a * 2 ^ (fmt T).scale ∧ q = (s + 1 / 2) / 2 ^ (fmt T).scale) :
    |(q : ℝ) - Real.sqrt (value a : ℝ)| ≤ 1 / 2 / 2 ^ (fmt T).scale ∧ 0 ≤ q ∧ (q ≤ 1 ∨ q ≤ value a) := by
  have hva : value a = (units a : ℚ) / 2 ^ (fmt T).scale := by rw [← abs_value, abs_of_pos h0]
  have hPn : 0 < 2 ^ (fmt T).scale := by positivity
  have hq0 : 0 ≤ q := by rcases hs3 with ⟨_, h⟩ | ⟨_, h⟩ <;> rw [h] <;> positivity
  refine ⟨?_, hq0, ?_⟩
  · have hP : (0 : ℝ) < 2 ^ (fmt T).scale := by positivity
    have hr : Real.sqrt ((units a * 2 ^ (fmt T).scale : Nat) : ℝ) = Real.sqrt (value a : ℝ) * 2 ^ (fmt T).scale := by
      rw [← Real.sqrt_sq hP.le, ← Real.sqrt_mul (by exact_mod_cast h0.le)]
      congr 1
      rw [hva]
      push_cast
      field_simp
    have l1 : (s : ℝ) ≤ Real.sqrt (value a : ℝ) * 2 ^ (fmt T).scale := by
      rw [← hr]
      apply Real.le_sqrt_of_sq_le
      rw [pow_two]
      exact_mod_cast hs1
    have l2 : Real.sqrt (value a : ℝ) * 2 ^ (fmt T).scale ≤ s + 1 := by
      rw [← hr, Real.sqrt_le_left (by positivity), pow_two]
      exact_mod_cast hs2.le
    have hqq : |(q : ℝ) * 2 ^ (fmt T).scale - Real.sqrt (value a : ℝ) * 2 ^ (fmt T).scale| ≤ 1 / 2 := by
      rcases hs3 with ⟨h4, h5⟩ | ⟨h4, h5⟩
      · have : Real.sqrt ((units a * 2 ^ (fmt T).scale : Nat) : ℝ) = s := by
          rw [← h4]
          push_cast
          exact Real.sqrt_mul_self (by positivity)
        rw [← hr, this, h5]
        push_cast
        rw [div_mul_cancel₀ _ hP.ne', sub_self, abs_zero]
        norm_num
      · rw [h5]
        push_cast
        rw [div_mul_cancel₀ _ hP.ne', abs_le]
        constructor <;> linarith
    rw [← sub_mul, abs_mul, abs_of_pos hP] at hqq
    rw [le_div_iff₀ hP]
    exact hqq
  · have hP : (0 : ℚ) < 2 ^ (fmt T).scale := by positivity
    by_cases hu : units a < 2 ^ (fmt T).scale
    · left
      have h1 : s < 2 ^ (fmt T).scale := by
        by_contra hlt
        push Not at hlt
        have h2 : 2 ^ (fmt T).scale * 2 ^ (fmt T).scale ≤ s * s := Nat.mul_le_mul hlt hlt
        have h3 : units a * 2 ^ (fmt T).scale < 2 ^ (fmt T).scale * 2 ^ (fmt T).scale := Nat.mul_lt_mul_of_pos_right hu hPn
        omega
      have h2 : (s : ℚ) + 1 ≤ 2 ^ (fmt T).scale := by exact_mod_cast h1
      rcases hs3 with ⟨_, h5⟩ | ⟨_, h5⟩ <;> rw [h5, div_le_one hP] <;> linarith
    · right
      push Not at hu
      have h1 : s ≤ units a := by
        by_contra hlt
        push Not at hlt
        have h2 : s * s ≤ units a * units a := le_trans hs1 (Nat.mul_le_mul_left _ hu)
        have h3 : units a * units a < s * s := Nat.mul_lt_mul'' hlt hlt
        omega
      rcases hs3 with ⟨_, h5⟩ | ⟨h4, h5⟩
      · rw [h5, hva, div_le_div_iff_of_pos_right hP]
        exact_mod_cast h1
      · rw [h5, hva, div_le_div_iff_of_pos_right hP]
        have h2 : s + 1 ≤ units a := by
          rcases Nat.lt_or_ge s (units a) with h6 | h6
          · exact h6
          · have : s = units a := by omega
            subst this
            have := Nat.mul_le_mul_left (units a) hu
            omega
        have : (s : ℚ) + 1 ≤ units a := by exact_mod_cast h2
        linarith

end

/-- The error of the square root of a `long double` that is not extremely small. -/
theorem sqrt_error {a : F80} (ha : Finite a) (hlo : 1 / 2 ^ 3000 ≤ value a) :
    Finite (sqrt a) ∧ |(value (sqrt a) : ℝ) - Real.sqrt (value a : ℝ)| ≤ Real.sqrt (value a : ℝ) / 2 ^ 62 := by
  have h0 : 0 < value a := lt_of_lt_of_le (by positivity) hlo
  obtain ⟨s, q, hk, hs1, hs2, hs3⟩ := key_sqrt ha h0.ne'
  obtain ⟨h1, h2, h3⟩ := sqrt_near h0 hs1 hs2 hs3
  have hq : |q| < tooLarge F80 := by
    rw [abs_of_nonneg h2]
    have ho := (rnd_finite_iff (T := F80) (q := 1)).1 (by
      have h4 := ofInt_exact (T := F80) (z := 1) (by decide +kernel)
      have h5 := key_ofInt (T := F80) 1
      rw [Int.cast_one] at h5
      rw [← h5, ← finite_key]
      exact h4.1)
    have hx := (rnd_finite_iff (T := F80) (q := value a)).1 (by
      rw [rnd_value ha, ← finite_key]; exact ha)
    rw [abs_of_pos h0] at hx
    rw [abs_one] at ho
    rcases h3 with h3 | h3 <;> linarith
  have hf := rnd_finite hq
  refine ⟨by rw [finite_key, hk]; exact hf, ?_⟩
  have he := rnd_error (Lawful.good (T := F80)) hf
  rw [← hk, ← value_key, abs_of_nonneg h2, show (fmt F80).frac + 1 = 64 from rfl] at he
  have hw : (1 : ℚ) / 2 / 2 ^ (fmt F80).scale ≤ 1 / 2 ^ 1600 := by
    rw [div_div, ← pow_succ']
    exact one_div_le_one_div_of_le (by positivity) (pow_le_pow_right₀ (by norm_num) (by decide +kernel))
  have hwr : (1 : ℝ) / 2 / 2 ^ (fmt F80).scale ≤ 1 / 2 ^ 1600 := by
    have := (Rat.cast_le (K := ℝ)).2 hw
    push_cast at this
    exact this
  have hr : (1 : ℝ) / 2 ^ 1500 ≤ Real.sqrt (value a : ℝ) := by
    apply Real.le_sqrt_of_sq_le
    rw [div_pow, one_pow, ← pow_mul]
    have := (Rat.cast_le (K := ℝ)).2 hlo
    push_cast at this
    exact this
  have hww : (1 : ℝ) / 2 ^ 1600 ≤ Real.sqrt (value a : ℝ) / 2 ^ 100 := by
    rw [le_div_iff₀ (by positivity)]
    refine le_trans (le_of_eq ?_) hr
    rw [show (2 : ℝ) ^ 1600 = 2 ^ 1500 * 2 ^ 100 by rw [← pow_add]]
    field_simp
  have he' : |(value (sqrt a) : ℝ) - q| ≤ Real.sqrt (value a : ℝ) / 2 ^ 100 ∨ |(value (sqrt a) : ℝ) - q| ≤ (q : ℝ) / 2 ^ 64 := by
    rcases he with he | he
    · left
      refine le_trans ?_ hww
      have := (Rat.cast_le (K := ℝ)).2 (le_trans he hw)
      push_cast at this
      exact this
    · right
      have := (Rat.cast_le (K := ℝ)).2 he
      push_cast at this
      exact this
  have h4 := le_trans h1 (le_trans hwr hww)
  generalize (value (sqrt a) : ℝ) = C at *
  generalize Real.sqrt (value a : ℝ) = r at *
  generalize (q : ℝ) = p at *
  have hr0 : 0 ≤ r := le_trans (by positivity) hr
  have h5 := abs_sub_le C p r
  have h6 := (abs_le.1 h4).2
  have h7 : r / 2 ^ 100 ≤ r / 2 ^ 64 := div_le_div_of_nonneg_left hr0 (by positivity) (by norm_num)
  clear hr hww hwr hw hlo
  rcases he' with he | he <;> linarith

end Feat.FloatNorms
