import Verif.Model.FloatTfidf
import Verif.Spec.FloatTfidf
import Verif.Proofs.FloatSums
import Verif.Props.FloatWindows
import Mathlib.Analysis.Complex.ExponentialBounds
/-
Relative errors of the tf-idf vectorizer.
-/
namespace Feat.FloatTfidf
open Feat.FloatText Feat.FloatArith
variable {ε δ x y z x' y' : ℝ}

theorem Rel.refl (x : ℝ) : Rel 0 x x := by simp [Rel]

theorem Rel.mono (h : Rel ε x y) (hy : 0 ≤ y) (he : ε ≤ δ) : Rel δ x y :=
  le_trans h (mul_le_mul_of_nonneg_right he hy)

theorem Rel.upper (h : Rel ε x y) : x ≤ (1 + ε) * y := by
  have := (abs_le.1 h).2
  linarith

theorem Rel.lower (h : Rel ε x y) : (1 - ε) * y ≤ x := by
  have := (abs_le.1 h).1
  linarith

theorem Rel.trans (h : Rel ε x y) (h' : Rel δ y z) (he : 0 ≤ ε) : Rel (ε + δ + ε * δ) x z := by
  have e : x - z = (x - y) + (y - z) := by ring
  unfold Rel
  rw [e]
  refine le_trans (abs_add_le _ _) ?_
  have h1 := h'.upper
  have : ε * y ≤ ε * ((1 + δ) * z) := mul_le_mul_of_nonneg_left h1 he
  have h2 : |x - y| ≤ ε * y := h
  have h3 : |y - z| ≤ δ * z := h'
  nlinarith

theorem Rel.mul (h : Rel ε x x') (h' : Rel δ y y') (he : 0 ≤ ε) (hx : 0 ≤ x') (hy : 0 ≤ y') (_ : 0 ≤ δ) :
    Rel (ε + δ + ε * δ) (x * y) (x' * y') := by
  have e : x * y - x' * y' = (x - x') * (y - y') + (x - x') * y' + x' * (y - y') := by ring
  unfold Rel
  rw [e]
  have h1 : |x - x'| ≤ ε * x' := h
  have h2 : |y - y'| ≤ δ * y' := h'
  refine le_trans (abs_add_le _ _) ?_
  refine le_trans (add_le_add_left (abs_add_le _ _) _) ?_
  rw [abs_mul, abs_mul, abs_mul, abs_of_nonneg hx, abs_of_nonneg hy]
  have h3 : |x - x'| * |y - y'| ≤ (ε * x') * (δ * y') := mul_le_mul h1 h2 (abs_nonneg _) (by positivity)
  have h4 : |x - x'| * y' ≤ ε * x' * y' := mul_le_mul_of_nonneg_right h1 hy
  have h5 : x' * |y - y'| ≤ x' * (δ * y') := mul_le_mul_of_nonneg_left h2 hx
  nlinarith

theorem Rel.div (h : Rel ε x x') (h' : Rel δ y y') (he : 0 ≤ ε) (hd : 0 ≤ δ) (hd2 : δ ≤ 1 / 2) (hx : 0 ≤ x') (hy : 0 < y') :
    Rel (2 * (ε + δ)) (x / y) (x' / y') := by
  have hlow : y' / 2 ≤ y := by
    have := h'.lower
    nlinarith
  have hy0 : 0 < y := by linarith
  have e : x / y - x' / y' = ((x - x') * y' + x' * (y' - y)) / (y * y') := by
    field_simp; ring
  unfold Rel
  rw [e, abs_div, abs_of_pos (mul_pos hy0 hy), div_le_iff₀ (mul_pos hy0 hy)]
  refine le_trans (abs_add_le _ _) ?_
  rw [abs_mul, abs_mul, abs_of_nonneg hx, abs_of_pos hy, abs_sub_comm y' y]
  have h1 : |x - x'| ≤ ε * x' := h
  have h2 : |y - y'| ≤ δ * y' := h'
  have h4 : |x - x'| * y' ≤ ε * x' * y' := mul_le_mul_of_nonneg_right h1 hy.le
  have h5 : x' * |y - y'| ≤ x' * (δ * y') := mul_le_mul_of_nonneg_left h2 hx
  have e2 : 2 * (ε + δ) * (x' / y') * (y * y') = 2 * ((ε + δ) * x') * y := by field_simp
  rw [e2]
  have h6 : 0 ≤ (ε + δ) * x' := by positivity
  nlinarith

theorem Rel.sqrt (h : Rel ε x y) (_ : 0 ≤ ε) (he2 : ε ≤ 1) (hy : 0 < y) : Rel ε (Real.sqrt x) (Real.sqrt y) := by
  have hx : 0 ≤ x := by
    have := h.lower
    nlinarith
  have h1 : |x - y| ≤ ε * y := h
  have hsx := Real.sqrt_nonneg x
  have hsy := Real.sqrt_pos.2 hy
  have e1 := Real.mul_self_sqrt hx
  have e2 := Real.mul_self_sqrt hy.le
  unfold Rel
  generalize Real.sqrt x = a at *
  generalize Real.sqrt y = b at *
  subst e1
  subst e2
  have e3 : a * a - b * b = (a - b) * (a + b) := by ring
  rw [e3, abs_mul, abs_of_nonneg (by linarith : 0 ≤ a + b)] at h1
  by_contra hc
  push Not at hc
  have h0 := abs_nonneg (a - b)
  have : ε * b * b < |a - b| * (a + b) := by nlinarith
  linarith

theorem Rel.sum {A : Type} (f g : A → ℝ) (l : List A) (h : ∀ a ∈ l, Rel ε (f a) (g a)) :
    Rel ε (l.map f).sum (l.map g).sum := by
  induction l with
  | nil => simp [Rel]
  | cons a l ih =>
    have h1 : |f a - g a| ≤ ε * g a := h a (by simp)
    have h2 : |(l.map f).sum - (l.map g).sum| ≤ ε * (l.map g).sum := ih fun b hb => h b (by simp [hb])
    unfold Rel
    simp only [List.map_cons, List.sum_cons]
    have e : f a + (l.map f).sum - (g a + (l.map g).sum) = (f a - g a) + ((l.map f).sum - (l.map g).sum) := by ring
    rw [e]
    refine le_trans (abs_add_le _ _) ?_
    linarith

/-! ### One operation -/

theorem tooLarge_float : (2 : ℚ) ^ 127 ≤ tooLarge F32 := by
  have h2 : tooLarge F32 = ((fmt F32).limit : ℚ) / 2 ^ (fmt F32).scale := by
    rw [limit_units]; field_simp
  rw [h2]
  decide +kernel

theorem tooLarge_double : (2 : ℚ) ^ 127 ≤ tooLarge F64 := le_trans tooLarge_float FloatWindows.ToDouble.small

/-- A rounded number of ordinary size. -/
theorem rounded {T : Type} [FloType T] [Lawful T] (hT : (2 : ℚ) ^ 127 ≤ tooLarge T)
    (hs : (fmt T).frac + 101 ≤ (fmt T).scale) {r : T} {q : ℚ} (hk : key r = rnd (fmt T) q)
    (hlo : 1 / 2 ^ 100 ≤ q) (hhi : q < 2 ^ 127) : Finite r ∧ Rel (1 / 2 ^ ((fmt T).frac + 1)) (value r : ℝ) (q : ℝ) := by
  have h0 : 0 < q := lt_of_lt_of_le (by positivity) hlo
  have hf := rnd_finite (T := T) (q := q) (by rw [abs_of_pos h0]; linarith)
  refine ⟨by rw [finite_key, hk]; exact hf, ?_⟩
  have he := rnd_error (Lawful.good (T := T)) hf
  rw [← hk, ← value_key, abs_of_pos h0] at he
  have hx : |value r - q| ≤ 1 / 2 ^ ((fmt T).frac + 1) * q := by
    rcases he with h | h
    · refine le_trans h ?_
      have h1 : (1 : ℚ) / 2 / 2 ^ (fmt T).scale ≤ 1 / 2 ^ ((fmt T).frac + 1) * (1 / 2 ^ 100) := by
        rw [div_div, ← pow_succ', div_mul_div_comm, one_mul, ← pow_add]
        exact one_div_le_one_div_of_le (by positivity) (pow_le_pow_right₀ (by norm_num) (by omega))
      exact le_trans h1 (mul_le_mul_of_nonneg_left hlo (by positivity))
    · rw [div_mul_eq_mul_div, one_mul]
      exact h
  have := (Rat.cast_le (K := ℝ)).2 hx
  push_cast at this
  exact this

theorem rounded_float {r : F32} {q : ℚ} (hk : key r = rnd (fmt F32) q) (hlo : 1 / 2 ^ 100 ≤ q) (hhi : q < 2 ^ 127) :
    Finite r ∧ Rel (1 / 2 ^ 24) (value r : ℝ) (q : ℝ) := rounded tooLarge_float (by decide) hk hlo hhi

theorem rounded_double {r : F64} {q : ℚ} (hk : key r = rnd (fmt F64) q) (hlo : 1 / 2 ^ 100 ≤ q) (hhi : q < 2 ^ 127) :
    Finite r ∧ Rel (1 / 2 ^ 53) (value r : ℝ) (q : ℝ) := rounded tooLarge_double (by decide) hk hlo hhi

/-! ### The factors -/

theorem one_double : Finite (ofInt 1 : F64) ∧ value (ofInt 1 : F64) = 1 := by
  have := ofInt_exact (T := F64) (z := 1) (by decide +kernel)
  simpa using this

theorem count_double {n : Nat} (hn : n ≤ 2 ^ 32) : Finite (ofInt n : F64) ∧ value (ofInt n : F64) = n :=
  FloatWindows.ofInt_count (le_trans hn (by decide))

theorem log_le {x : ℝ} (h1 : 1 ≤ x) (h2 : x ≤ 2 ^ 32) : Real.log x ≤ 23 := by
  have h := Real.log_le_log (by linarith) h2
  rw [Real.log_pow] at h
  have := Real.log_two_lt_d9
  push_cast at h
  linarith

/-- `1.0 + std::log(r)`. -/
theorem one_plus_log {log : F64 → F64} (hlog : LogAccurate log) {r : F64} {R : ℝ} (hr : Finite r) (hr1 : 1 ≤ value r)
    (hR1 : 1 ≤ R) (hR2 : R ≤ 2 ^ 32) (hrel : Rel (1 / 2 ^ 53) (value r : ℝ) R) :
    Finite (add (ofInt 1) (log r)) ∧ Rel (1 / 2 ^ 50) (value (add (ofInt 1) (log r)) : ℝ) (1 + Real.log R) := by
  obtain ⟨hlf, hlr⟩ := hlog r hr hr1
  have hr1' : (1 : ℝ) ≤ (value r : ℝ) := by exact_mod_cast hr1
  have hup := hrel.upper
  have hlw := hrel.lower
  have hk := key_add one_double.1 hlf
  rw [one_double.2] at hk
  have hL0 : 0 ≤ Real.log R := Real.log_nonneg hR1
  have hl0 : 0 ≤ Real.log (value r : ℝ) := Real.log_nonneg hr1'
  have hL23 := log_le hR1 hR2
  have hd1 : Real.log (value r : ℝ) - Real.log R ≤ 1 / 2 ^ 53 := by
    rw [← Real.log_div (by linarith) (by linarith)]
    refine le_trans (Real.log_le_sub_one_of_pos (by positivity)) ?_
    rw [sub_le_iff_le_add, div_le_iff₀ (by linarith)]
    linarith
  have hd2 : Real.log R - Real.log (value r : ℝ) ≤ 1 / 2 ^ 52 := by
    rw [← Real.log_div (by linarith) (by linarith)]
    refine le_trans (Real.log_le_sub_one_of_pos (by positivity)) ?_
    rw [sub_le_iff_le_add, div_le_iff₀ (by linarith)]
    linarith
  have hlr' := abs_le.1 hlr
  generalize hy : (value (log r) : ℝ) = ℓ at *
  generalize Real.log R = L at *
  generalize Real.log (value r : ℝ) = l at *
  have hl24 : ℓ ≤ 24 := by linarith
  have hl00 : 0 ≤ ℓ := by linarith
  have hq1 : (1 : ℚ) ≤ 1 + value (log r) := by
    have : (0 : ℝ) ≤ (value (log r) : ℝ) := by rw [hy]; exact hl00
    have : (0 : ℚ) ≤ value (log r) := by exact_mod_cast this
    linarith
  have hq2 : 1 + value (log r) ≤ 25 := by
    have : (value (log r) : ℝ) ≤ ((24 : ℚ) : ℝ) := by rw [hy]; push_cast; exact hl24
    have : value (log r) ≤ 24 := by exact_mod_cast this
    linarith
  obtain ⟨hf, he⟩ := rounded_double hk (by linarith) (by linarith)
  refine ⟨hf, ?_⟩
  push_cast at he
  rw [hy] at he
  have h2 : Rel (3 / 2 ^ 52) (1 + ℓ) (1 + L) := by
    unfold Rel
    rw [abs_le]
    constructor <;> linarith
  exact (he.trans h2 (by positivity)).mono (by linarith) (by norm_num)

/-- The quotient of the documents. -/
theorem ratio_near {a b : Nat} (hb : 1 ≤ b) (hab : b ≤ a) (ha : a ≤ 2 ^ 32) {y : F64} (hy : Finite y) (hyv : value y = b) :
    Finite (div (ofInt a) y) ∧ 1 ≤ value (div (ofInt a) y) ∧
      Rel (1 / 2 ^ 53) (value (div (ofInt a) y) : ℝ) ((a : ℝ) / b) ∧ 1 ≤ (a : ℝ) / b ∧ (a : ℝ) / b ≤ 2 ^ 32 := by
  obtain ⟨h1, h2⟩ := count_double ha
  have hbq : (1 : ℚ) ≤ b := by exact_mod_cast hb
  have habq : (b : ℚ) ≤ a := by exact_mod_cast hab
  have haq : (a : ℚ) ≤ 2 ^ 32 := by exact_mod_cast ha
  have hk := key_div h1 hy (by rw [hyv]; positivity)
  rw [h2, hyv] at hk
  have hq1 : (1 : ℚ) ≤ a / b := by rw [le_div_iff₀ (by linarith)]; linarith
  have hq2 : (a : ℚ) / b ≤ 2 ^ 32 := le_trans (div_le_self (by linarith) hbq) haq
  obtain ⟨hf, he⟩ := rounded_double hk (by linarith) (by linarith)
  push_cast at he
  refine ⟨hf, ?_, he, ?_, ?_⟩
  · have h3 := key_ofInt (T := F64) 1
    have h4 := rnd_mono (Lawful.good (T := F64)) hq1
    rw [Int.cast_one] at h3
    rw [← h3, ← hk] at h4
    rw [← one_double.2, value_key, value_key (div _ _)]
    exact fval_le.2 h4
  · have := (Rat.cast_le (K := ℝ)).2 hq1
    push_cast at this
    exact this
  · have := (Rat.cast_le (K := ℝ)).2 hq2
    push_cast at this
    exact this

theorem tf_near {log : F64 → F64} (hlog : LogAccurate log) (t : Tfidf) (n : UInt32) (hn : 1 ≤ n.toNat) :
    Finite (t.tf (floatOps log) n) ∧ Rel (1 / 2 ^ 50) (value (t.tf (floatOps log) n) : ℝ) (tfSpec t.binary t.sublinearTf n.toNat) ∧
      1 ≤ tfSpec t.binary t.sublinearTf n.toNat ∧ tfSpec t.binary t.sublinearTf n.toNat ≤ 2 ^ 32 := by
  have hlt : n.toNat ≤ 2 ^ 32 := le_of_lt n.toNat_lt
  have hn1 : (1 : ℝ) ≤ n.toNat := by exact_mod_cast hn
  have hn2 : (n.toNat : ℝ) ≤ 2 ^ 32 := by exact_mod_cast hlt
  obtain ⟨h1, h2⟩ := count_double hlt
  unfold Tfidf.tf tfSpec
  cases t.binary with
  | true =>
    simp only [if_true, floatOps]
    refine ⟨one_double.1, ?_, le_refl _, by norm_num⟩
    rw [one_double.2]
    push_cast
    exact (Rel.refl 1).mono (by norm_num) (by positivity)
  | false =>
    cases t.sublinearTf with
    | false =>
      simp only [Bool.false_eq_true, if_false, if_true, floatOps]
      refine ⟨h1, ?_, hn1, hn2⟩
      rw [h2]
      push_cast
      exact (Rel.refl _).mono (by linarith) (by positivity)
    | true =>
      simp only [Bool.false_eq_true, if_false, if_true, floatOps, Bool.true_eq_false]
      have hr : Rel (1 / 2 ^ 53) (value (ofInt n.toNat : F64) : ℝ) (n.toNat : ℝ) := by
        rw [h2]
        push_cast
        exact (Rel.refl _).mono (by linarith) (by positivity)
      obtain ⟨h3, h4⟩ := one_plus_log hlog h1 (by rw [h2]; exact_mod_cast hn) hn1 hn2 hr
      have h5 := Real.log_nonneg hn1
      have h6 := log_le hn1 hn2
      exact ⟨h3, h4, by linarith, by linarith⟩

theorem idf_near {log : F64 → F64} (hlog : LogAccurate log) (t : Tfidf) (word : Str) (df : UInt32)
    (hdf : t.docFreq.find? word = some df) (h1 : 1 ≤ df.toNat) (h2 : df.toNat ≤ t.total.toNat)
    (htot : t.total.toNat + 1 < 2 ^ 32) :
    ∃ y, t.idf (floatOps log) word = .ok y ∧ Finite y ∧
      Rel (1 / 2 ^ 50) (value y : ℝ) (idfSpec t.useIdf t.smoothIdf t.total.toNat df.toNat) ∧
      1 ≤ idfSpec t.useIdf t.smoothIdf t.total.toNat df.toNat ∧ idfSpec t.useIdf t.smoothIdf t.total.toNat df.toNat ≤ 24 := by
  have h1t : (1 + t.total).toNat = 1 + t.total.toNat := by
    rw [UInt32.toNat_add, UInt32.toNat_one, Nat.mod_eq_of_lt (by omega)]
  obtain ⟨hd1, hd2⟩ := count_double (n := df.toNat) (le_of_lt df.toNat_lt)
  unfold Tfidf.idf idfSpec
  cases t.useIdf with
  | false =>
    refine ⟨_, if_pos rfl, one_double.1, ?_, by simp, by norm_num⟩
    simp only [floatOps, one_double.2, Bool.false_eq_true, if_false]
    push_cast
    exact (Rel.refl 1).mono (by norm_num) (by positivity)
  | true =>
    simp only [Bool.true_eq_false, if_false, if_true, hdf]
    cases t.smoothIdf with
    | true =>
      simp only [if_true, floatOps]
      obtain ⟨ha1, ha2⟩ := FloatWindows.add_exact one_double.1 hd1 (e := 0) (by simp) (z := ((1 + df.toNat : Nat) : Int)) (by
        rw [Int.natAbs_natCast]
        have : 2 * 2 ^ (fmt F64).frac = 2 ^ 53 := by decide
        rw [this]; omega) (by rw [one_double.2, hd2]; push_cast; ring)
      obtain ⟨r1, r2, r3, r4, r5⟩ := ratio_near (a := 1 + t.total.toNat) (b := 1 + df.toNat) (by omega) (by omega) (by omega) ha1 (by
        rw [ha2]; push_cast; ring)
      obtain ⟨o1, o2⟩ := one_plus_log hlog r1 r2 r4 r5 r3
      have h5 := Real.log_nonneg r4
      have h6 := log_le r4 r5
      rw [h1t]
      push_cast at o1 o2 h5 h6 ⊢
      exact ⟨_, rfl, o1, o2, by linarith, by linarith⟩
    | false =>
      simp only [Bool.false_eq_true, if_false, floatOps]
      obtain ⟨ha1, ha2⟩ := FloatWindows.add_exact (finite_zero false) hd1 (e := 0) (by simp) (z := (df.toNat : Int)) (by
        rw [Int.natAbs_natCast]
        have : 2 * 2 ^ (fmt F64).frac = 2 ^ 53 := by decide
        have := df.toNat_lt
        omega) (by rw [value_zero, hd2]; push_cast; ring)
      obtain ⟨r1, r2, r3, r4, r5⟩ := ratio_near (a := 1 + t.total.toNat) (b := df.toNat) h1 (by omega) (by omega) ha1 (by
        rw [ha2]; push_cast; ring)
      obtain ⟨o1, o2⟩ := one_plus_log hlog r1 r2 r4 r5 r3
      have h5 := Real.log_nonneg r4
      have h6 := log_le r4 r5
      rw [h1t]
      push_cast at o1 o2 h5 h6 ⊢
      exact ⟨_, rfl, o1, o2, by linarith, by linarith⟩

/-- The weight before normalisation. -/
theorem weight_near {a b : F64} {A B : ℝ} (ha : Finite a) (hb : Finite b) (hA : Rel (1 / 2 ^ 50) (value a : ℝ) A)
    (hB : Rel (1 / 2 ^ 50) (value b : ℝ) B) (hA1 : 1 ≤ A) (hA2 : A ≤ 2 ^ 32) (hB1 : 1 ≤ B) (hB2 : B ≤ 24) :
    Finite (FloatArith.cast (mul a b) : F32) ∧ Rel (1 / 2 ^ 23) (value (FloatArith.cast (mul a b) : F32) : ℝ) (A * B) ∧
      1 ≤ A * B ∧ A * B ≤ 2 ^ 37 := by
  have h1 := hA.mul hB (by positivity) (by linarith) (by linarith) (by positivity)
  have hAB1 : 1 ≤ A * B := by nlinarith
  have hAB2 : A * B ≤ 2 ^ 37 := by nlinarith
  have hk := key_mul ha hb
  have hlo : (1 / 2 : ℝ) ≤ (value a : ℝ) * (value b : ℝ) := by
    have := h1.lower
    nlinarith
  have hhi : (value a : ℝ) * (value b : ℝ) ≤ 2 ^ 38 := by
    have := h1.upper
    nlinarith
  have hloq : (1 / 2 : ℚ) ≤ value a * value b := by
    have : (((1 / 2 : ℚ)) : ℝ) ≤ ((value a * value b : ℚ) : ℝ) := by push_cast; exact hlo
    exact_mod_cast this
  have hhiq : value a * value b ≤ 2 ^ 38 := by
    have : ((value a * value b : ℚ) : ℝ) ≤ ((2 ^ 38 : ℚ) : ℝ) := by push_cast; exact hhi
    exact_mod_cast this
  obtain ⟨hf, he⟩ := rounded_double hk (by linarith) (by linarith)
  push_cast at he
  have h2 := (he.trans h1 (by positivity)).mono (δ := 1 / 2 ^ 48) (by linarith) (by norm_num)
  have hk2 := key_cast (T := F32) hf
  have hlo2 : (1 / 4 : ℝ) ≤ (value (mul a b) : ℝ) := by
    have := h2.lower
    nlinarith
  have hhi2 : (value (mul a b) : ℝ) ≤ 2 ^ 39 := by
    have := h2.upper
    nlinarith
  have hloq2 : (1 / 4 : ℚ) ≤ value (mul a b) := by
    have : (((1 / 4 : ℚ)) : ℝ) ≤ ((value (mul a b) : ℚ) : ℝ) := by push_cast; exact hlo2
    exact_mod_cast this
  have hhiq2 : value (mul a b) ≤ 2 ^ 39 := by
    have : ((value (mul a b) : ℚ) : ℝ) ≤ ((2 ^ 39 : ℚ) : ℝ) := by push_cast; exact hhi2
    exact_mod_cast this
  obtain ⟨hf2, he2⟩ := rounded_float hk2 (by linarith) (by linarith)
  exact ⟨hf2, (he2.trans h2 (by positivity)).mono (by linarith) (by norm_num), hAB1, hAB2⟩

/-! ### The norm -/

/-- A sum of positive floats of ordinary size. -/
theorem sum_positive (l : List F32) (h : ∀ x ∈ l, Finite x ∧ 0 ≤ value x ∧ value x ≤ 2 ^ 77) (hn : l.length ≤ 2 ^ 20) :
    Finite (l.foldl add (zero false)) ∧
      Rel (l.length / 2 ^ 23) (value (l.foldl add (zero false)) : ℝ) (((l.map value).sum : ℚ) : ℝ) := by
  have habs : (l.map fun x => |value x|) = l.map value :=
    List.map_congr_left fun x hx => abs_of_nonneg (h x hx).2.1
  have hnq : (l.length : ℚ) ≤ 2 ^ 20 := by exact_mod_cast hn
  have hS := FloatWindows.sum_le_of_le (2 ^ 77) l fun x hx => by rw [abs_of_nonneg (h x hx).2.1]; exact (h x hx).2.2
  have hS2 : (l.map fun x => |value x|).sum ≤ 2 ^ 97 := by
    refine le_trans hS ?_
    have : (2 : ℚ) ^ 97 = 2 ^ 20 * 2 ^ 77 := by norm_num
    rw [this]
    exact mul_le_mul_of_nonneg_right hnq (by positivity)
  have hfr : (fmt F32).frac = 23 := rfl
  have hT := tooLarge_float
  have hlen : l.length ≤ 2 ^ ((fmt F32).frac - 1) := le_trans hn (by rw [hfr]; decide)
  have hs := FloatWindows.sum_near l (fun x hx => (h x hx).1) ((l.map fun x => |value x|).sum) (by linarith) (by decide)
    (zero false) 0 0 0 (finite_zero _) (by simp) (by simp [value_zero]) (by simp) (by omega)
  simp only [zero_add] at hs
  refine ⟨hs.1, ?_⟩
  have h2 := hs.2
  have h3 := (FloatWindows.pow_roundoff (T := F32) hlen (by decide)).1
  rw [habs] at h2
  have h4 : |value (l.foldl add (zero false)) - (l.map value).sum| ≤ l.length / 2 ^ 23 * (l.map value).sum :=
    le_trans h2 (mul_le_mul_of_nonneg_right h3 (List.sum_nonneg (by
      intro x hx
      obtain ⟨y, hy, rfl⟩ := List.mem_map.1 hx
      exact (h y hy).2.1)))
  generalize (l.map value).sum = S at h4 ⊢
  have := (Rat.cast_le (K := ℝ)).2 h4
  push_cast at this
  exact this

/-- The square root of a float of ordinary size. -/
theorem sqrt_float {a : F32} {A : ℝ} (ha : Finite a) (hlo : 1 / 4 ≤ value a) (hhi : value a ≤ 2 ^ 98)
    (hA : (value a : ℝ) = A) : Finite (FloatNorms.sqrt a) ∧ Rel (1 / 2 ^ 23) (value (FloatNorms.sqrt a) : ℝ) (Real.sqrt A) := by
  subst hA
  have h0 : 0 < value a := by linarith
  obtain ⟨s, q, hk, hs1, hs2, hs3⟩ := FloatNorms.key_sqrt ha h0.ne'
  obtain ⟨h1, h2, h3⟩ := FloatNorms.sqrt_near h0 hs1 hs2 hs3
  have hlor : (1 / 4 : ℝ) ≤ (value a : ℝ) := by
    have := (Rat.cast_le (K := ℝ)).2 hlo
    push_cast at this
    exact this
  have hr : (1 / 2 : ℝ) ≤ Real.sqrt (value a : ℝ) := Real.le_sqrt_of_sq_le (by linarith)
  rw [show (fmt F32).scale = 149 from rfl] at h1
  have hq : (1 / 4 : ℝ) ≤ (q : ℝ) := by
    have := (abs_le.1 h1).1
    have : (1 : ℝ) / 2 / 2 ^ 149 ≤ 1 / 4 := by norm_num
    linarith
  have hqq : (1 / 4 : ℚ) ≤ q := by
    have : (((1 / 4 : ℚ)) : ℝ) ≤ (q : ℝ) := by push_cast; exact hq
    exact_mod_cast this
  have hqh : q ≤ 2 ^ 98 := by rcases h3 with h3 | h3 <;> linarith
  obtain ⟨hf, he⟩ := rounded_float hk (by linarith) (by linarith)
  refine ⟨hf, ?_⟩
  have h4 : Rel (1 / 2 ^ 100) (q : ℝ) (Real.sqrt (value a : ℝ)) := by
    refine le_trans h1 ?_
    have : (1 : ℝ) / 2 / 2 ^ 149 ≤ 1 / 2 ^ 100 * (1 / 2) := by norm_num
    exact le_trans this (mul_le_mul_of_nonneg_left hr (by positivity))
  exact (he.trans h4 (by positivity)).mono (by linarith) (by norm_num)

theorem sum_bounds {A : Type} (W : A → ℝ) (lo hi : ℝ) (l : List A) (h : ∀ a ∈ l, lo ≤ W a ∧ W a ≤ hi) :
    l.length * lo ≤ (l.map W).sum ∧ (l.map W).sum ≤ l.length * hi := by
  induction l with
  | nil => simp
  | cons a l ih =>
    have h1 := h a (by simp)
    have h2 := ih fun b hb => h b (by simp [hb])
    simp only [List.map_cons, List.sum_cons, List.length_cons]
    push_cast
    constructor <;> linarith

/-- The divisor. -/
theorem divisor_near {A : Type} (log : F64 → F64) (t : Tfidf) (l : List A) (f : A → F32) (W : A → ℝ) (hne : l ≠ [])
    (hn : l.length ≤ 2 ^ 20)
    (h : ∀ a ∈ l, Finite (f a) ∧ Rel (1 / 2 ^ 23) (value (f a) : ℝ) (W a) ∧ 1 ≤ W a ∧ W a ≤ 2 ^ 37) :
    let N := t.divisor (floatOps log) ((l.map f).foldl (fun n v => match t.norm with
      | .l1 => (floatOps log).addF n v
      | .l2 => (floatOps log).addF n ((floatOps log).mulF v v)
      | .none => n) (floatOps log).zeroF)
    Finite N ∧ Rel ((l.length + 8) / 2 ^ 23) (value N : ℝ) (normSpec t.norm (l.map W)) ∧
      1 ≤ normSpec t.norm (l.map W) ∧ normSpec t.norm (l.map W) ≤ 2 ^ 57 := by
  intro N
  have hn1 : (1 : ℝ) ≤ l.length := by exact_mod_cast List.length_pos_of_ne_nil hne
  have hn2 : (l.length : ℝ) ≤ 2 ^ 20 := by exact_mod_cast hn
  have hval : ∀ a ∈ l, (1 / 2 : ℝ) ≤ (value (f a) : ℝ) ∧ (value (f a) : ℝ) ≤ 2 ^ 38 := by
    intro a ha
    obtain ⟨_, h1, h2, h3⟩ := h a ha
    have h4 := h1.lower
    have h5 := h1.upper
    constructor <;> nlinarith
  have hvalq : ∀ a ∈ l, (1 / 2 : ℚ) ≤ value (f a) ∧ value (f a) ≤ 2 ^ 38 := by
    intro a ha
    obtain ⟨h1, h2⟩ := hval a ha
    constructor
    · have : (((1 / 2 : ℚ)) : ℝ) ≤ (value (f a) : ℝ) := by push_cast; exact h1
      exact_mod_cast this
    · have : (value (f a) : ℝ) ≤ (((2 ^ 38 : ℚ)) : ℝ) := by push_cast; exact h2
      exact_mod_cast this
  cases hnorm : t.norm with
  | none =>
    have hN : N = ofInt 1 := by
      show t.divisor _ _ = _
      rw [Tfidf.divisor, hnorm]
      rfl
    have h1 := ofInt_exact (T := F32) (z := 1) (by decide +kernel)
    rw [hN]
    refine ⟨h1.1, ?_, le_refl _, ?_⟩
    · rw [h1.2]
      push_cast
      exact (Rel.refl 1).mono (by norm_num) (by positivity)
    · show (1 : ℝ) ≤ 2 ^ 57
      norm_num
  | l1 =>
    have hN : N = (l.map f).foldl add (zero false) := by
      show t.divisor _ _ = _
      rw [Tfidf.divisor, hnorm]
      rfl
    have hs := sum_positive (l.map f) (by
      intro x hx
      obtain ⟨a, ha, rfl⟩ := List.mem_map.1 hx
      obtain ⟨h1, h2⟩ := hvalq a ha
      exact ⟨(h a ha).1, by linarith, by linarith⟩) (by simpa using hn)
    rw [List.length_map, List.map_map] at hs
    have hcast : (((l.map (value ∘ f)).sum : ℚ) : ℝ) = (l.map fun a => (value (f a) : ℝ)).sum := by
      clear hs hN hn hne h hn1 hn2 hval hvalq N
      induction l with
      | nil => simp
      | cons a l ih => simp only [List.map_cons, List.sum_cons, Function.comp_apply]; rw [Rat.cast_add, ih]
    rw [hcast] at hs
    have hW := Rel.sum (fun a => (value (f a) : ℝ)) W l fun a ha => (h a ha).2.1
    have hb := sum_bounds W 1 (2 ^ 37) l fun a ha => (h a ha).2.2
    rw [hN]
    refine ⟨hs.1, ?_, ?_, ?_⟩
    · show Rel _ _ (l.map W).sum
      refine (hs.2.trans hW (by positivity)).mono (by linarith) ?_
      linarith
    · show 1 ≤ (l.map W).sum
      linarith
    · show (l.map W).sum ≤ 2 ^ 57
      refine le_trans hb.2 ?_
      have : (2 : ℝ) ^ 57 = 2 ^ 20 * 2 ^ 37 := by norm_num
      rw [this]
      exact mul_le_mul_of_nonneg_right hn2 (by positivity)
  | l2 =>
    have hN : N = FloatNorms.sqrt ((l.map fun a => mul (f a) (f a)).foldl add (zero false)) := by
      show t.divisor _ _ = _
      rw [Tfidf.divisor, hnorm]
      show FloatNorms.sqrt ((l.map f).foldl (fun n v => add n (mul v v)) (zero false)) = _
      rw [List.foldl_map, List.foldl_map]
    have hsq : ∀ a ∈ l, Finite (mul (f a) (f a)) ∧ Rel (1 / 2 ^ 21) (value (mul (f a) (f a)) : ℝ) (W a ^ 2) ∧
        (1 : ℝ) ≤ W a ^ 2 ∧ W a ^ 2 ≤ 2 ^ 74 := by
      intro a ha
      obtain ⟨h1, h2, h3, h4⟩ := h a ha
      obtain ⟨h5, h6⟩ := hvalq a ha
      have hk := key_mul h1 h1
      obtain ⟨hf, he⟩ := rounded_float hk (by nlinarith) (by nlinarith)
      push_cast at he
      have hm := h2.mul h2 (by positivity) (by linarith) (by linarith) (by positivity)
      refine ⟨hf, ?_, by nlinarith, by nlinarith⟩
      rw [sq]
      exact (he.trans hm (by positivity)).mono (by nlinarith) (by norm_num)
    have hbq : ∀ a ∈ l, (0 : ℚ) ≤ value (mul (f a) (f a)) ∧ value (mul (f a) (f a)) ≤ 2 ^ 75 := by
      intro a ha
      obtain ⟨_, h1, h2, h3⟩ := hsq a ha
      have h4 := h1.lower
      have h5 := h1.upper
      constructor
      · have : (((0 : ℚ)) : ℝ) ≤ (value (mul (f a) (f a)) : ℝ) := by push_cast; nlinarith
        exact_mod_cast this
      · have : (value (mul (f a) (f a)) : ℝ) ≤ (((2 ^ 75 : ℚ)) : ℝ) := by push_cast; nlinarith
        exact_mod_cast this
    have hs := sum_positive (l.map fun a => mul (f a) (f a)) (by
      intro x hx
      obtain ⟨a, ha, rfl⟩ := List.mem_map.1 hx
      obtain ⟨h1, h2⟩ := hbq a ha
      exact ⟨(hsq a ha).1, h1, by linarith⟩) (by simpa using hn)
    rw [List.length_map, List.map_map] at hs
    have hcast : (((l.map (value ∘ fun a => mul (f a) (f a))).sum : ℚ) : ℝ) = (l.map fun a => (value (mul (f a) (f a)) : ℝ)).sum := by
      clear hs hN hn hne h hn1 hn2 hval hvalq N hsq hbq
      induction l with
      | nil => simp
      | cons a l ih => simp only [List.map_cons, List.sum_cons, Function.comp_apply]; rw [Rat.cast_add, ih]
    rw [hcast] at hs
    have hW := Rel.sum (fun a => (value (mul (f a) (f a)) : ℝ)) (fun a => W a ^ 2) l fun a ha => (hsq a ha).2.1
    have hb := sum_bounds (fun a => W a ^ 2) 1 (2 ^ 74) l fun a ha => (hsq a ha).2.2
    have hS : normSpec .l2 (l.map W) = Real.sqrt (l.map fun a => W a ^ 2).sum := by
      show Real.sqrt ((l.map W).map fun w => w ^ 2).sum = _
      rw [List.map_map]
      rfl
    rw [hN, hS]
    obtain ⟨hf, hr⟩ := hs
    generalize (l.map fun a => mul (f a) (f a)).foldl add (zero false) = S' at *
    generalize (l.map fun a => W a ^ 2).sum = S at *
    generalize (l.map fun a => (value (mul (f a) (f a)) : ℝ)).sum = S'' at *
    have hS1 : 1 ≤ S := by linarith
    have hS2 : S ≤ 2 ^ 94 := by
      refine le_trans hb.2 ?_
      have : (2 : ℝ) ^ 94 = 2 ^ 20 * 2 ^ 74 := by norm_num
      rw [this]
      exact mul_le_mul_of_nonneg_right hn2 (by positivity)
    have hrel := (hr.trans hW (by positivity)).mono (δ := (l.length + 5) / 2 ^ 23) (by linarith) (by linarith)
    have hl1 : (1 / 4 : ℝ) ≤ (value S' : ℝ) := by
      have := hrel.lower
      nlinarith
    have hl2 : (value S' : ℝ) ≤ 2 ^ 98 := by
      have := hrel.upper
      nlinarith
    obtain ⟨g1, g2⟩ := sqrt_float hf (by
      have : (((1 / 4 : ℚ)) : ℝ) ≤ (value S' : ℝ) := by push_cast; exact hl1
      exact_mod_cast this) (by
      have : (value S' : ℝ) ≤ (((2 ^ 98 : ℚ)) : ℝ) := by push_cast; exact hl2
      exact_mod_cast this) rfl
    have hsr := hrel.sqrt (by positivity) (by linarith) (by linarith)
    have hq1 : 1 ≤ Real.sqrt S := Real.le_sqrt_of_sq_le (by linarith)
    refine ⟨g1, (g2.trans hsr (by positivity)).mono (by linarith) (by linarith), hq1, ?_⟩
    rw [Real.sqrt_le_left (by norm_num)]
    refine le_trans hS2 (by norm_num)

/-- One value of the vector. -/
theorem value_near {w N : F32} {W M : ℝ} {n : Nat} (hn : n ≤ 2 ^ 20) (hw : Finite w) (hN : Finite N)
    (hW : Rel (1 / 2 ^ 23) (value w : ℝ) W) (hW1 : 1 ≤ W) (hW2 : W ≤ 2 ^ 37)
    (hM : Rel ((n + 8) / 2 ^ 23) (value N : ℝ) M) (hM1 : 1 ≤ M) (hM2 : M ≤ 2 ^ 57) :
    Finite (div w N) ∧ 0 < value (div w N) ∧ Rel ((n + 10) / 2 ^ 22) (value (div w N) : ℝ) (W / M) := by
  have hn2 : (n : ℝ) ≤ 2 ^ 20 := by exact_mod_cast hn
  have hn0 : (0 : ℝ) ≤ n := by positivity
  have hd : (n + 8 : ℝ) / 2 ^ 23 ≤ 1 / 2 := by linarith
  have h1 := hW.div hM (by positivity) (by positivity) hd (by linarith) (by linarith)
  have w1 := hW.lower
  have w2 := hW.upper
  have m1 := hM.lower
  have m2 := hM.upper
  have hw1 : (1 / 2 : ℝ) ≤ (value w : ℝ) := by nlinarith
  have hw2 : (value w : ℝ) ≤ 2 ^ 38 := by nlinarith
  have hN1 : (1 / 2 : ℝ) ≤ (value N : ℝ) := by nlinarith
  have hN2 : (value N : ℝ) ≤ 2 ^ 58 := by nlinarith
  have hN0 : value N ≠ 0 := by
    intro hz
    rw [hz] at hN1
    norm_num at hN1
  have hk := key_div hw hN hN0
  have hq1 : (1 / 2 ^ 59 : ℝ) ≤ (value w : ℝ) / (value N : ℝ) := by
    rw [le_div_iff₀ (by linarith)]
    nlinarith
  have hq2 : (value w : ℝ) / (value N : ℝ) ≤ 2 ^ 39 := by
    rw [div_le_iff₀ (by linarith)]
    nlinarith
  obtain ⟨hf, he⟩ := rounded_float hk (by
    have : (((1 / 2 ^ 59 : ℚ)) : ℝ) ≤ ((value w / value N : ℚ) : ℝ) := by push_cast; exact hq1
    have : (1 / 2 ^ 59 : ℚ) ≤ value w / value N := by exact_mod_cast this
    refine le_trans ?_ this
    norm_num) (by
    have : ((value w / value N : ℚ) : ℝ) ≤ ((2 ^ 39 : ℚ) : ℝ) := by push_cast; exact hq2
    have : value w / value N ≤ (2 ^ 39 : ℚ) := by exact_mod_cast this
    refine lt_of_le_of_lt this ?_
    norm_num)
  push_cast at he
  have hWM : 0 < W / M := by positivity
  refine ⟨hf, ?_, (he.trans h1 (by positivity)).mono hWM.le (by linarith)⟩
  have h2 := he.lower
  have : (0 : ℝ) < (value (div w N) : ℝ) := by
    refine lt_of_lt_of_le ?_ h2
    have : (0 : ℝ) < (value w : ℝ) / (value N : ℝ) := lt_of_lt_of_le (by positivity) hq1
    have h3 : (0 : ℝ) < 1 - 1 / 2 ^ 24 := by norm_num
    exact mul_pos h3 this
  exact_mod_cast this

end Feat.FloatTfidf
