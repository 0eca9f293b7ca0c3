import Verif.Model.FloatWindows
import Verif.Spec.FloatWindows
import Verif.Proofs.FloatSums
import Verif.Props.FloatArith
import Verif.Props.FloatMaxAbs
import Verif.Props.RollingWindow
/-
C82 rolling windows of floating point numbers.
-/
namespace Feat.FloatWindows
open Feat.FloatText Feat.FloatArith Feat.FloatScalers
variable {T : Type} [FloType T] [Lawful T]

/-! ### Minimum and maximum -/

omit [Lawful T] in
theorem lt_def {x y : T} : lt x y = true ↔ isNaN x = false ∧ isNaN y = false ∧ key x < key y := by
  simp [lt, and_assoc]

/-- The minimum of any window, NaN and infinities included: it is one of the numbers of the window, or the largest
finite number, and no number of the window is smaller. -/
theorem C82_min_exact (w : List T) : ∃ v, minCalc w = .ok v ∧ isNaN v = false ∧ (v ∈ w ∨ v = largest) ∧
    ∀ x ∈ w, lt x v = false ∧ (isNaN x = false → key v ≤ key x) := by
  suffices h : ∀ (w : List T) (m : T), isNaN m = false →
      isNaN (w.foldl (fun m x => if lt x m then x else m) m) = false ∧
      (w.foldl (fun m x => if lt x m then x else m) m ∈ w ∨ w.foldl (fun m x => if lt x m then x else m) m = m) ∧
      key (w.foldl (fun m x => if lt x m then x else m) m) ≤ key m ∧
      ∀ x ∈ w, isNaN x = false → key (w.foldl (fun m x => if lt x m then x else m) m) ≤ key x by
    obtain ⟨h1, h2, h3, h4⟩ := h w largest (FloatArith.Finite.not_nan finite_largest)
    refine ⟨_, rfl, h1, h2, fun x hx => ⟨?_, h4 x hx⟩⟩
    rw [Bool.eq_false_iff]
    intro hc
    rw [lt_def] at hc
    have := h4 x hx hc.1
    omega
  intro w
  induction w with
  | nil => intro m hm; exact ⟨hm, .inr rfl, le_refl _, by simp⟩
  | cons a w ih =>
    intro m hm
    by_cases hl : lt a m = true
    · have hl' := lt_def.1 hl
      obtain ⟨h1, h2, h3, h4⟩ := ih a hl'.1
      simp only [List.foldl_cons, hl, if_true]
      refine ⟨h1, ?_, by omega, ?_⟩
      · rcases h2 with h2 | h2
        · exact .inl (by simp [h2])
        · exact .inl (by rw [h2]; simp)
      · intro x hx hn
        rcases List.mem_cons.1 hx with rfl | hx
        · exact h3
        · exact h4 x hx hn
    · obtain ⟨h1, h2, h3, h4⟩ := ih m hm
      simp only [List.foldl_cons, hl]
      refine ⟨h1, ?_, h3, ?_⟩
      · rcases h2 with h2 | h2
        · exact .inl (List.mem_cons_of_mem _ h2)
        · exact .inr h2
      · intro x hx hn
        rcases List.mem_cons.1 hx with rfl | hx
        · have : ¬ key x < key m := fun hc => hl (lt_def.2 ⟨hn, hm, hc⟩)
          have h3' := h3
          simp only [Bool.false_eq_true, if_false] at h3' ⊢
          omega
        · exact h4 x hx hn

theorem key_smallestNormal : key (smallestNormal : T) = 2 ^ (fmt T).frac ∧ isNaN (smallestNormal : T) = false := by
  have hlt : 2 ^ (fmt T).frac < (fmt T).inf := by
    have h := (Lawful.good : (fmt T).Good)
    have hw := (Lawful.wide : (fmt T).scale + 3 < 2 ^ (fmt T).exp)
    unfold Fmt.inf
    have : 1 < 2 ^ (fmt T).exp - 1 := by omega
    nlinarith [Nat.pos_of_ne_zero (show 2 ^ (fmt T).frac ≠ 0 by positivity)]
  have hs := inf_lt_signBit T
  have hk : key (smallestNormal : T) = ((2 ^ (fmt T).frac : Nat) : Int) := by
    rw [smallestNormal, key_make false (by omega)]
    simp
  constructor
  · rw [hk]; push_cast; rfl
  · rw [isNaN_false, hk, Int.natAbs_natCast]
    omega

/-- The maximum of any window: it is one of the numbers of the window, or the smallest positive normal number, and no
number of the window is greater. -/
theorem C82_max_exact (w : List T) : ∃ v, maxCalc w = .ok v ∧ isNaN v = false ∧ (v ∈ w ∨ v = smallestNormal) ∧
    key (smallestNormal : T) ≤ key v ∧ ∀ x ∈ w, lt v x = false ∧ (isNaN x = false → key x ≤ key v) := by
  suffices h : ∀ (w : List T) (m : T), isNaN m = false →
      isNaN (w.foldl (fun m x => if lt m x then x else m) m) = false ∧
      (w.foldl (fun m x => if lt m x then x else m) m ∈ w ∨ w.foldl (fun m x => if lt m x then x else m) m = m) ∧
      key m ≤ key (w.foldl (fun m x => if lt m x then x else m) m) ∧
      ∀ x ∈ w, isNaN x = false → key x ≤ key (w.foldl (fun m x => if lt m x then x else m) m) by
    obtain ⟨h1, h2, h3, h4⟩ := h w smallestNormal key_smallestNormal.2
    refine ⟨_, rfl, h1, h2, h3, fun x hx => ⟨?_, h4 x hx⟩⟩
    rw [Bool.eq_false_iff]
    intro hc
    rw [lt_def] at hc
    have := h4 x hx hc.2.1
    omega
  intro w
  induction w with
  | nil => intro m hm; exact ⟨hm, .inr rfl, le_refl _, by simp⟩
  | cons a w ih =>
    intro m hm
    by_cases hl : lt m a = true
    · have hl' := lt_def.1 hl
      obtain ⟨h1, h2, h3, h4⟩ := ih a hl'.2.1
      simp only [List.foldl_cons, hl, if_true]
      refine ⟨h1, ?_, by omega, ?_⟩
      · rcases h2 with h2 | h2
        · exact .inl (by simp [h2])
        · exact .inl (by rw [h2]; simp)
      · intro x hx hn
        rcases List.mem_cons.1 hx with rfl | hx
        · exact h3
        · exact h4 x hx hn
    · obtain ⟨h1, h2, h3, h4⟩ := ih m hm
      simp only [List.foldl_cons, hl]
      refine ⟨h1, ?_, h3, ?_⟩
      · rcases h2 with h2 | h2
        · exact .inl (List.mem_cons_of_mem _ h2)
        · exact .inr h2
      · intro x hx hn
        rcases List.mem_cons.1 hx with rfl | hx
        · have : ¬ key m < key x := fun hc => hl (lt_def.2 ⟨hm, hn, hc⟩)
          have h3' := h3
          simp only [Bool.false_eq_true, if_false] at h3' ⊢
          omega
        · exact h4 x hx hn

theorem value_le_of_key {x y : T} (h : key x ≤ key y) : value x ≤ value y := by
  rw [value_key, value_key]; exact fval_le.2 h

/-- A number is determined by its key, except for the zeros. -/
theorem eq_of_key {x y : T} (h : key x = key y) (h0 : key x ≠ 0) : x = y := by
  have hn : neg? x = neg? y := by
    unfold key at h h0
    by_cases h1 : neg? x = true <;> by_cases h2 : neg? y = true <;> simp [h1, h2] at h h0 ⊢ <;> omega
  have hp : pat x = pat y := by rw [← key_natAbs, ← key_natAbs, h]
  have e : ∀ z : T, z = make (neg? z) (pat z) := by
    intro z
    have hb := (shape T).bits_lt z
    have hp : pat z = Binary.bits z % (fmt T).signBit := rfl
    have hn : neg? z = decide ((fmt T).signBit ≤ Binary.bits z) := rfl
    have h1 : (if neg? z then (fmt T).signBit else 0) + pat z = Binary.bits z := by
      rw [hp, hn]
      by_cases hs : (fmt T).signBit ≤ Binary.bits z
      · rw [Nat.mod_eq_sub_mod hs, Nat.mod_eq_of_lt (by omega)]
        simp only [hs, decide_true, if_true]
        omega
      · rw [Nat.mod_eq_of_lt (by omega)]
        simp [hs]
    rw [make, h1, (shape T).of_bits]
  rw [e x, e y, hn, hp]

/-- Windows of finite numbers: the minimum is a least number of the window. -/
theorem C82_min (w : List T) (hw : w ≠ []) (hfin : ∀ x ∈ w, Finite x) : ∃ v, minCalc w = .ok v ∧ Least value w v := by
  obtain ⟨v, h1, hn, h2, h3⟩ := C82_min_exact w
  refine ⟨v, h1, ?_, fun x hx => value_le_of_key ((h3 x hx).2 (FloatArith.Finite.not_nan (hfin x hx)))⟩
  rcases h2 with h2 | rfl
  · exact h2
  · obtain ⟨a, w', rfl⟩ := List.exists_cons_of_ne_nil hw
    have ha := hfin a (by simp)
    have hk := (h3 a (by simp)).2 (FloatArith.Finite.not_nan ha)
    have hk' : key a ≤ key (largest : T) := by
      rw [finite_key] at ha
      rw [key_largest]
      omega
    have hpos : key (largest : T) ≠ 0 := by
      rw [key_largest]
      have h1 := key_smallestNormal (T := T)
      have := h1.2
      rw [isNaN_false, h1.1] at this
      have hi := Lawful.wide (T := T)
      have h2 : 2 ≤ (fmt T).inf := by
        unfold Fmt.inf
        have : 2 ≤ 2 ^ (fmt T).exp - 1 := by omega
        have hp : 1 ≤ 2 ^ (fmt T).frac := Nat.one_le_two_pow
        nlinarith
      omega
    rw [eq_of_key (le_antisymm hk hk') hpos]
    simp

/-- Windows of finite numbers, one of them at least the smallest positive normal number: the maximum is a greatest
number of the window. -/
theorem C82_max_partial (w : List T) (hfin : ∀ x ∈ w, Finite x) (a : T) (ha : a ∈ w)
    (hbig : value (smallestNormal : T) ≤ value a) : ∃ v, maxCalc w = .ok v ∧ Greatest value w v := by
  obtain ⟨v, h1, hn, h2, hs, h3⟩ := C82_max_exact w
  refine ⟨v, h1, ?_, fun x hx => value_le_of_key ((h3 x hx).2 (FloatArith.Finite.not_nan (hfin x hx)))⟩
  rcases h2 with h2 | rfl
  · exact h2
  · have hk := (h3 a ha).2 (FloatArith.Finite.not_nan (hfin a ha))
    rw [value_key, value_key, fval_le] at hbig
    have hpos : key (smallestNormal : T) ≠ 0 := by
      rw [key_smallestNormal.1]; positivity
    rw [eq_of_key (le_antisymm hbig hk) hpos]
    exact ha

/-- Windows of smaller numbers: the maximum is the smallest positive normal number, which is not in the window. -/
theorem C82_max_refuted (w : List T) (hsmall : ∀ x ∈ w, Finite x ∧ value x < value (smallestNormal : T)) :
    maxCalc w = .ok smallestNormal ∧ (smallestNormal : T) ∉ w := by
  obtain ⟨v, h1, hn, h2, hs, h3⟩ := C82_max_exact w
  refine ⟨?_, fun h => lt_irrefl _ (hsmall _ h).2⟩
  rcases h2 with h2 | rfl
  · have := (hsmall v h2).2
    rw [value_key, value_key, fval_lt] at this
    omega
  · exact h1

/-- A window of infinities or NaNs has the largest finite number as its minimum. -/
theorem C82_min_refuted (w : List T) (h : ∀ x ∈ w, isNaN x = true ∨ (isInf x = true ∧ neg? x = false)) :
    minCalc w = .ok largest := by
  obtain ⟨v, h1, hn, h2, h3⟩ := C82_min_exact w
  rcases h2 with h2 | rfl
  · exfalso
    suffices hh : ∀ (w : List T) , (∀ x ∈ w, isNaN x = true ∨ (isInf x = true ∧ neg? x = false)) →
        w.foldl (fun m x => if lt x m then x else m) largest = (largest : T) by
      have e := hh w h
      simp only [minCalc, e, Except.ok.injEq] at h1
      rw [← h1] at h2
      rcases h _ h2 with h4 | h4
      · rw [FloatArith.Finite.not_nan finite_largest] at h4; simp at h4
      · rw [FloatArith.Finite.not_inf finite_largest] at h4; simp at h4
    intro w
    induction w with
    | nil => intro _; rfl
    | cons a w ih =>
      intro hw
      have hla : lt a (largest : T) = false := by
        rw [Bool.eq_false_iff]
        intro hc
        rw [lt_def] at hc
        rcases hw a (by simp) with h4 | h4
        · rw [h4] at hc; simp at hc
        · have hi : (key a).natAbs = (fmt T).inf := by
            have := h4.1
            by_contra hne
            rw [isInf_false.2 hne] at this
            simp at this
          have hka : 0 ≤ key a := by simp [key, h4.2]
          have := hc.2.2
          rw [key_largest] at this
          omega
      simp only [List.foldl_cons, hla]
      exact ih (fun x hx => hw x (by simp [hx]))
  · exact h1

/-! ### Mean -/

omit [Lawful T] in
/-- The unit of rounding of the type. -/
theorem pow_roundoff {n : Nat} (hn : n ≤ 2 ^ ((fmt T).frac - 1)) (hfr : 1 ≤ (fmt T).frac) :
    (1 + 1 / 2 ^ ((fmt T).frac + 1) : ℚ) ^ n - 1 ≤ n / 2 ^ (fmt T).frac ∧
    (n : ℚ) / 2 ^ (fmt T).frac ≤ 1 / 2 := by
  have h := FloatNorms.pow_bound (u := 1 / 2 ^ ((fmt T).frac + 1)) (by positivity) n
  have hn' : (n : ℚ) ≤ 2 ^ ((fmt T).frac - 1) := by exact_mod_cast hn
  obtain ⟨f, hf⟩ : ∃ f, (fmt T).frac = f + 1 := ⟨(fmt T).frac - 1, by omega⟩
  rw [hf] at h hn' ⊢
  simp only [Nat.add_sub_cancel] at hn'
  generalize (1 + 1 / 2 ^ (f + 1 + 1) : ℚ) ^ n = p at *
  have hp : (0 : ℚ) < 2 ^ f := by positivity
  have e1 : (n : ℚ) * (1 / 2 ^ (f + 1 + 1)) = n / 2 ^ f / 4 := by rw [pow_succ, pow_succ]; field_simp; norm_num
  have e2 : (n : ℚ) / 2 ^ (f + 1) = n / 2 ^ f / 2 := by rw [pow_succ]; field_simp
  rw [e1] at h
  rw [e2]
  have ht : (n : ℚ) / 2 ^ f ≤ 1 := by rw [div_le_one hp]; exact hn'
  have ht0 : (0 : ℚ) ≤ n / 2 ^ f := by positivity
  generalize (n : ℚ) / 2 ^ f = t at *
  constructor
  · nlinarith
  · linarith

/-- A running sum, with its error. -/
theorem sum_near (w : List T) (hfin : ∀ x ∈ w, Finite x) (D : ℚ) (hD : 2 * D < tooLarge T)
    (hfr : 1 ≤ (fmt T).frac) : ∀ (a : T) (S M : ℚ) (i : Nat), Finite a → |S| ≤ M →
    |value a - S| ≤ ((1 + 1 / 2 ^ ((fmt T).frac + 1)) ^ i - 1) * M →
    M + (w.map fun x => |value x|).sum ≤ D → i + w.length ≤ 2 ^ ((fmt T).frac - 1) →
    Finite (w.foldl add a) ∧ |value (w.foldl add a) - (S + (w.map value).sum)| ≤
      ((1 + 1 / 2 ^ ((fmt T).frac + 1)) ^ (i + w.length) - 1) * (M + (w.map fun x => |value x|).sum) := by
  induction w with
  | nil => 
    intro a S M i ha _ h _ _
    refine ⟨ha, ?_⟩
    simp only [List.foldl_nil, List.map_nil, List.sum_nil, add_zero, List.length_nil]
    exact h
  | cons x w ih =>
    intro a S M i ha hSM herr hDM hlen
    have hx := hfin x (by simp)
    simp only [List.map_cons, List.sum_cons, List.length_cons, List.foldl_cons] at hDM hlen ⊢
    have hrest : (0 : ℚ) ≤ (w.map fun x => |value x|).sum := List.sum_nonneg (by simp)
    have hM : (0 : ℚ) ≤ M := le_trans (abs_nonneg _) hSM
    have hpi := pow_roundoff (T := T) (n := i) (by omega) hfr
    have hpow1 : (1 : ℚ) ≤ (1 + 1 / 2 ^ ((fmt T).frac + 1)) ^ i := one_le_pow₀ (by
      have : (0 : ℚ) ≤ 1 / 2 ^ ((fmt T).frac + 1) := by positivity
      linarith)
    have hsx : |S + value x| ≤ M + |value x| := le_trans (abs_add_le _ _) (by linarith)
    have hax : |value a + value x| ≤ (1 + 1 / 2 ^ ((fmt T).frac + 1)) ^ i * (M + |value x|) := by
      have : value a + value x = (value a - S) + (S + value x) := by ring
      rw [this]
      refine le_trans (abs_add_le _ _) ?_
      have h0 := abs_nonneg (value x)
      nlinarith
    have hlt : |value a + value x| < tooLarge T := by
      refine lt_of_le_of_lt hax ?_
      have h0 := abs_nonneg (value x)
      have h2 : (1 + 1 / 2 ^ ((fmt T).frac + 1) : ℚ) ^ i ≤ 2 := by linarith [hpi.1, hpi.2]
      have : (1 + 1 / 2 ^ ((fmt T).frac + 1) : ℚ) ^ i * (M + |value x|) ≤ 2 * D := by
        have h3 : M + |value x| ≤ D := by linarith
        have h4 : 0 ≤ M + |value x| := by linarith
        nlinarith
      linarith
    obtain ⟨hf, he⟩ := add_error ha hx hlt
    have hfrac : Binary.frac T = (fmt T).frac := (shape T).frac
    rw [hfrac] at he
    have key : |value (add a x) - (S + value x)| ≤
        ((1 + 1 / 2 ^ ((fmt T).frac + 1)) ^ (i + 1) - 1) * (M + |value x|) := by
      have e : value (add a x) - (S + value x) = (value (add a x) - (value a + value x)) + (value a - S) := by ring
      rw [e]
      refine le_trans (abs_add_le _ _) ?_
      have h0 := abs_nonneg (value x)
      have h1 : |value a + value x| / 2 ^ ((fmt T).frac + 1) ≤
          1 / 2 ^ ((fmt T).frac + 1) * ((1 + 1 / 2 ^ ((fmt T).frac + 1)) ^ i * (M + |value x|)) := by
        rw [div_eq_mul_one_div, mul_comm]
        exact mul_le_mul_of_nonneg_left hax (by positivity)
      rw [pow_succ]
      generalize (1 + 1 / 2 ^ ((fmt T).frac + 1) : ℚ) ^ i = p at *
      generalize (1 : ℚ) / 2 ^ ((fmt T).frac + 1) = u at *
      nlinarith
    have := ih (fun y hy => hfin y (by simp [hy])) (add a x) (S + value x) (M + |value x|) (i + 1) hf hsx key
      (by linarith) (by omega)
    rw [show i + (w.length + 1) = i + 1 + w.length by omega, ← add_assoc, ← add_assoc]
    exact this

/-- The sum of a window. -/
theorem sumCalc_near (w : List T) (hfin : ∀ x ∈ w, Finite x) (hfr : 1 ≤ (fmt T).frac)
    (hsum : 2 * (w.map fun x => |value x|).sum < tooLarge T) (hlen : w.length ≤ 2 ^ ((fmt T).frac - 1)) :
    Finite (sumCalc w) ∧ |value (sumCalc w) - (w.map value).sum| ≤
      w.length / 2 ^ (fmt T).frac * (w.map fun x => |value x|).sum := by
  have h := sum_near w hfin _ hsum hfr (zero false) 0 0 0 (finite_zero _) (by simp) (by simp [value_zero])
    (by simp) (by omega)
  simp only [zero_add] at h
  have hz : key (sumCalc w) = key (w.foldl add (zero false)) := by
    rw [sumCalc, key_add (finite_zero _) h.1, value_zero, zero_add, rnd_value h.1]
  have hv : value (sumCalc w) = value (w.foldl add (zero false)) := by rw [value_key, value_key, hz]
  refine ⟨by rw [finite_key, hz, ← finite_key]; exact h.1, ?_⟩
  rw [hv]
  refine le_trans h.2 ?_
  exact mul_le_mul_of_nonneg_right (pow_roundoff hlen hfr).1 (List.sum_nonneg (by simp))

/-- Values keep their value as `double`. -/
class ToDouble (T : Type) [FloType T] : Prop where
  cast : ∀ x : T, Finite x → Finite (cast x : F64) ∧ value (cast x : F64) = value x
  frac : (fmt T).frac ≤ 52
  one : 1 ≤ (fmt T).frac
  small : tooLarge T ≤ tooLarge F64

instance : ToDouble F32 where
  cast := fun x hx => cast_exact hx
  frac := by decide
  one := by decide
  small := by
    have h1 : tooLarge F32 = ((fmt F32).limit : ℚ) / 2 ^ (fmt F32).scale := by
      rw [limit_units]; field_simp
    have h2 : tooLarge F64 = ((fmt F64).limit : ℚ) / 2 ^ (fmt F64).scale := by
      rw [limit_units]; field_simp
    rw [h1, h2]
    decide +kernel

instance : ToDouble F64 where
  cast := fun x hx => cast_self hx
  frac := by decide
  one := by decide
  small := le_refl _

theorem ofInt_count {n : Nat} (hn : n ≤ 2 ^ 53) : Finite (ofInt n : F64) ∧ value (ofInt n : F64) = n := by
  have := ofInt_exact (T := F64) (z := n) (by
    have : 2 * 2 ^ (fmt F64).frac = 2 ^ 53 := by decide
    rw [this]; simpa using hn)
  simpa using this

/-- The mean of a window of finite numbers whose sum does not come near the end of the range. -/
theorem C82_mean_partial [ToDouble T] (w : List T) (hw : w ≠ []) (hfin : ∀ x ∈ w, Finite x)
    (hsum : 2 * (w.map fun x => |value x|).sum < tooLarge T) (hlen : w.length ≤ 2 ^ ((fmt T).frac - 1)) :
    ∃ v, meanCalc w = .ok v ∧ NearMean w v := by
  have hfr := ToDouble.one (T := T)
  have hfr2 := ToDouble.frac (T := T)
  obtain ⟨hs, he⟩ := sumCalc_near w hfin hfr hsum hlen
  obtain ⟨hc, hcv⟩ := ToDouble.cast _ hs
  have hn1 : 1 ≤ w.length := List.length_pos_of_ne_nil hw
  have hn53 : w.length ≤ 2 ^ 53 := le_trans hlen (Nat.pow_le_pow_right (by norm_num) (by omega))
  obtain ⟨hnf, hnv⟩ := ofInt_count hn53
  have hnq : (1 : ℚ) ≤ w.length := by exact_mod_cast hn1
  have hk := key_div hc hnf (by rw [hnv]; positivity)
  rw [hcv, hnv] at hk
  refine ⟨_, by rw [meanCalc, if_neg (by omega)], ?_⟩
  have hA : (0 : ℚ) ≤ (w.map fun x => |value x|).sum := List.sum_nonneg (by simp)
  have hsA : |(w.map value).sum| ≤ (w.map fun x => |value x|).sum := by
    clear hlen hsum hcv hc hs he hnv hnf hn53 hn1 hnq hk hw hfin hA
    induction w with
    | nil => simp
    | cons a w ih =>
      simp only [List.map_cons, List.sum_cons]
      exact le_trans (abs_add_le _ _) (by linarith)
  have hpr := pow_roundoff (T := T) hlen hfr
  have hbound : |value (sumCalc w)| ≤ 2 * (w.map fun x => |value x|).sum := by
    have e : value (sumCalc w) = (value (sumCalc w) - (w.map value).sum) + (w.map value).sum := by ring
    rw [e]
    refine le_trans (abs_add_le _ _) ?_
    nlinarith [hpr.2]
  have hq : |value (sumCalc w) / w.length| ≤ |value (sumCalc w)| := by
    rw [abs_div, abs_of_nonneg (by linarith : (0 : ℚ) ≤ w.length)]
    exact div_le_self (abs_nonneg _) hnq
  have hsm := ToDouble.small (T := T)
  have hf := rnd_finite (T := F64) (q := value (sumCalc w) / w.length) (by linarith)
  have hvfin : Finite (div (FloatArith.cast (sumCalc w)) (ofInt w.length) : F64) := by
    rw [finite_key, hk]; exact hf
  refine ⟨hvfin, ?_⟩
  rw [value_key, hk]
  have herr := rnd_error (Lawful.good : (fmt F64).Good) hf
  have h1 : |value (sumCalc w) / w.length - mean w| ≤ w.length / 2 ^ (fmt T).frac * magnitude w := by
    rw [mean, magnitude, ← sub_div, abs_div, abs_of_nonneg (by linarith : (0 : ℚ) ≤ w.length), mul_div_assoc']
    exact div_le_div_of_nonneg_right he (by linarith)
  have hmag : 0 ≤ magnitude w := div_nonneg hA (by linarith)
  have h2 : |fval (fmt F64) (rnd (fmt F64) (value (sumCalc w) / w.length)) - value (sumCalc w) / w.length| ≤
      1 / 2 ^ (fmt T).frac * magnitude w + 1 / 2 ^ 1075 := by
    have hp : (0 : ℚ) ≤ 1 / 2 ^ (fmt T).frac * magnitude w := by positivity
    have hp2 : (0 : ℚ) ≤ 1 / 2 ^ 1075 := by positivity
    rcases herr with h | h
    · refine le_trans h ?_
      have : (1 : ℚ) / 2 / 2 ^ (fmt F64).scale = 1 / 2 ^ 1075 := by
        rw [show (fmt F64).scale = 1074 from rfl, div_div, ← pow_succ']
      rw [this]
      generalize (1 : ℚ) / 2 ^ 1075 = z at *
      linarith
    · refine le_trans h ?_
      have hq2 : |value (sumCalc w) / w.length| ≤ 2 * magnitude w := by
        rw [abs_div, abs_of_nonneg (by linarith : (0 : ℚ) ≤ w.length), magnitude, mul_div_assoc']
        exact div_le_div_of_nonneg_right hbound (by linarith)
      have h3 : |value (sumCalc w) / w.length| / 2 ^ ((fmt F64).frac + 1) ≤ 1 / 2 ^ (fmt T).frac * magnitude w := by
        rw [show (fmt F64).frac + 1 = 53 from rfl]
        have h4 : |value (sumCalc w) / w.length| / 2 ^ 53 ≤ 2 * magnitude w / 2 ^ 53 :=
          div_le_div_of_nonneg_right hq2 (by positivity)
        refine le_trans h4 ?_
        have h5 : (1 : ℚ) / 2 ^ 52 ≤ 1 / 2 ^ (fmt T).frac :=
          one_div_le_one_div_of_le (by positivity) (pow_le_pow_right₀ (by norm_num) hfr2)
        have h6 : 2 * magnitude w / 2 ^ 53 = 1 / 2 ^ 52 * magnitude w := by
          rw [show (53 : Nat) = 52 + 1 from rfl, pow_succ]; field_simp
        rw [h6]
        exact mul_le_mul_of_nonneg_right h5 hmag
      generalize (1 : ℚ) / 2 ^ 1075 = z at *
      linarith
  have h3 : (w.length + 1 : ℚ) / 2 ^ (fmt T).frac * magnitude w =
      w.length / 2 ^ (fmt T).frac * magnitude w + 1 / 2 ^ (fmt T).frac * magnitude w := by ring
  rw [h3]
  generalize (1 : ℚ) / 2 ^ 1075 = z at *
  generalize fval (fmt F64) (rnd (fmt F64) (value (sumCalc w) / w.length)) = r at *
  have e : r - mean w = (r - value (sumCalc w) / w.length) + (value (sumCalc w) / w.length - mean w) := by ring
  rw [e]
  refine le_trans (abs_add_le _ _) ?_
  linarith

/-- A sum without rounding. -/
theorem add_exact {x y : T} (hx : Finite x) (hy : Finite y) {e : Nat} (he : e ≤ (fmt T).scale) {z : Int}
    (hz : z.natAbs ≤ 2 * 2 ^ (fmt T).frac) (hv : value x + value y = z / 2 ^ e) :
    Finite (add x y) ∧ value (add x y) = z / 2 ^ e := by
  have hk := key_add hx hy
  rw [hv] at hk
  obtain ⟨m, h1, h2⟩ := mag_exists (fmt T) ((fmt T).scale - e) z.natAbs hz
  have hP : 0 < 2 ^ (fmt T).frac := Nat.pow_pos (by norm_num)
  refine of_exists hk (m := m) (lt_of_le_of_lt h1 ?_) ?_
  · unfold Fmt.inf
    have := Lawful.wide (T := T)
    exact Nat.mul_lt_mul_of_pos_right (by omega) hP
  · rw [h2]
    obtain ⟨d, hd⟩ : ∃ d, (fmt T).scale = e + d := ⟨_, (Nat.add_sub_cancel' he).symm⟩
    rw [hd, Nat.add_sub_cancel_left, abs_div, abs_of_nonneg (by positivity : (0 : ℚ) ≤ 2 ^ e), pow_add]
    push_cast
    rw [Nat.cast_natAbs, Int.cast_abs]
    field_simp

theorem sum_exact (e : Nat) (he : e ≤ (fmt T).scale) (w : List T) : ∀ (zs : List Int) (a : T) (s : Int), Finite a →
    value a = s / 2 ^ e → List.Forall₂ (fun (x : T) (z : Int) => Finite x ∧ value x = z / 2 ^ e) w zs →
    s.natAbs + (zs.map Int.natAbs).sum ≤ 2 * 2 ^ (fmt T).frac →
    Finite (w.foldl add a) ∧ value (w.foldl add a) = ((s + zs.sum : Int) : ℚ) / 2 ^ e ∧
      value a + (w.map value).sum = ((s + zs.sum : Int) : ℚ) / 2 ^ e := by
  induction w with
  | nil =>
    intro zs a s ha hv h hs
    cases h
    simpa using ⟨ha, hv⟩
  | cons x w ih =>
    intro zs a s ha hv h hs
    cases h with
    | cons hx h =>
      rename_i z zs
      simp only [List.map_cons, List.sum_cons, List.foldl_cons] at hs ⊢
      have hsz : (s + z).natAbs + (zs.map Int.natAbs).sum ≤ 2 * 2 ^ (fmt T).frac := by
        have := Int.natAbs_add_le s z
        omega
      have hval : value a + value x = ((s + z : Int) : ℚ) / 2 ^ e := by
        rw [hv, hx.2]; push_cast; ring
      obtain ⟨h1, h2⟩ := add_exact ha hx.1 he (le_trans (Nat.le_add_right _ _) hsz) hval
      obtain ⟨h3, h4, h5⟩ := ih zs (add a x) (s + z) h1 h2 h hsz
      rw [← add_assoc] at *
      refine ⟨h3, h4, ?_⟩
      rw [← add_assoc, hval, ← h2]
      exact h5

/-- Integers, and other multiples of one power of two, with a sum of at most `frac + 1` bits: the mean is the `double`
nearest to the exact mean. -/
theorem C82_mean_exact [ToDouble T] (w : List T) (hw : w ≠ []) (e : Nat) (he : e ≤ (fmt T).scale) (zs : List Int)
    (hz : List.Forall₂ (fun (x : T) (z : Int) => Finite x ∧ value x = z / 2 ^ e) w zs)
    (hsum : (zs.map Int.natAbs).sum ≤ 2 ^ ((fmt T).frac + 1)) (hlen : w.length ≤ 2 ^ 53) :
    ∃ v, meanCalc w = .ok v ∧ Rounded (mean w) v := by
  rw [Nat.pow_succ, Nat.mul_comm] at hsum
  obtain ⟨h1, h2, h3⟩ := sum_exact e he w zs (zero false) 0 (finite_zero _) (by simp [value_zero]) hz (by simpa using hsum)
  rw [value_zero, zero_add] at h3
  have hk : key (sumCalc w) = key (w.foldl add (zero false)) := by
    rw [sumCalc, key_add (finite_zero _) h1, value_zero, zero_add, rnd_value h1]
  have hv : value (sumCalc w) = (w.map value).sum := by rw [value_key, hk, ← value_key, h2, h3]
  have hs : Finite (sumCalc w) := by rw [finite_key, hk, ← finite_key]; exact h1
  obtain ⟨hc, hcv⟩ := ToDouble.cast _ hs
  obtain ⟨hnf, hnv⟩ := ofInt_count hlen
  have hn1 : 1 ≤ w.length := List.length_pos_of_ne_nil hw
  refine ⟨_, by rw [meanCalc, if_neg (by omega)], ?_⟩
  have hd := div_rounded hc hnf (by rw [hnv]; positivity)
  rw [hcv, hnv, hv] at hd
  exact hd

theorem add_nan_left {x y : T} (h : isNaN x = true) : isNaN (add x y) = true := by
  simp [add, h, isNaN_nan]

theorem add_nan_right {x y : T} (h : isNaN y = true) : isNaN (add x y) = true := by
  simp [add, h, isNaN_nan]

theorem sum_nan (w : List T) : ∀ a : T, (isNaN a = true ∨ ∃ x ∈ w, isNaN x = true) → isNaN (w.foldl add a) = true := by
  induction w with
  | nil => intro a h; simpa using h
  | cons x w ih =>
    intro a h
    apply ih
    rcases h with h | ⟨y, hy, h⟩
    · exact .inl (add_nan_left h)
    · rcases List.mem_cons.1 hy with rfl | hy
      · exact .inl (add_nan_right h)
      · exact .inr ⟨y, hy, h⟩

/-- A missing value makes the mean of its windows missing. -/
theorem C82_mean_nan (w : List T) (x : T) (hx : x ∈ w) (hn : isNaN x = true) :
    ∃ v : F64, meanCalc w = .ok v ∧ isNaN v = true := by
  have h1 : isNaN (sumCalc w) = true := add_nan_right (sum_nan w _ (.inr ⟨x, hx, hn⟩))
  have hl : w.length ≠ 0 := by
    have := List.length_pos_of_mem hx
    omega
  refine ⟨_, by rw [meanCalc, if_neg hl], ?_⟩
  have h2 : isNaN (FloatArith.cast (sumCalc w) : F64) = true := by
    simp [FloatArith.cast, h1, isNaN_nan]
  simp [div, h2, isNaN_nan]

/-- The mean can leave the range of the window: ten times 0.1 (`double`). -/
theorem C82_mean_below : ∃ v, meanCalc (List.replicate 10 (⟨0x3FB999999999999A⟩ : F64)) = .ok v ∧
    lt v (⟨0x3FB999999999999A⟩ : F64) = true := by
  refine ⟨_, rfl, ?_⟩
  decide +kernel

/-- The mean of finite numbers can be infinite: twice 3e38 (`float`), whose mean is representable. -/
theorem C82_mean_overflow : ∃ v, meanCalc ([⟨0x7F61B1E6⟩, ⟨0x7F61B1E6⟩] : List F32) = .ok v ∧ isInf v = true := by
  refine ⟨_, rfl, ?_⟩
  decide +kernel

/-! ### The featurizer -/

omit [Lawful T] in
theorem finite_infix {xs w : List T} (h : ∀ x ∈ xs, Finite x) (hin : w <:+: xs) : ∀ x ∈ w, Finite x :=
  fun x hx => h x (hin.subset hx)

/-- **C82** Rolling minimum of a series of finite numbers. -/
theorem C82_rolling_min (c : UInt8) (H W minW : UInt32) (hH : 0 < H.toNat)
    (hmin0 : 0 < minW.toNat) (hmin : minW.toNat ≤ W.toNat) (hsum : H.toNat + W.toNat < 2 ^ 32) :
    ∃ t : Rolling T, Rolling.new c H W minW = .ok t ∧ ∀ xs : List T, (∀ x ∈ xs, Finite x) →
      ∃ outs, (rollingXf minCalc).runAll t xs = ⟨outs, none, t⟩ ∧ ((rollingXf minCalc).execAll t xs).outs = outs ∧
        RollingSpec (Least value) H.toNat W.toNat minW.toNat xs outs := by
  obtain ⟨t, h1, h2⟩ := rolling_gen (A := T) minCalc (Least value) c H W minW hH hmin0 hmin hsum
  exact ⟨t, h1, fun xs hxs => h2 xs fun w hw _ hin => C82_min w hw (finite_infix hxs hin)⟩

/-- **C82** Rolling maximum of a series of finite numbers not below the smallest positive normal number.  Of other
series it is false (`C82_max_refuted`). -/
theorem C82_rolling_max_partial (c : UInt8) (H W minW : UInt32) (hH : 0 < H.toNat)
    (hmin0 : 0 < minW.toNat) (hmin : minW.toNat ≤ W.toNat) (hsum : H.toNat + W.toNat < 2 ^ 32) :
    ∃ t : Rolling T, Rolling.new c H W minW = .ok t ∧ ∀ xs : List T,
      (∀ x ∈ xs, Finite x ∧ value (smallestNormal : T) ≤ value x) →
      ∃ outs, (rollingXf maxCalc).runAll t xs = ⟨outs, none, t⟩ ∧ ((rollingXf maxCalc).execAll t xs).outs = outs ∧
        RollingSpec (Greatest value) H.toNat W.toNat minW.toNat xs outs := by
  obtain ⟨t, h1, h2⟩ := rolling_gen (A := T) maxCalc (Greatest value) c H W minW hH hmin0 hmin hsum
  refine ⟨t, h1, fun xs hxs => h2 xs fun w hw _ hin => ?_⟩
  obtain ⟨a, w', rfl⟩ := List.exists_cons_of_ne_nil hw
  exact C82_max_partial _ (finite_infix (fun x hx => (hxs x hx).1) hin) a (by simp) (hxs a (hin.subset (by simp))).2

omit [Lawful T] in
theorem sum_le_of_le (B : ℚ) (w : List T) (h : ∀ x ∈ w, |value x| ≤ B) :
    (w.map fun x => |value x|).sum ≤ w.length * B := by
  induction w with
  | nil => simp
  | cons a w ih =>
    have h1 := h a (by simp)
    have h2 := ih fun x hx => h x (by simp [hx])
    simp only [List.map_cons, List.sum_cons, List.length_cons]
    push_cast
    linarith

/-- **C82** Rolling mean of a series of finite numbers, for windows whose sums stay in the lower half of the range of
the type. -/
theorem C82_rolling_mean_partial [ToDouble T] (c : UInt8) (H W minW : UInt32) (hH : 0 < H.toNat)
    (hmin0 : 0 < minW.toNat) (hmin : minW.toNat ≤ W.toNat) (hsum : H.toNat + W.toNat < 2 ^ 32)
    (hlen : W.toNat ≤ 2 ^ ((fmt T).frac - 1)) :
    ∃ t : Rolling T, Rolling.new c H W minW = .ok t ∧ ∀ (xs : List T) (B : ℚ), 2 * (W.toNat * B) < tooLarge T →
      (∀ x ∈ xs, Finite x ∧ |value x| ≤ B) →
      ∃ outs, (rollingXf meanCalc).runAll t xs = ⟨outs, none, t⟩ ∧ ((rollingXf meanCalc).execAll t xs).outs = outs ∧
        RollingSpec NearMean H.toNat W.toNat minW.toNat xs outs := by
  obtain ⟨t, h1, h2⟩ := rolling_gen (A := T) meanCalc NearMean c H W minW hH hmin0 hmin hsum
  refine ⟨t, h1, fun xs B hB hxs => h2 xs fun w hw hl hin => ?_⟩
  refine C82_mean_partial w hw (finite_infix (fun x hx => (hxs x hx).1) hin) ?_ (le_trans hl hlen)
  have h3 := sum_le_of_le B w fun x hx => (hxs x (hin.subset hx)).2
  have hB0 : 0 ≤ B := by
    obtain ⟨a, w', rfl⟩ := List.exists_cons_of_ne_nil hw
    exact le_trans (abs_nonneg _) (hxs a (hin.subset (by simp))).2
  have h4 : (w.length : ℚ) * B ≤ W.toNat * B := mul_le_mul_of_nonneg_right (by exact_mod_cast hl) hB0
  linarith

/-! ### Cases -/

example : ∃ v, minCalc ([ofInt 3, ofInt (-4)] : List F64) = .ok v ∧ v = ofInt (-4) := ⟨_, rfl, by decide +kernel⟩

example : ∃ v, maxCalc ([ofInt 3, ofInt (-4)] : List F32) = .ok v ∧ v = ofInt 3 := ⟨_, rfl, by decide +kernel⟩

/-- The maximum of -4 and -3 is 2.2e-308. -/
example : maxCalc ([ofInt (-3), ofInt (-4)] : List F64) = .ok ⟨0x0010000000000000⟩ := by
  rw [(C82_max_refuted (T := F64) _ ?_).1]
  · decide +kernel
  · have h3 := ofInt_exact (T := F64) (z := -3) (by decide +kernel)
    have h4 := ofInt_exact (T := F64) (z := -4) (by decide +kernel)
    have hs : (0 : ℚ) < value (smallestNormal : F64) := by
      rw [value_key]
      have := (fval_lt (F := fmt F64) (a := 0) (b := key (smallestNormal : F64))).2 (by
        rw [key_smallestNormal.1]; positivity)
      simpa [fval_zero] using this
    intro x hx
    simp only [List.mem_cons, List.not_mem_nil, or_false] at hx
    rcases hx with rfl | rfl
    · refine ⟨h3.1, ?_⟩; rw [h3.2]; push_cast; linarith
    · refine ⟨h4.1, ?_⟩; rw [h4.2]; push_cast; linarith

example : ∃ v, meanCalc ([ofInt 3, ofInt (-4)] : List F32) = .ok v ∧ Rounded (-1 / 2) v := by
  have h3 := ofInt_exact (T := F32) (z := 3) (by decide +kernel)
  have h4 := ofInt_exact (T := F32) (z := -4) (by decide +kernel)
  obtain ⟨v, h1, h2⟩ := C82_mean_exact (T := F32) [ofInt 3, ofInt (-4)] (by simp) 0 (by simp) [3, -4]
    (.cons ⟨h3.1, by rw [h3.2]; simp⟩ (.cons ⟨h4.1, by rw [h4.2]; simp⟩ .nil)) (by decide) (by decide)
  refine ⟨v, h1, ?_⟩
  have : mean ([ofInt 3, ofInt (-4)] : List F32) = -1 / 2 := by
    simp [mean, h3.2, h4.2]; norm_num
  rw [← this]
  exact h2

/-- A series for the rolling mean: windows of up to three floats, of at most 100. -/
example : ∃ t : Rolling F32, Rolling.new 1 2 3 1 = .ok t ∧
    ∃ outs, (rollingXf meanCalc).runAll t [ofInt 3, ofInt (-4), ofInt 5] = ⟨outs, none, t⟩ ∧
      RollingSpec (NearMean (T := F32)) 2 3 1 [ofInt 3, ofInt (-4), ofInt 5] outs := by
  have h3 := ofInt_exact (T := F32) (z := 3) (by decide +kernel)
  have h4 := ofInt_exact (T := F32) (z := -4) (by decide +kernel)
  have h5 := ofInt_exact (T := F32) (z := 5) (by decide +kernel)
  obtain ⟨t, h1, h2⟩ := C82_rolling_mean_partial (T := F32) 1 2 3 1 (by decide) (by decide) (by decide) (by decide)
    (by decide)
  obtain ⟨outs, h6, _, h7⟩ := h2 [ofInt 3, ofInt (-4), ofInt 5] 100 (by
    have h2 : tooLarge F32 = ((fmt F32).limit : ℚ) / 2 ^ (fmt F32).scale := by
      rw [limit_units]; field_simp
    rw [h2]
    have : (2 * ((3 : UInt32).toNat * 100) : ℚ) = ((600 : Nat) : ℚ) := by
      rw [show (3 : UInt32).toNat = 3 from rfl]; norm_num
    rw [this]
    decide +kernel) (by
    intro x hx
    simp only [List.mem_cons, List.not_mem_nil, or_false] at hx
    rcases hx with rfl | rfl | rfl
    · refine ⟨h3.1, ?_⟩; rw [h3.2]; norm_num
    · refine ⟨h4.1, ?_⟩; rw [h4.2]; norm_num
    · refine ⟨h5.1, ?_⟩; rw [h5.2]; norm_num)
  exact ⟨t, h1, outs, h6, h7⟩

end Feat.FloatWindows
