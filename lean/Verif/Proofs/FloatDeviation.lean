import Verif.Proofs.FloatStats
/-
The standard deviation in floating point arithmetic: the loop and its sums.
-/
namespace Feat.FloatStats
open FloatText FloatArith FloatNorms FloatScalers
variable {ι V S α : Type}

/-! ### Sums that may be refused -/

/-- A running sum of numbers that are not negative: it throws because of one that is negligible, or has a small error. -/
theorem sum_either (D : ℚ) (hD : 2 * D < tooLarge F80) (ds : List F80) : ∀ (a : F80) (S : ℚ) (i : Nat), Finite a → 0 ≤ S →
    |value a - S| ≤ ((1 + 1 / 2 ^ 64) ^ i - 1) * S → (∀ d ∈ ds, Finite d ∧ 0 ≤ value d) → S + (ds.map value).sum ≤ D →
    i + ds.length ≤ 2 ^ 62 →
    (∃ b, sumAll ds a = (.error .runtimeError, b) ∧ ∃ d ∈ ds, value d ≠ 0 ∧ 2 ^ 61 * value d ≤ D) ∨
    ∃ b, sumAll ds a = (.ok (), b) ∧ Finite b ∧
      |value b - (S + (ds.map value).sum)| ≤ ((1 + 1 / 2 ^ 64) ^ (i + ds.length) - 1) * (S + (ds.map value).sum) := by
  induction ds with
  | nil =>
    intro a S i ha hS h _ _ _
    exact .inr ⟨a, rfl, ha, by simpa using h⟩
  | cons d ds ih =>
    intro a S i ha hS h hv hA hn
    obtain ⟨hd, hd0⟩ := hv d (by simp)
    simp only [List.map_cons, List.sum_cons, List.length_cons] at hA hn ⊢
    have hrest : 0 ≤ (ds.map value).sum := List.sum_nonneg (by
      intro q hq
      obtain ⟨e, he, rfl⟩ := List.mem_map.1 hq
      exact (hv e (List.mem_cons_of_mem _ he)).2)
    have hp1 : (1 : ℚ) ≤ (1 + 1 / 2 ^ 64) ^ i := one_le_pow₀ (by norm_num)
    have hp2 : (1 + 1 / 2 ^ 64 : ℚ) ^ i ≤ 3 / 2 := pow_le_half (by omega)
    have hps : (1 + 1 / 2 ^ 64 : ℚ) ^ (i + 1) = (1 + 1 / 2 ^ 64) ^ i * (1 + 1 / 2 ^ 64) := pow_succ _ _
    have hstep := ih (add a d) (S + value d) (i + 1)
    rw [hps] at hstep
    rw [show i + (ds.length + 1) = i + 1 + ds.length by ring, ← add_assoc]
    generalize (1 + 1 / 2 ^ 64 : ℚ) ^ i = p at *
    have hap : |value a| ≤ p * S := by
      have := abs_add_le (value a - S) S
      rw [sub_add_cancel, abs_of_nonneg hS] at this
      linarith
    have hpA : p * S ≤ 3 / 2 * S := mul_le_mul_of_nonneg_right hp2 hS
    have hsum : |value a + value d| ≤ p * S + value d := by
      have := abs_add_le (value a) (value d)
      rw [abs_of_nonneg hd0] at this
      linarith
    obtain ⟨hf, he⟩ := add_error ha hd (by linarith)
    rw [show Binary.frac F80 + 1 = 64 from rfl] at he
    by_cases habs : (eq (add a d) a && !eq d (zero false)) = true
    · refine .inl ⟨a, ?_, d, by simp, ?_⟩
      · have hst : accumulate a d = (.error .runtimeError, a) := by
          unfold accumulate
          rw [if_pos habs]
        simp only [sumAll, hst]
      · rw [Bool.and_eq_true, Bool.not_eq_true', eq_iff hf ha] at habs
        refine ⟨?_, ?_⟩
        · intro h0
          have : eq d (zero false) = true := by rw [eq_iff hd (finite_zero _), value_zero, h0]
          rw [habs.2] at this
          cases this
        · rw [habs.1, show value a - (value a + value d) = -value d by ring, abs_neg, abs_of_nonneg hd0] at he
          have h9 : |value a + value d| / 2 ^ 64 ≤ (3 / 2 * S + value d) / 2 ^ 64 :=
            div_le_div_of_nonneg_right (by linarith) (by positivity)
          have h10 := le_trans he h9
          rw [le_div_iff₀ (by positivity)] at h10
          norm_num at h10 ⊢
          linarith
    · have hst : accumulate a d = (.ok (), add a d) := by
        unfold accumulate
        rw [if_neg habs, if_neg (by rw [Finite.not_inf hf]; simp)]
      rcases hstep hf (by linarith) (by
        have := abs_sub_le (value (add a d)) (value a + value d) (S + value d)
        rw [show value a + value d - (S + value d) = value a - S by ring] at this
        refine le_trans this ?_
        have h9 : |value a + value d| / 2 ^ 64 ≤ (p * S + value d) * (1 / 2 ^ 64) := by
          rw [div_eq_mul_one_div]
          exact mul_le_mul_of_nonneg_right hsum (by positivity)
        have h10 : (0 : ℚ) ≤ (p - 1) * (1 + 1 / 2 ^ 64) * value d := by
          have : 0 ≤ p - 1 := by linarith
          positivity
        have := le_trans (add_le_add he h) (add_le_add_left h9 _)
        linarith) (fun v hm => hv v (List.mem_cons_of_mem _ hm)) (by linarith) (by omega) with ⟨b, h1, v, hm, h2⟩ | ⟨b, h1, h2, h3⟩
      · refine .inl ⟨b, ?_, v, List.mem_cons_of_mem _ hm, h2⟩
        simp only [sumAll, hst, h1]
      · refine .inr ⟨b, ?_, h2, h3⟩
        simp only [sumAll, hst, h1]

/-! ### The loop -/

/-- The loop over the values that are not null. -/
def devLoop : List F64 → DevState → Except Err Unit × DevState
  | [], s => (.ok (), s)
  | x :: xs, s => match devFit s x with
    | (.error e, s') => (.error e, s')
    | (.ok (), s') => devLoop xs s'

/-- What is added for a value. -/
def term (a x : F64) : F80 := mul (absolute (FloatArith.cast (sub x a))) (absolute (FloatArith.cast (sub x a)))

theorem devFit_all (k : StatInput ι V S) (xs : List ι) : ∀ s,
    (devPolicy k).fitAll xs s = devLoop ((xs.filterMap k.get).map k.toD) s := by
  induction xs with
  | nil => intro s; rfl
  | cons x xs ih =>
    intro s
    cases h : k.get x with
    | none =>
      have hf : (devPolicy k).fit x s = (.ok (), s) := by simp only [devPolicy, h]
      rw [List.filterMap_cons_none h]
      simp only [Policy.fitAll, hf]
      exact ih s
    | some v =>
      have hf : (devPolicy k).fit x s = devFit s (k.toD v) := by simp only [devPolicy, h]
      rw [List.filterMap_cons_some h, List.map_cons]
      simp only [Policy.fitAll, hf, devLoop]
      rcases devFit s (k.toD v) with ⟨_ | _, s'⟩
      · rfl
      · exact ih s'

theorem devFit_eq {s : DevState} {x : F64} (hn : isNaN (sub x s.average) = false) (hc : s.count + 1 < 2 ^ 64) :
    (∀ e b, accumulate s.squares.acc (term s.average x) = (.error e, b) → ∃ s', devFit s x = (.error e, s')) ∧
    (∀ b, accumulate s.squares.acc (term s.average x) = (.ok (), b) →
      devFit s x = (.ok (), ⟨⟨b, true⟩, s.average, s.count + 1⟩)) := by
  have hu := updateAll_sum (floNorm F64) (fun x => mul (absolute x) (absolute x)) sqrt [sub x s.average] s.squares
  have ht : terms (floNorm F64) (fun x => mul (absolute x) (absolute x)) [sub x s.average] = [term s.average x] := by
    have : (floNorm F64).null (sub x s.average) = false := hn
    simp only [terms, List.filter_cons, List.filter_nil, this, Bool.not_false, if_true, List.map_cons, List.map_nil]
    rfl
  rw [ht] at hu
  have hu' : updateAll (floNorm F64) l2 [sub x s.average] s.squares =
      ((sumAll [term s.average x] s.squares.acc).1, ⟨(sumAll [term s.average x] s.squares.acc).2, s.squares.valid || true⟩) := hu
  constructor
  · intro e b h
    have h1 : sumAll [term s.average x] s.squares.acc = (.error e, b) := by simp only [sumAll, h]
    rw [h1] at hu'
    exact ⟨_, by simp only [devFit, hu']; rfl⟩
  · intro b h
    have h1 : sumAll [term s.average x] s.squares.acc = (.ok (), b) := by simp only [sumAll, h]
    rw [h1, Bool.or_true] at hu'
    simp only [devFit, hu']
    rw [if_neg (by omega)]

theorem devLoop_eq (xs : List F64) : ∀ s : DevState, (∀ x ∈ xs, isNaN (sub x s.average) = false) → s.count + xs.length < 2 ^ 64 →
    (∀ e b, sumAll (xs.map (term s.average)) s.squares.acc = (.error e, b) → ∃ s', devLoop xs s = (.error e, s')) ∧
    (∀ b, sumAll (xs.map (term s.average)) s.squares.acc = (.ok (), b) →
      devLoop xs s = (.ok (), ⟨⟨b, s.squares.valid || !xs.isEmpty⟩, s.average, s.count + xs.length⟩)) := by
  induction xs with
  | nil =>
    intro s _ _
    refine ⟨fun e b h => ?_, fun b h => ?_⟩
    · simp [sumAll] at h
    · simp only [List.map_nil, sumAll, Prod.mk.injEq, true_and] at h
      subst h
      simp [devLoop]
  | cons x xs ih =>
    intro s hn hc
    rw [List.length_cons] at hc
    obtain ⟨f1, f2⟩ := devFit_eq (hn x (by simp)) (by omega)
    rcases hacc : accumulate s.squares.acc (term s.average x) with ⟨_ | _, a⟩
    · rename_i e
      obtain ⟨s', hs'⟩ := f1 e a hacc
      have h1 : sumAll ((x :: xs).map (term s.average)) s.squares.acc = (.error e, a) := by
        simp only [List.map_cons, sumAll, hacc]
      have h2 : devLoop (x :: xs) s = (.error e, s') := by simp only [devLoop, hs']
      rw [h1]
      refine ⟨fun e' b h => ?_, fun b h => by cases h⟩
      simp only [Prod.mk.injEq, Except.error.injEq] at h
      rw [← h.1]
      exact ⟨s', h2⟩
    · have hs' := f2 a hacc
      have h1 : sumAll ((x :: xs).map (term s.average)) s.squares.acc = sumAll (xs.map (term s.average)) a := by
        simp only [List.map_cons, sumAll, hacc]
      have h2 : devLoop (x :: xs) s = devLoop xs ⟨⟨a, true⟩, s.average, s.count + 1⟩ := by simp only [devLoop, hs']
      obtain ⟨g1, g2⟩ := ih ⟨⟨a, true⟩, s.average, s.count + 1⟩ (fun y hy => hn y (List.mem_cons_of_mem _ hy)) (by
        show s.count + 1 + xs.length < 2 ^ 64; omega)
      rw [h1, h2]
      refine ⟨g1, fun b h => ?_⟩
      rw [g2 b h]
      simp only [List.isEmpty_cons, Bool.not_false, Bool.or_true, Bool.true_or, List.length_cons]
      rw [Nat.add_right_comm, Nat.add_assoc]

/-! ### What is added -/

theorem double_large : (2 : ℚ) ^ 1023 < tooLarge F64 := by
  unfold tooLarge
  rw [show Binary.frac F64 = 52 from rfl, show ((bias F64 : Nat) : Int) = 1023 by decide +kernel,
    show (2 : ℚ) ^ (1023 - ((52 : Nat) : Int) - 1 : Int) = 2 ^ 970 from by
      rw [show (1023 - ((52 : Nat) : Int) - 1 : Int) = ((970 : Nat) : Int) by norm_num, zpow_natCast]]
  have h2 : (0 : ℚ) < 2 ^ 970 := by positivity
  rw [show (2 : ℚ) ^ 1023 = 2 ^ 970 * 2 ^ 53 by rw [← pow_add]]
  generalize (2 : ℚ) ^ 970 = A at *
  norm_num
  linarith

theorem term_near {a x : F64} (ha : Finite a) (hx : Finite x) (h : |value x - value a| ≤ 2 ^ 1022) :
    isNaN (sub x a) = false ∧ Finite (term a x) ∧ 0 ≤ value (term a x) ∧
    |value (term a x) - (value x - value a) ^ 2| ≤ (value x - value a) ^ 2 * (1 / 2 ^ 51) := by
  have hlt : |value x - value a| < tooLarge F64 := by
    have h1 : (2 : ℚ) ^ 1022 ≤ 2 ^ 1023 := pow_le_pow_right₀ (by norm_num) (by norm_num)
    exact lt_of_le_of_lt (le_trans h h1) double_large
  have hf := sub_finite hx ha hlt
  have he := sub_error hx ha hlt
  obtain ⟨h1, h2, h3, -, -, -⟩ := square_term double_lawful (x := sub x a) (q := value (sub x a))
    (by intro hi; rw [← isInf_iff, Finite.not_inf hf] at hi; cases hi) (by
      unfold floNumber
      rw [if_neg (fun h => by have := (isNaN_iff _).2 h; rw [Finite.not_nan hf] at this; cases this)])
  have ht : term a x = mul (absolute ((floNorm F64).toL (sub x a))) (absolute ((floNorm F64).toL (sub x a))) := rfl
  rw [← ht] at h1 h2
  rw [← h2] at h3
  refine ⟨Finite.not_nan hf, h1, ?_, ?_⟩
  · rw [h2]
    exact fval_nonneg (rnd_nonneg (by positivity))
  · rw [show Binary.frac F64 + 1 = 53 from rfl] at he
    generalize value (term a x) = t at *
    generalize value (sub x a) = d at *
    generalize value x - value a = r at *
    have hr0 : 0 ≤ |r| := abs_nonneg r
    have hd : |d ^ 2 - r ^ 2| ≤ |r| / 2 ^ 53 * (|r| * (2 + 1 / 2 ^ 53)) := by
      rw [show d ^ 2 - r ^ 2 = (d - r) * (d + r) by ring, abs_mul]
      refine mul_le_mul he ?_ (abs_nonneg _) (by positivity)
      have := abs_add_le (d - r) (2 * r)
      rw [show d - r + 2 * r = d + r by ring, abs_mul, show |(2 : ℚ)| = 2 by norm_num] at this
      linarith
    have hrr : |r| * |r| = r ^ 2 := by rw [abs_mul_abs_self]; ring
    have hd' : |d ^ 2 - r ^ 2| ≤ r ^ 2 * ((2 + 1 / 2 ^ 53) / 2 ^ 53) := by
      refine le_trans hd (le_of_eq ?_)
      rw [← hrr]
      ring
    have hd2 : d ^ 2 ≤ r ^ 2 * 2 := by
      have := (abs_le.1 hd').2
      have h0 : 0 ≤ r ^ 2 := by positivity
      norm_num at this ⊢
      linarith
    have := abs_sub_le t (d ^ 2) (r ^ 2)
    have h0 : 0 ≤ r ^ 2 := by positivity
    norm_num at *
    linarith

/-- The sum of squares: refused because of a difference whose square is negligible, or near the exact one. -/
theorem squares_run {a : F64} (ha : Finite a) (xs : List F64) (hx : ∀ x ∈ xs, Finite x ∧ |value x - value a| ≤ 2 ^ 1022)
    (hlen : xs.length ≤ 2 ^ 60) (R : ℚ) (hR : R = (xs.map fun x => (value x - value a) ^ 2).sum) :
    (∃ s', devLoop xs ⟨Acc.start, a, 0⟩ = (.error .runtimeError, s') ∧
      ∃ x ∈ xs, value x ≠ value a ∧ 2 ^ 60 * (value x - value a) ^ 2 ≤ R) ∨
    ∃ b, devLoop xs ⟨Acc.start, a, 0⟩ = (.ok (), ⟨⟨b, !xs.isEmpty⟩, a, xs.length⟩) ∧ Finite b ∧
      |value b - R| ≤ R * (xs.length / 2 ^ 63 + 1 / 2 ^ 50) := by
  have ht := fun x hm => term_near ha (hx x hm).1 (hx x hm).2
  have hR0 : 0 ≤ R := by
    rw [hR]
    refine List.sum_nonneg ?_
    intro q hq
    obtain ⟨x, _, rfl⟩ := List.mem_map.1 hq
    positivity
  obtain ⟨T, hT⟩ : ∃ T, T = (xs.map fun x => value (term a x)).sum := ⟨_, rfl⟩
  have hTR : |T - R| ≤ R * (1 / 2 ^ 51) := by
    rw [hT, hR]
    clear hR hT hR0 hlen
    induction xs with
    | nil => simp
    | cons x xs ih =>
      simp only [List.map_cons, List.sum_cons]
      have h1 := (ht x (by simp)).2.2.2
      have h2 := ih (fun y hy => hx y (List.mem_cons_of_mem _ hy)) (fun y hy => ht y (List.mem_cons_of_mem _ hy))
      rw [abs_le] at *
      constructor <;> linarith [h1.1, h1.2, h2.1, h2.2]
  have hRb : R ≤ 2 ^ 2104 := by
    rw [hR]
    refine le_trans (sum_bound (B := 2 ^ 2044) ?_) ?_
    · intro q hq
      obtain ⟨x, hm, rfl⟩ := List.mem_map.1 hq
      have h1 := pow_le_pow_left₀ (abs_nonneg _) (hx x hm).2 2
      rw [sq_abs, ← pow_mul] at h1
      exact h1
    · rw [List.length_map, show (2 : ℚ) ^ 2104 = 2 ^ 60 * 2 ^ 2044 by rw [← pow_add]]
      have : (xs.length : ℚ) ≤ 2 ^ 60 := by exact_mod_cast hlen
      exact mul_le_mul_of_nonneg_right this (by positivity)
  have hTb : 2 * T < tooLarge F80 := by
    have h1 : (2 : ℚ) ^ 2104 * 4 ≤ 2 ^ 5000 := by
      rw [show (4 : ℚ) = 2 ^ 2 by norm_num, ← pow_add]
      exact pow_le_pow_right₀ (by norm_num) (by norm_num)
    have h2 := long_large
    have h3 := (abs_le.1 hTR).2
    generalize (2 : ℚ) ^ 2104 = A at *
    generalize (2 : ℚ) ^ 5000 = B at *
    generalize tooLarge F80 = D at *
    norm_num at *
    linarith
  have hmap : (xs.map (term a)).map value = xs.map fun x => value (term a x) := by rw [List.map_map]; rfl
  clear hRb
  have hrun := sum_either T hTb (xs.map (term a)) Acc.start.acc 0 0 (finite_zero _) le_rfl (by
      rw [show value Acc.start.acc = 0 from value_zero _]; simp) (by
      intro d hd
      obtain ⟨x, hm, rfl⟩ := List.mem_map.1 hd
      exact ⟨(ht x hm).2.1, (ht x hm).2.2.1⟩) (by rw [hmap, ← hT, zero_add]) (by rw [List.length_map]; omega)
  obtain ⟨g1, g2⟩ := devLoop_eq xs ⟨Acc.start, a, 0⟩ (fun x hm => (ht x hm).1) (by
    show 0 + xs.length < 2 ^ 64; omega)
  rw [hmap, ← hT, zero_add, List.length_map, zero_add] at hrun
  rcases hrun with ⟨b, h1, d, hd, h2, h3⟩ | ⟨b, h1, h2, h3⟩
  · left
    obtain ⟨s', hs'⟩ := g1 _ _ h1
    obtain ⟨x, hm, rfl⟩ := List.mem_map.1 hd
    refine ⟨s', hs', x, hm, ?_, ?_⟩
    · intro h0
      have := (ht x hm).2.2.2
      rw [h0] at this
      simp at this
      exact h2 this
    · have h4 := (abs_le.1 (ht x hm).2.2.2).1
      have h5 := (abs_le.1 hTR).2
      have h6 : (0 : ℚ) ≤ (value x - value a) ^ 2 := by positivity
      generalize value (term a x) = t at *
      generalize (value x - value a) ^ 2 = r at *
      have h7 : r ≤ t * 2 * (1 - 1 / 2 ^ 40) := by norm_num at *; linarith
      norm_num at *
      linarith
  · right
    refine ⟨b, ?_, h2, ?_⟩
    · have := g2 b h1
      rw [this]
      show (_, _) = (_, _)
      simp only [zero_add, Acc.start, Bool.false_or]
    · have h4 := pow_small (n := xs.length) (by omega)
      have hn : (xs.length : ℚ) ≤ 2 ^ 60 := by exact_mod_cast hlen
      have hn0 : (0 : ℚ) ≤ xs.length := by positivity
      have hT2 := (abs_le.1 hTR).2
      have hT1 := (abs_le.1 hTR).1
      have hT0 : 0 ≤ T := by norm_num at *; linarith
      have h5 := le_trans h3 (mul_le_mul_of_nonneg_right h4 hT0)
      have h6 := abs_sub_le (value b) T R
      generalize (xs.length : ℚ) = n at *
      have h7 : n / 2 ^ 63 * T ≤ n / 2 ^ 63 * (R * (1 + 1 / 2 ^ 51)) := mul_le_mul_of_nonneg_left (by linarith) (by positivity)
      have h8 : n / 2 ^ 63 * R ≤ 1 * R := mul_le_mul_of_nonneg_right (by norm_num at *; linarith) hR0
      have e : n / 2 ^ 63 * (R * (1 + 1 / 2 ^ 51)) = n / 2 ^ 63 * R + n / 2 ^ 63 * R * (1 / 2 ^ 51) := by ring
      have e2 : R * (n / 2 ^ 63 + 1 / 2 ^ 50) = n / 2 ^ 63 * R + R * (1 / 2 ^ 50) := by ring
      rw [e] at h7
      rw [e2]
      generalize n / 2 ^ 63 * R = w at *
      norm_num at *
      linarith

end Feat.FloatStats
