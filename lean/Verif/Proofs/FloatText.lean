import Verif.Model.FloatText
import Mathlib.Algebra.Order.Ring.Rat
import Mathlib.Algebra.Order.Ring.Abs
import Mathlib.Algebra.Order.Field.Basic
import Mathlib.Algebra.Field.Rat
import Mathlib.Order.Nat
import Mathlib.Order.Monotone.Basic
import Mathlib.Tactic.NormNum
import Mathlib.Tactic.Linarith
import Mathlib.Tactic.FieldSimp
import Mathlib.Tactic.Ring
/-
Rounding to integers and to the patterns of a binary format.
-/
namespace Feat.FloatText

/-! ### Integers -/

/-- `k` is the integer nearest to `x`, the even one in the middle between two. -/
def IsRound (k : Nat) (x : ℚ) : Prop := |(k : ℚ) - x| ≤ 1 / 2 ∧ (|(k : ℚ) - x| = 1 / 2 → k % 2 = 0)

theorem roundEven_spec (n d : Nat) (hd : 0 < d) : IsRound (roundEven n d) ((n : ℚ) / d) := by
  have hd' : (0 : ℚ) < d := by exact_mod_cast hd
  have hn : ((n : ℚ) / d) = ((n / d : Nat) : ℚ) + ((n % d : Nat) : ℚ) / d := by
    have : (n : ℚ) = ((d * (n / d) + n % d : Nat) : ℚ) := by rw [Nat.div_add_mod]
    rw [this]
    push_cast
    field_simp
  unfold roundEven
  rw [hn]
  have hlt : n % d < d := Nat.mod_lt _ hd
  generalize n / d = q
  generalize n % d = r at hlt
  have hr0 : (0 : ℚ) ≤ (r : ℚ) / d := by positivity
  unfold IsRound
  by_cases h1 : 2 * r < d
  · rw [if_pos h1]
    have h : (r : ℚ) / d < 1 / 2 := by
      rw [div_lt_div_iff₀ hd' (by norm_num)]
      exact_mod_cast (by omega : r * 2 < 1 * d)
    have e : |(q : ℚ) - (q + r / d)| = r / d := by
      rw [show (q : ℚ) - (q + r / d) = -(r / d) by ring, abs_neg, abs_of_nonneg hr0]
    rw [e]
    exact ⟨h.le, fun h' => absurd h' h.ne⟩
  · rw [if_neg h1]
    by_cases h2 : d < 2 * r
    · rw [if_pos h2]
      have h : 1 / 2 < (r : ℚ) / d := by
        rw [div_lt_div_iff₀ (by norm_num) hd']
        exact_mod_cast (by omega : 1 * d < r * 2)
      have h' : (r : ℚ) / d < 1 := by
        rw [div_lt_one hd']
        exact_mod_cast hlt
      have e : |((q + 1 : Nat) : ℚ) - (q + r / d)| = 1 - r / d := by
        rw [show ((q + 1 : Nat) : ℚ) - (q + r / d) = 1 - r / d by push_cast; ring, abs_of_nonneg (by linarith)]
      rw [e]
      exact ⟨by linarith, fun h'' => by linarith⟩
    · rw [if_neg h2]
      have h : (r : ℚ) / d = 1 / 2 := by
        rw [div_eq_div_iff hd'.ne' (by norm_num)]
        exact_mod_cast (by omega : r * 2 = 1 * d)
      rw [h]
      by_cases h3 : q % 2 = 0
      · rw [if_pos h3]
        have e : |(q : ℚ) - (q + 1 / 2)| = 1 / 2 := by
          rw [show (q : ℚ) - (q + 1 / 2) = -(1 / 2) by ring, abs_neg, abs_of_nonneg (by norm_num)]
        rw [e]
        exact ⟨le_refl _, fun _ => h3⟩
      · rw [if_neg h3]
        have e : |((q + 1 : Nat) : ℚ) - (q + 1 / 2)| = 1 / 2 := by
          rw [show ((q + 1 : Nat) : ℚ) - (q + 1 / 2) = 1 / 2 by push_cast; ring, abs_of_nonneg (by norm_num)]
        rw [e]
        exact ⟨le_refl _, fun _ => by omega⟩

/-- Another integer is at least as far. -/
theorem IsRound.least {k : Nat} {x : ℚ} (h : IsRound k x) (j : Nat) :
    |(k : ℚ) - x| ≤ |(j : ℚ) - x| ∧ (j ≠ k → |(j : ℚ) - x| = |(k : ℚ) - x| → k % 2 = 0) := by
  by_cases e : j = k
  · subst e
    exact ⟨le_refl _, fun h => absurd rfl h⟩
  have h1 : (1 : ℚ) ≤ |(j : ℚ) - k| := by
    rcases Nat.lt_or_gt_of_ne e with h | h
    · have : (j : ℚ) + 1 ≤ k := by exact_mod_cast h
      rw [abs_sub_comm]
      exact le_trans (by linarith) (le_abs_self _)
    · have : (k : ℚ) + 1 ≤ j := by exact_mod_cast h
      exact le_trans (by linarith) (le_abs_self _)
  have h2 : |(j : ℚ) - k| ≤ |(j : ℚ) - x| + |(k : ℚ) - x| := by
    have := abs_sub_le (j : ℚ) x k
    rwa [abs_sub_comm x k] at this
  refine ⟨by linarith [h.1], fun _ h3 => h.2 ?_⟩
  linarith [h.1]

theorem IsRound.unique {k j : Nat} {x : ℚ} (h : IsRound k x) (h' : IsRound j x) : k = j := by
  by_contra e
  have h1 := h.least j
  have h2 := h'.least k
  have h3 := le_antisymm h1.1 h2.1
  have e1 := h1.2 (Ne.symm e) h3.symm
  have e2 := h2.2 e h3
  have : (2 : ℚ) ≤ |(k : ℚ) - j| := by
    rcases Nat.lt_or_gt_of_ne e with h | h
    · have : (k : ℚ) + 2 ≤ j := by exact_mod_cast (by omega : k + 2 ≤ j)
      rw [abs_sub_comm]
      exact le_trans (by linarith) (le_abs_self _)
    · have : (j : ℚ) + 2 ≤ k := by exact_mod_cast (by omega : j + 2 ≤ k)
      exact le_trans (by linarith) (le_abs_self _)
  have h4 : |(k : ℚ) - j| ≤ |(k : ℚ) - x| + |(j : ℚ) - x| := by
    have := abs_sub_le (k : ℚ) x j
    rwa [abs_sub_comm x j] at this
  linarith [h.1, h'.1]

/-! ### Patterns -/

namespace Fmt
variable (F : Fmt)

theorem mag_succ (m : Nat) : F.mag (m + 1) = F.mag m + 2 ^ (m / 2 ^ F.frac - 1) := by
  unfold mag
  have hP : 0 < 2 ^ F.frac := Nat.pow_pos (by norm_num)
  generalize 2 ^ F.frac = P at hP ⊢
  have hm := Nat.div_add_mod m P
  have hlt := Nat.mod_lt m hP
  generalize hf : m % P = f at hm hlt
  generalize he : m / P = e at hm
  by_cases h1 : f + 1 < P
  · have e1 : (m + 1) / P = e := by
      rw [← hm, Nat.add_assoc, Nat.mul_add_div hP, Nat.div_eq_of_lt h1, Nat.add_zero]
    have e2 : (m + 1) % P = f + 1 := by
      rw [← hm, Nat.add_assoc, Nat.mul_add_mod, Nat.mod_eq_of_lt h1]
    rw [e1, e2]
    by_cases h0 : e = 0
    · simp [h0]
    · simp only [if_neg h0]
      ring
  · have hf' : f + 1 = P := by omega
    have e0 : m + 1 = P * (e + 1) := by rw [← hm, Nat.add_assoc, hf', Nat.mul_add, Nat.mul_one]
    have e1 : (m + 1) / P = e + 1 := by rw [e0, Nat.mul_div_cancel_left _ hP]
    have e2 : (m + 1) % P = 0 := by rw [e0, Nat.mul_mod_right]
    rw [e1, e2]
    simp only [Nat.add_one_ne_zero, if_false, Nat.add_zero, Nat.add_sub_cancel]
    by_cases h0 : e = 0
    · subst h0
      simp only [if_true, Nat.pow_zero, Nat.mul_one, Nat.zero_sub]
      rw [Nat.mul_zero, Nat.zero_add] at hm
      omega
    · obtain ⟨e, rfl⟩ : ∃ e', e = e' + 1 := ⟨e - 1, by omega⟩
      simp only [if_neg h0, Nat.add_sub_cancel]
      rw [pow_succ, ← Nat.succ_mul, Nat.succ_eq_add_one, Nat.add_assoc, hf']
      ring

theorem mag_mono : StrictMono F.mag := strictMono_nat_of_lt_succ fun m => by
  rw [mag_succ]
  have : 0 < 2 ^ (m / 2 ^ F.frac - 1) := Nat.pow_pos (by norm_num)
  omega

theorem mag_line (s k : Nat) (hk : k ≤ 2 * 2 ^ F.frac) (hs : s = 0 ∨ 2 ^ F.frac ≤ k) :
    F.mag (s * 2 ^ F.frac + k) = k * 2 ^ s := by
  unfold mag
  have hP : 0 < 2 ^ F.frac := Nat.pow_pos (by norm_num)
  generalize 2 ^ F.frac = P at hP hk hs ⊢
  by_cases h1 : k < P
  · have h0 : s = 0 := by omega
    subst h0
    rw [Nat.zero_mul, Nat.zero_add, Nat.div_eq_of_lt h1]
    simp
  · by_cases h2 : k = 2 * P
    · subst h2
      have e : s * P + 2 * P = P * (s + 2) := by ring
      rw [e, Nat.mul_div_cancel_left _ hP, Nat.mul_mod_right]
      simp only [Nat.add_eq_zero_iff, OfNat.ofNat_ne_zero, and_false, if_false, Nat.add_zero]
      rw [show s + 2 - 1 = s + 1 by omega, pow_succ]
      ring
    · obtain ⟨f, rfl⟩ : ∃ f, k = P + f := ⟨k - P, by omega⟩
      have hf : f < P := by omega
      have e : s * P + (P + f) = P * (s + 1) + f := by ring
      rw [e, Nat.mul_add_div hP, Nat.div_eq_of_lt hf, Nat.mul_add_mod, Nat.mod_eq_of_lt hf]
      simp

theorem mag_dvd (s m : Nat) (h : s = 0 ∨ (s + 1) * 2 ^ F.frac ≤ m) : ∃ j, F.mag m = j * 2 ^ s := by
  rcases h with rfl | h
  · exact ⟨F.mag m, by simp⟩
  · unfold mag
    have hP : 0 < 2 ^ F.frac := Nat.pow_pos (by norm_num)
    generalize 2 ^ F.frac = P at hP h ⊢
    have : s + 1 ≤ m / P := (Nat.le_div_iff_mul_le hP).2 h
    rw [if_neg (by omega)]
    obtain ⟨u, hu⟩ : ∃ u, m / P - 1 = u + s := ⟨m / P - 1 - s, by omega⟩
    rw [hu, pow_add]
    exact ⟨(P + m % P) * 2 ^ u, by ring⟩

/-- `m` is the pattern nearest to `t` units, an even one in the middle between two. -/
def Near (t : ℚ) (m : Nat) : Prop :=
  ∀ m', |(F.mag m : ℚ) - t| ≤ |(F.mag m' : ℚ) - t| ∧ (m' ≠ m → |(F.mag m' : ℚ) - t| = |(F.mag m : ℚ) - t| → m % 2 = 0)

theorem nearest_spec (hp : 1 ≤ F.frac) (n d : Nat) (hd : 0 < d) :
    F.Near ((n : ℚ) * 2 ^ F.scale / d) (F.nearest n d) := by
  unfold nearest
  have hd' : (0 : ℚ) < d := by exact_mod_cast hd
  rw [show (n : ℚ) * 2 ^ F.scale = ((n * 2 ^ F.scale : Nat) : ℚ) by push_cast; rfl]
  generalize n * 2 ^ F.scale = N
  have hq : ((N / d : Nat) : ℚ) ≤ (N : ℚ) / d := by
    rw [le_div_iff₀ hd']
    exact_mod_cast Nat.div_mul_le_self N d
  have hq' : (N : ℚ) / d < ((N / d : Nat) : ℚ) + 1 := by
    rw [div_lt_iff₀ hd']
    exact_mod_cast (by have := Nat.lt_div_mul_add (a := N) hd; rw [Nat.add_mul, Nat.one_mul]; exact this : N < (N / d + 1) * d)
  generalize N / d = q at hq hq'
  generalize hs : q.log2 - F.frac = s
  have h2s : (0 : ℚ) < 2 ^ s := by positivity
  have hk := roundEven_spec N (d * 2 ^ s) (Nat.mul_pos hd (Nat.pow_pos (by norm_num)))
  have ey : (N : ℚ) / ((d * 2 ^ s : Nat) : ℚ) = (N : ℚ) / d / 2 ^ s := by
    push_cast
    rw [div_div]
  rw [ey] at hk
  generalize roundEven N (d * 2 ^ s) = k at hk
  generalize hx : (N : ℚ) / d = x at hk hq hq'
  -- bounds
  have hub : x / 2 ^ s < 2 * 2 ^ F.frac := by
    rw [div_lt_iff₀ h2s]
    have : q < 2 * 2 ^ F.frac * 2 ^ s := by
      by_cases h0 : q = 0
      · subst h0; positivity
      · have := (Nat.log2_lt h0 (k := F.frac + s + 1)).1 (by omega)
        calc q < 2 ^ (F.frac + s + 1) := this
          _ = 2 * 2 ^ F.frac * 2 ^ s := by rw [pow_succ, pow_add]; ring
    have h' : (q : ℚ) + 1 ≤ 2 * 2 ^ F.frac * 2 ^ s := by exact_mod_cast this
    linarith
  have hlb : s = 0 ∨ (2 : ℚ) ^ F.frac ≤ x / 2 ^ s := by
    by_cases h0 : s = 0
    · exact .inl h0
    · right
      rw [le_div_iff₀ h2s, ← pow_add]
      have hq0 : q ≠ 0 := by rintro rfl; simp at hs; omega
      have := (Nat.le_log2 hq0 (k := F.frac + s)).1 (by omega)
      exact le_trans (by exact_mod_cast this) hq
  have hku : k ≤ 2 * 2 ^ F.frac := by
    have h1 := (abs_le.1 hk.1).2
    have h2 : (k : ℚ) < ((2 * 2 ^ F.frac + 1 : Nat) : ℚ) := by push_cast; linarith
    have h3 : k < 2 * 2 ^ F.frac + 1 := by exact_mod_cast h2
    omega
  have hkl : s = 0 ∨ 2 ^ F.frac ≤ k := by
    rcases hlb with h | h
    · exact .inl h
    · right
      have h1 := (abs_le.1 hk.1).1
      have h2 : ((2 ^ F.frac : Nat) : ℚ) < ((k + 1 : Nat) : ℚ) := by push_cast; linarith
      have h3 : 2 ^ F.frac < k + 1 := by exact_mod_cast h2
      omega
  have hmag := F.mag_line s k hku hkl
  have heven : k % 2 = 0 → (s * 2 ^ F.frac + k) % 2 = 0 := by
    intro h
    obtain ⟨p, hp⟩ : ∃ p, F.frac = p + 1 := ⟨F.frac - 1, by omega⟩
    rw [hp, pow_succ, ← Nat.mul_assoc]
    omega
  have scale : ∀ j : Nat, |((j * 2 ^ s : Nat) : ℚ) - x| = 2 ^ s * |(j : ℚ) - x / 2 ^ s| := by
    intro j
    rw [← abs_of_pos h2s, ← abs_mul, abs_of_pos h2s]
    congr 1
    push_cast
    field_simp
  have line : ∀ j : Nat, |((k * 2 ^ s : Nat) : ℚ) - x| ≤ |((j * 2 ^ s : Nat) : ℚ) - x| ∧
      (j ≠ k → |((j * 2 ^ s : Nat) : ℚ) - x| = |((k * 2 ^ s : Nat) : ℚ) - x| → k % 2 = 0) := by
    intro j
    have := hk.least j
    rw [scale, scale]
    exact ⟨mul_le_mul_of_nonneg_left this.1 h2s.le, fun h1 h2 => this.2 h1 (mul_left_cancel₀ h2s.ne' h2)⟩
  intro m'
  rw [hmag]
  by_cases hm : s = 0 ∨ (s + 1) * 2 ^ F.frac ≤ m'
  · obtain ⟨j, hj⟩ := F.mag_dvd s m' hm
    rw [hj]
    refine ⟨(line j).1, fun h1 h2 => heven ((line j).2 ?_ h2)⟩
    rintro rfl
    rw [← hmag] at hj
    exact h1 (F.mag_mono.injective hj)
  · have h1 : s ≠ 0 := fun h => hm (.inl h)
    have h2 : m' < (s + 1) * 2 ^ F.frac := Nat.lt_of_not_le fun h => hm (.inr h)
    have h3 := F.mag_mono h2
    have e : F.mag ((s + 1) * 2 ^ F.frac) = 2 ^ F.frac * 2 ^ s := by
      rw [show (s + 1) * 2 ^ F.frac = s * 2 ^ F.frac + 2 ^ F.frac by ring]
      exact F.mag_line s _ (by omega) (.inr le_rfl)
    rw [e] at h3
    have h4 : (((2 ^ F.frac * 2 ^ s : Nat)) : ℚ) ≤ x := by
      rcases hlb with h | h
      · exact absurd h h1
      · rw [le_div_iff₀ h2s] at h
        push_cast
        exact h
    have h5 : (F.mag m' : ℚ) < ((2 ^ F.frac * 2 ^ s : Nat) : ℚ) := by exact_mod_cast h3
    have h6 := (line (2 ^ F.frac)).1
    have h7 : |((2 ^ F.frac * 2 ^ s : Nat) : ℚ) - x| < |(F.mag m' : ℚ) - x| := by
      rw [abs_of_nonpos (by linarith), abs_of_nonpos (by linarith)]
      linarith
    exact ⟨by linarith, fun _ h => by linarith⟩

variable {F}

theorem Near.unique {t : ℚ} {m m' : Nat} (h : F.Near t m) (h' : F.Near t m') : m = m' := by
  by_contra e
  wlog hlt : m < m' generalizing m m' with H
  · exact H h' h (Ne.symm e) (by omega)
  have h1 := h m'
  have h2 := h' m
  have h3 := le_antisymm h1.1 h2.1
  have e1 := h1.2 (Ne.symm e) h3.symm
  have e2 := h2.2 e h3
  have l1 : (F.mag m : ℚ) < F.mag (m + 1) := by exact_mod_cast F.mag_mono (by omega)
  have l2 : (F.mag (m + 1) : ℚ) < F.mag m' := by exact_mod_cast F.mag_mono (by omega)
  have h4 := (h (m + 1)).1
  rcases abs_cases ((F.mag m : ℚ) - t) with ⟨a, a'⟩ | ⟨a, a'⟩ <;>
    rcases abs_cases ((F.mag m' : ℚ) - t) with ⟨b, b'⟩ | ⟨b, b'⟩ <;>
    rcases abs_cases ((F.mag (m + 1) : ℚ) - t) with ⟨c, c'⟩ | ⟨c, c'⟩ <;> linarith

theorem Near.mono {t t' : ℚ} {m m' : Nat} (h : F.Near t m) (h' : F.Near t' m') (ht : t ≤ t') : m ≤ m' := by
  by_contra hlt
  have hlt : m' < m := by omega
  have l : (F.mag m' : ℚ) < F.mag m := by exact_mod_cast F.mag_mono hlt
  have h1 := (h m').1
  have h2 := (h' m).1
  have e : t = t' := by
    rcases abs_cases ((F.mag m : ℚ) - t) with ⟨a, a'⟩ | ⟨a, a'⟩ <;>
      rcases abs_cases ((F.mag m' : ℚ) - t) with ⟨b, b'⟩ | ⟨b, b'⟩ <;>
      rcases abs_cases ((F.mag m : ℚ) - t') with ⟨c, c'⟩ | ⟨c, c'⟩ <;>
      rcases abs_cases ((F.mag m' : ℚ) - t') with ⟨d, d'⟩ | ⟨d, d'⟩ <;> linarith
  subst e
  exact absurd (h.unique h') (by omega)

/-- What the formats `float` and `double` have in common. -/
structure Good (F : Fmt) : Prop where
  frac : 19 ≤ F.frac
  exp : 3 ≤ F.exp
  scale : 20 ≤ F.scale
  large : F.scale ≤ 2 ^ F.exp - 3
  small : (4 * 2 ^ F.frac - 1) * 1000000 ≤ 4 * 2 ^ F.scale

theorem Good.exp_pow (h : Good F) : 8 ≤ 2 ^ F.exp := by
  have := Nat.pow_le_pow_right (n := 2) (by norm_num) h.exp
  omega

theorem mag_inf (h : Good F) : F.mag F.inf = 4 * 2 ^ F.frac * 2 ^ (2 ^ F.exp - 4) := by
  have h8 := h.exp_pow
  unfold inf
  have := F.mag_line (2 ^ F.exp - 2) (2 ^ F.frac) (by omega) (.inr le_rfl)
  rw [show (2 ^ F.exp - 2) * 2 ^ F.frac + 2 ^ F.frac = (2 ^ F.exp - 1) * 2 ^ F.frac by
    rw [← Nat.succ_mul]; congr 1; omega] at this
  rw [this, show 2 ^ F.exp - 2 = (2 ^ F.exp - 4) + 2 by omega, pow_add]
  ring

theorem inf_pos (h : Good F) : 0 < F.inf := by
  have h8 := h.exp_pow
  exact Nat.mul_pos (by omega) (Nat.pow_pos (by norm_num))

theorem inf_even (h : Good F) : F.inf % 2 = 0 := by
  unfold inf
  obtain ⟨p, hp⟩ : ∃ p, F.frac = p + 1 := ⟨F.frac - 1, by have := h.frac; omega⟩
  rw [hp, pow_succ, ← Nat.mul_assoc]
  omega

theorem inf_lt (h : Good F) : F.inf + 2 ^ F.frac = F.signBit := by
  have h8 := h.exp_pow
  unfold inf signBit
  rw [pow_add, ← Nat.succ_mul]
  congr 1
  omega

theorem mag_max (h : Good F) : F.mag (F.inf - 1) + 2 * 2 ^ (2 ^ F.exp - 4) = F.mag F.inf := by
  have h8 := h.exp_pow
  have h0 := inf_pos h
  have := F.mag_succ (F.inf - 1)
  rw [show F.inf - 1 + 1 = F.inf by omega] at this
  rw [this]
  congr 1
  have hP : 0 < 2 ^ F.frac := Nat.pow_pos (by norm_num)
  have : (F.inf - 1) / 2 ^ F.frac = 2 ^ F.exp - 2 := by
    unfold inf
    apply Nat.div_eq_of_lt_le
    · rw [show 2 ^ F.exp - 1 = (2 ^ F.exp - 2) + 1 by omega, Nat.succ_mul]
      omega
    · rw [show 2 ^ F.exp - 2 + 1 = 2 ^ F.exp - 1 by omega]
      have : 0 < (2 ^ F.exp - 1) * 2 ^ F.frac := Nat.mul_pos (by omega) hP
      omega
  rw [this, show 2 ^ F.exp - 2 - 1 = (2 ^ F.exp - 4) + 1 by omega, pow_succ]
  ring

/-- In units: from here on a number is too large. -/
def limit (F : Fmt) : Nat := (4 * 2 ^ F.frac - 1) * 2 ^ (2 ^ F.exp - 4)

theorem limit_eq (h : Good F) : (F.limit : ℚ) = ((F.mag (F.inf - 1) : ℚ) + F.mag F.inf) / 2 := by
  have h1 := mag_max h
  have h2 := mag_inf h
  have hP : 1 ≤ 2 ^ F.frac := Nat.one_le_two_pow
  have h3 : F.limit + 2 ^ (2 ^ F.exp - 4) = F.mag F.inf := by
    rw [h2]
    unfold limit
    rw [← Nat.succ_mul]
    congr 1
    omega
  have h1' : (F.mag (F.inf - 1) : ℚ) + 2 * 2 ^ (2 ^ F.exp - 4) = F.mag F.inf := by exact_mod_cast h1
  have h3' : (F.limit : ℚ) + 2 ^ (2 ^ F.exp - 4) = F.mag F.inf := by exact_mod_cast h3
  linarith

theorem Near.over_iff {t : ℚ} {m : Nat} (hm : F.Near t m) (h : Good F) : F.inf ≤ m ↔ (F.limit : ℚ) ≤ t := by
  have h0 := inf_pos h
  rw [limit_eq h]
  have l : (F.mag (F.inf - 1) : ℚ) < F.mag F.inf := by exact_mod_cast F.mag_mono (by omega)
  constructor
  · intro hle
    have h1 := (hm (F.inf - 1)).1
    have l2 : (F.mag F.inf : ℚ) ≤ F.mag m := by exact_mod_cast F.mag_mono.monotone hle
    rcases abs_cases ((F.mag m : ℚ) - t) with ⟨a, a'⟩ | ⟨a, a'⟩ <;>
      rcases abs_cases ((F.mag (F.inf - 1) : ℚ) - t) with ⟨b, b'⟩ | ⟨b, b'⟩ <;> linarith
  · intro ht
    by_contra hlt
    have hlt : m ≤ F.inf - 1 := by omega
    have h1 := (hm F.inf).1
    have l2 : (F.mag m : ℚ) ≤ F.mag (F.inf - 1) := by exact_mod_cast F.mag_mono.monotone hlt
    have e : (F.mag m : ℚ) = F.mag (F.inf - 1) ∧ |(F.mag F.inf : ℚ) - t| = |(F.mag m : ℚ) - t| := by
      rcases abs_cases ((F.mag m : ℚ) - t) with ⟨a, a'⟩ | ⟨a, a'⟩ <;>
        rcases abs_cases ((F.mag F.inf : ℚ) - t) with ⟨b, b'⟩ | ⟨b, b'⟩ <;> constructor <;> linarith
    have e1 : m = F.inf - 1 := F.mag_mono.injective (by exact_mod_cast e.1)
    have e2 := (hm F.inf).2 (by omega) e.2
    have e3 := inf_even h
    omega

/-! ### To text and back -/

/-- The number of millionths in the text of a pattern. -/
def millionths (F : Fmt) (m : Nat) : Nat := roundEven (F.mag m * 1000000) (2 ^ F.scale)

theorem millionths_spec (F : Fmt) (m : Nat) : IsRound (F.millionths m) ((F.mag m : ℚ) / 2 ^ F.scale * 1000000) := by
  have := roundEven_spec (F.mag m * 1000000) (2 ^ F.scale) (Nat.pow_pos (by norm_num))
  have e : ((F.mag m * 1000000 : Nat) : ℚ) / ((2 ^ F.scale : Nat) : ℚ) = (F.mag m : ℚ) / 2 ^ F.scale * 1000000 := by
    push_cast
    ring
  rwa [e] at this

/-- Distances in units and in millionths. -/
theorem dist_eq (F : Fmt) (m k : Nat) :
    |(F.mag m : ℚ) - k * 2 ^ F.scale / 1000000| = 2 ^ F.scale / 1000000 * |(k : ℚ) - (F.mag m : ℚ) / 2 ^ F.scale * 1000000| := by
  have h : (0 : ℚ) < 2 ^ F.scale / 1000000 := by positivity
  rw [← abs_of_pos h, ← abs_mul, abs_sub_comm]
  congr 1
  field_simp

theorem near_back (h : Good F) (k : Nat) : F.Near ((k : ℚ) * 2 ^ F.scale / 1000000) (F.nearest k 1000000) := by
  have := F.nearest_spec (by have := h.frac; omega) k 1000000 (by norm_num)
  exact_mod_cast this

/-- The text of the number that is read back is the same. -/
theorem stable (h : Good F) (m : Nat) : F.millionths (F.nearest (F.millionths m) 1000000) = F.millionths m := by
  have h1 := F.millionths_spec m
  have h2 := near_back h (F.millionths m)
  refine (F.millionths_spec _).unique ?_
  generalize F.millionths m = k at h1 h2
  have h3 := (h2 m).1
  rw [dist_eq, dist_eq] at h3
  have h4 := le_of_mul_le_mul_left h3 (by positivity)
  exact ⟨by linarith [h1.1], fun h5 => h1.2 (by linarith [h1.1])⟩

/-- What is read back is finite. -/
theorem back_finite (h : Good F) {m : Nat} (hm : m < F.inf) : F.nearest (F.millionths m) 1000000 < F.inf := by
  have h1 := F.millionths_spec m
  have h2 := near_back h (F.millionths m)
  generalize F.millionths m = k at h1 h2
  generalize F.nearest k 1000000 = r at h2
  by_contra hle
  have hle : F.inf ≤ r := by omega
  have h3 := (h2 m).1
  have h4 : |(F.mag m : ℚ) - k * 2 ^ F.scale / 1000000| ≤ 2 ^ F.scale / 4 := by
    rw [dist_eq]
    have : (0 : ℚ) < 2 ^ F.scale := by positivity
    nlinarith [h1.1]
  have l1 : (F.mag m : ℚ) ≤ F.mag (F.inf - 1) := by exact_mod_cast F.mag_mono.monotone (by omega)
  have l2 : (F.mag F.inf : ℚ) ≤ F.mag r := by exact_mod_cast F.mag_mono.monotone hle
  have l3 : (F.mag (F.inf - 1) : ℚ) + 2 * 2 ^ (2 ^ F.exp - 4) = F.mag F.inf := by exact_mod_cast mag_max h
  have h8 := h.exp_pow
  have l4 : (2 : ℚ) ^ F.scale ≤ 2 * 2 ^ (2 ^ F.exp - 4) := by
    rw [← pow_succ']
    have := h.large
    exact pow_le_pow_right₀ (by norm_num) (by omega)
  have : (0 : ℚ) < 2 ^ F.scale := by positivity
  rcases abs_cases ((F.mag m : ℚ) - k * 2 ^ F.scale / 1000000) with ⟨a, a'⟩ | ⟨a, a'⟩ <;>
    rcases abs_cases ((F.mag r : ℚ) - k * 2 ^ F.scale / 1000000) with ⟨b, b'⟩ | ⟨b, b'⟩ <;> linarith

theorem nearest_zero (d : Nat) : F.nearest 0 d = 0 := by
  unfold nearest roundEven
  simp [Nat.log2_zero]

/-- Reading a number of millionths is no underflow. -/
theorem not_tiny (h : Good F) (k : Nat) :
    ¬ (F.tiny k 1000000 ∧ F.mag (F.nearest k 1000000) * 1000000 ≠ k * 2 ^ F.scale) := by
  rintro ⟨h1, h2⟩
  rcases Nat.eq_zero_or_pos k with rfl | hk
  · rw [nearest_zero] at h2
    simp [mag] at h2
  · unfold tiny at h1
    have := h.small
    have : 1 * 2 ^ F.scale ≤ k * 2 ^ F.scale := Nat.mul_le_mul_right _ hk
    omega

/-- Reading back the text of a finite number. -/
theorem back (h : Good F) (neg : Bool) {m : Nat} (hm : m < F.inf) :
    F.convert neg (F.millionths m) 1000000 =
      .ok ((if neg then F.signBit else 0) + F.nearest (F.millionths m) 1000000) := by
  unfold convert
  rw [if_neg (by have := back_finite h hm; omega), if_neg (not_tiny h _)]

/-- Numbers with a distance of more than a millionth to their neighbours, and powers of two, come back. -/
theorem back_large (h : Good F) {m : Nat} (hm : F.scale - 19 ≤ m / 2 ^ F.frac - 1) :
    F.nearest (F.millionths m) 1000000 = m := by
  have h1 := F.millionths_spec m
  have h2 := near_back h (F.millionths m)
  have hsc := h.scale
  have hfr := h.frac
  have hP : 0 < 2 ^ F.frac := Nat.pow_pos (by norm_num)
  by_cases hf : m % 2 ^ F.frac = 0
  · -- a power of two is a whole number
    have e : F.mag m = 2 ^ F.frac * 2 ^ (m / 2 ^ F.frac - 1) := by
      unfold mag
      rw [if_neg (by omega), hf, Nat.add_zero]
    obtain ⟨u, hu⟩ : ∃ u, F.frac + (m / 2 ^ F.frac - 1) = u + F.scale :=
      ⟨F.frac + (m / 2 ^ F.frac - 1) - F.scale, by omega⟩
    rw [← pow_add, hu, pow_add] at e
    have h3 : IsRound (2 ^ u * 1000000) ((F.mag m : ℚ) / 2 ^ F.scale * 1000000) := by
      have : (F.mag m : ℚ) / 2 ^ F.scale * 1000000 = ((2 ^ u * 1000000 : Nat) : ℚ) := by
        rw [e]
        push_cast
        field_simp
      rw [this]
      unfold IsRound
      rw [sub_self, abs_zero]
      norm_num
    have h4 := h1.unique h3
    have h5 := (h2 m).1
    rw [h4] at h5 ⊢
    have e0 : |(F.mag m : ℚ) - ((2 ^ u * 1000000 : Nat) : ℚ) * 2 ^ F.scale / 1000000| = 0 := by
      rw [e, abs_eq_zero]
      push_cast
      field_simp
      ring
    rw [e0] at h5
    have h6 := abs_eq_zero.1 (le_antisymm h5 (abs_nonneg _))
    have h7 := abs_eq_zero.1 e0
    apply F.mag_mono.injective
    have : (F.mag (F.nearest (2 ^ u * 1000000) 1000000) : ℚ) = F.mag m := by linarith
    exact_mod_cast this
  · generalize F.millionths m = k at h1 h2
    generalize F.nearest k 1000000 = r at h2
    by_contra hne
    have h3 := (h2 m).1
    -- the neighbours are far
    generalize he : m / 2 ^ F.frac - 1 = e at hm
    have hup : F.mag (m + 1) = F.mag m + 2 ^ e := by rw [mag_succ, he]
    have hm0 : 0 < m := Nat.pos_of_ne_zero (by rintro rfl; simp at hf)
    have hdn : F.mag (m - 1) + 2 ^ e = F.mag m := by
      have := F.mag_succ (m - 1)
      rw [show m - 1 + 1 = m by omega] at this
      have e1 : (m - 1) / 2 ^ F.frac = m / 2 ^ F.frac := by
        have hd := Nat.div_add_mod m (2 ^ F.frac)
        have hl := Nat.mod_lt m hP
        apply Nat.div_eq_of_lt_le
        · rw [Nat.mul_comm]; omega
        · rw [Nat.succ_mul, Nat.mul_comm]; omega
      rw [e1, he] at this
      exact this.symm
    have hgap : (2 : ℚ) ^ e ≤ |(F.mag r : ℚ) - F.mag m| := by
      rcases Nat.lt_or_gt_of_ne hne with hlt | hgt
      · have : F.mag r + 2 ^ e ≤ F.mag m := by
          have := F.mag_mono.monotone (show r ≤ m - 1 by omega)
          omega
        have : (F.mag r : ℚ) + 2 ^ e ≤ F.mag m := by exact_mod_cast this
        rw [abs_sub_comm]
        exact le_trans (by linarith) (le_abs_self _)
      · have : F.mag m + 2 ^ e ≤ F.mag r := by
          have := F.mag_mono.monotone (show m + 1 ≤ r by omega)
          omega
        have : (F.mag m : ℚ) + 2 ^ e ≤ F.mag r := by exact_mod_cast this
        exact le_trans (by linarith) (le_abs_self _)
    have h4 : |(F.mag m : ℚ) - k * 2 ^ F.scale / 1000000| ≤ 2 ^ F.scale / 2000000 := by
      rw [dist_eq]
      have : (0 : ℚ) < 2 ^ F.scale := by positivity
      nlinarith [h1.1]
    have h5 : |(F.mag r : ℚ) - F.mag m| ≤ |(F.mag r : ℚ) - k * 2 ^ F.scale / 1000000| +
        |(F.mag m : ℚ) - k * 2 ^ F.scale / 1000000| := by
      have := abs_sub_le (F.mag r : ℚ) (k * 2 ^ F.scale / 1000000) (F.mag m)
      rwa [abs_sub_comm ((k : ℚ) * 2 ^ F.scale / 1000000) (F.mag m)] at this
    have h6 : (2 : ℚ) ^ F.scale < 2 ^ e * 1000000 := by
      have e1 : (2 : ℚ) ^ (F.scale - 19) ≤ 2 ^ e := pow_le_pow_right₀ (by norm_num) hm
      have e2 : (2 : ℚ) ^ F.scale = 2 ^ (F.scale - 19) * 524288 := by
        rw [show F.scale = (F.scale - 19) + 19 by omega, pow_add, Nat.add_sub_cancel]
        norm_num
      have : (0 : ℚ) < 2 ^ (F.scale - 19) := by positivity
      rw [e2]
      nlinarith
    linarith

/-- Where the neighbours are less than a millionth away, a number nearest to a number of millionths is written as that. -/
theorem near_small (h : Good F) {m z : Nat} (hz : F.Near ((z : ℚ) * 2 ^ F.scale / 1000000) m)
    (hm : ¬ F.scale - 19 ≤ m / 2 ^ F.frac - 1) : IsRound z ((F.mag m : ℚ) / 2 ^ F.scale * 1000000) := by
  have hsc := h.scale
  have key : |(z : ℚ) - (F.mag m : ℚ) / 2 ^ F.scale * 1000000| < 1 / 2 := by
    by_contra hge
    have hge : 1 / 2 ≤ |(z : ℚ) - (F.mag m : ℚ) / 2 ^ F.scale * 1000000| := le_of_not_gt hge
    generalize he : m / 2 ^ F.frac - 1 = e at hm
    have h6 : (2 : ℚ) ^ e * 1000000 < 2 ^ F.scale := by
      have e1 : (2 : ℚ) ^ e ≤ 2 ^ (F.scale - 20) := pow_le_pow_right₀ (by norm_num) (by omega)
      have e2 : (2 : ℚ) ^ F.scale = 2 ^ (F.scale - 20) * 1048576 := by
        rw [show F.scale = (F.scale - 20) + 20 by omega, pow_add, Nat.add_sub_cancel]
        norm_num
      have : (0 : ℚ) < 2 ^ (F.scale - 20) := by positivity
      rw [e2]
      nlinarith
    have h7 : (2 : ℚ) ^ e / 2 < |(F.mag m : ℚ) - z * 2 ^ F.scale / 1000000| := by
      rw [dist_eq]
      have : (0 : ℚ) < 2 ^ F.scale := by positivity
      nlinarith
    have hpos : (0 : ℚ) < 2 ^ e := by positivity
    rcases le_total ((F.mag m : ℚ)) (z * 2 ^ F.scale / 1000000) with hle | hle
    · have hup : (F.mag (m + 1) : ℚ) = F.mag m + 2 ^ e := by
        rw [mag_succ, he]; push_cast; rfl
      have := (hz (m + 1)).1
      rw [hup] at this
      rw [abs_of_nonpos (by linarith)] at h7
      rw [abs_of_nonpos (by linarith)] at this
      rcases abs_cases ((F.mag m : ℚ) + 2 ^ e - z * 2 ^ F.scale / 1000000) with ⟨a, a'⟩ | ⟨a, a'⟩ <;> linarith
    · have hz0 : (0 : ℚ) ≤ z * 2 ^ F.scale / 1000000 := by positivity
      rw [abs_of_nonneg (by linarith)] at h7
      have hm0 : 0 < m := Nat.pos_of_ne_zero (by
        rintro rfl
        have : F.mag 0 = 0 := by simp [mag]
        rw [this] at h7
        push_cast at h7
        linarith)
      obtain ⟨g, hg0, hg1, hg⟩ : ∃ g : ℚ, 0 < g ∧ g ≤ 2 ^ e ∧ (F.mag (m - 1) : ℚ) = F.mag m - g := by
        have := F.mag_succ (m - 1)
        rw [show m - 1 + 1 = m by omega] at this
        refine ⟨2 ^ ((m - 1) / 2 ^ F.frac - 1), by positivity, ?_, ?_⟩
        · apply pow_le_pow_right₀ (by norm_num)
          have := Nat.div_le_div_right (c := 2 ^ F.frac) (show m - 1 ≤ m by omega)
          omega
        · rw [this]
          push_cast
          ring
      have := (hz (m - 1)).1
      rw [hg] at this
      rw [abs_of_nonneg (by linarith)] at this
      rcases abs_cases ((F.mag m : ℚ) - g - z * 2 ^ F.scale / 1000000) with ⟨a, a'⟩ | ⟨a, a'⟩ <;> linarith
  exact ⟨key.le, fun h => absurd h key.ne⟩

/-- A number nearest to a number of millionths comes back. -/
theorem back_near (h : Good F) {m z : Nat} (hz : F.Near ((z : ℚ) * 2 ^ F.scale / 1000000) m) :
    F.nearest (F.millionths m) 1000000 = m := by
  by_cases hm : F.scale - 19 ≤ m / 2 ^ F.frac - 1
  · exact back_large h hm
  · rw [(F.millionths_spec m).unique (near_small h hz hm)]
    exact (near_back h z).unique hz

theorem near_self (m : Nat) : F.Near (F.mag m) m := by
  intro m'
  rw [sub_self, abs_zero]
  refine ⟨abs_nonneg _, fun h1 h2 => ?_⟩
  have : (F.mag m' : ℚ) = F.mag m := by linarith [abs_eq_zero.1 h2]
  exact absurd (F.mag_mono.injective (by exact_mod_cast this)) h1

/-- The first pattern whose neighbours are more than a millionth apart. -/
theorem mag_wide (h : Good F) : F.mag ((F.scale - 19 + 1) * 2 ^ F.frac) = 2 ^ (F.frac - 19) * 2 ^ F.scale := by
  have := F.mag_line (F.scale - 19) (2 ^ F.frac) (by omega) (.inr le_rfl)
  rw [Nat.succ_mul, this, ← pow_add, ← pow_add]
  congr 1
  have := h.scale
  have := h.frac
  omega

theorem wide_of_le (h : Good F) {m : Nat} (hm : 2 ^ (F.frac - 19) * 2 ^ F.scale ≤ F.mag m) :
    F.scale - 19 ≤ m / 2 ^ F.frac - 1 := by
  have h1 : (F.scale - 19 + 1) * 2 ^ F.frac ≤ m := by
    by_contra hlt
    have := F.mag_mono (show m < (F.scale - 19 + 1) * 2 ^ F.frac by omega)
    rw [mag_wide h] at this
    omega
  have := (Nat.le_div_iff_mul_le (Nat.pow_pos (by norm_num))).2 h1
  omega

/-- Below 16 (`float`) and 2³³ (`double`) every text with six decimals comes back. -/
theorem text_back (h : Good F) {z : Nat} (hz : z < 2 ^ (F.frac - 19) * 1000000) :
    F.millionths (F.nearest z 1000000) = z ∧ F.nearest z 1000000 < F.inf := by
  have hn := near_back h z
  generalize F.nearest z 1000000 = r at hn
  have hsc := h.scale
  have hfr := h.frac
  have hP : 0 < 2 ^ F.frac := Nat.pow_pos (by norm_num)
  have hw := mag_wide h
  generalize hm0 : (F.scale - 19 + 1) * 2 ^ F.frac = m0 at hw
  have hm0pos : 2 ^ F.frac ≤ m0 := by rw [← hm0]; exact Nat.le_mul_of_pos_left _ (by omega)
  have hgap : F.mag m0 = F.mag (m0 - 1) + 2 ^ (F.scale - 20) := by
    have := F.mag_succ (m0 - 1)
    rw [show m0 - 1 + 1 = m0 by omega] at this
    rw [this]
    congr 2
    have : (m0 - 1) / 2 ^ F.frac = F.scale - 19 := by
      apply Nat.div_eq_of_lt_le
      · rw [← hm0, Nat.succ_mul]; omega
      · rw [hm0]; omega
    omega
  have hle : r ≤ m0 - 1 := by
    refine hn.mono (near_self (m0 - 1)) ?_
    have e1 : ((F.mag (m0 - 1) : ℚ)) = 2 ^ (F.frac - 19) * 2 ^ F.scale - 2 ^ (F.scale - 20) := by
      have : ((F.mag m0 : Nat) : ℚ) = F.mag (m0 - 1) + 2 ^ (F.scale - 20) := by rw [hgap]; push_cast; rfl
      rw [hw] at this
      push_cast at this
      linarith
    have e2 : (2 : ℚ) ^ F.scale = 2 ^ (F.scale - 20) * 1048576 := by
      rw [show F.scale = (F.scale - 20) + 20 by omega, pow_add, Nat.add_sub_cancel]
      norm_num
    have hz' : (z : ℚ) + 1 ≤ 2 ^ (F.frac - 19) * 1000000 := by exact_mod_cast hz
    have hpos : (0 : ℚ) < 2 ^ (F.scale - 20) := by positivity
    rw [e1, e2, div_le_iff₀ (by norm_num)]
    have := mul_le_mul_of_nonneg_right hz' (show (0 : ℚ) ≤ 2 ^ (F.scale - 20) * 1048576 by positivity)
    nlinarith
  have hsmall : ¬ F.scale - 19 ≤ r / 2 ^ F.frac - 1 := by
    have : r / 2 ^ F.frac < F.scale - 19 + 1 := by
      rw [Nat.div_lt_iff_lt_mul hP, hm0]
      omega
    omega
  refine ⟨(F.millionths_spec r).unique (near_small h hn hsmall), ?_⟩
  have : m0 ≤ F.inf := by
    rw [← hm0]
    unfold inf
    apply Nat.mul_le_mul_right
    have := h.large
    have := h.exp_pow
    omega
  omega

/-! ### Conversion of a fraction -/

theorem tiny_iff (n d : Nat) (hd : 0 < d) : F.tiny n d ↔ (n : ℚ) * 2 ^ F.scale / d < (4 * 2 ^ F.frac - 1) / 4 := by
  have hd' : (0 : ℚ) < d := by exact_mod_cast hd
  have hP : 1 ≤ 2 ^ F.frac := Nat.one_le_two_pow
  unfold tiny
  rw [div_lt_div_iff₀ hd' (by norm_num)]
  have e : ((4 * 2 ^ F.frac - 1 : Nat) : ℚ) = 4 * 2 ^ F.frac - 1 := by
    rw [Nat.cast_sub (by omega)]
    push_cast
    rfl
  rw [← e]
  constructor
  · intro h
    have : ((4 * (n * 2 ^ F.scale) : Nat) : ℚ) < (((4 * 2 ^ F.frac - 1) * d : Nat) : ℚ) := by exact_mod_cast h
    rw [Nat.cast_mul (4 * 2 ^ F.frac - 1)] at this
    push_cast at this ⊢
    linarith
  · intro h
    have : ((4 * (n * 2 ^ F.scale) : Nat) : ℚ) < (((4 * 2 ^ F.frac - 1) * d : Nat) : ℚ) := by
      rw [Nat.cast_mul (4 * 2 ^ F.frac - 1)]
      push_cast at h ⊢
      linarith
    exact_mod_cast this

theorem exact_iff (m n d : Nat) (hd : 0 < d) : F.mag m * d = n * 2 ^ F.scale ↔ (F.mag m : ℚ) = (n : ℚ) * 2 ^ F.scale / d := by
  have hd' : (0 : ℚ) < d := by exact_mod_cast hd
  rw [eq_div_iff hd'.ne']
  constructor
  · intro h; exact_mod_cast h
  · intro h; exact_mod_cast h

theorem convert_ok (h : Good F) (neg : Bool) {n d r : Nat} (hd : 0 < d) (hr : F.Near ((n : ℚ) * 2 ^ F.scale / d) r)
    (h1 : ¬ (F.limit : ℚ) ≤ (n : ℚ) * 2 ^ F.scale / d)
    (h2 : ¬ ((n : ℚ) * 2 ^ F.scale / d < (4 * 2 ^ F.frac - 1) / 4 ∧ (F.mag r : ℚ) ≠ (n : ℚ) * 2 ^ F.scale / d)) :
    F.convert neg n d = .ok ((if neg then F.signBit else 0) + r) := by
  have hn := F.nearest_spec (by have := h.frac; omega) n d hd
  have e := hn.unique hr
  unfold convert
  rw [e, if_neg (fun h' => h1 ((hr.over_iff h).1 h')), if_neg]
  rintro ⟨h3, h4⟩
  exact h2 ⟨(tiny_iff n d hd).1 h3, fun h5 => h4 ((exact_iff r n d hd).2 h5)⟩

theorem convert_error (h : Good F) (neg : Bool) {n d : Nat} (hd : 0 < d)
    (h1 : (F.limit : ℚ) ≤ (n : ℚ) * 2 ^ F.scale / d ∨
      (n : ℚ) * 2 ^ F.scale / d < (4 * 2 ^ F.frac - 1) / 4 ∧ ∀ m < F.inf, (F.mag m : ℚ) ≠ (n : ℚ) * 2 ^ F.scale / d) :
    F.convert neg n d = .error .outOfRange := by
  have hn := F.nearest_spec (by have := h.frac; omega) n d hd
  unfold convert
  by_cases h3 : F.inf ≤ F.nearest n d
  · rw [if_pos h3]
  · rw [if_neg h3, if_pos]
    rcases h1 with h1 | ⟨h1, h2⟩
    · exact absurd ((hn.over_iff h).2 h1) h3
    · exact ⟨(tiny_iff n d hd).2 h1, fun h4 => h2 _ (by omega) ((exact_iff _ n d hd).1 h4)⟩

end Fmt

end Feat.FloatText
