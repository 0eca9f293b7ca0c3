import Verif.Proofs.FloatQuotients
/-
The norms of a row in floating point arithmetic.
-/
namespace Feat.FloatNorms
open FloatText FloatArith
variable {V : Type}

/-! ### Sums -/

section
variable {k : NormInput V} {ok : V → Prop} {val : Reading V} (L : NormLawful k ok val)
include L

theorem filter_numbers (row : List V) (f : ℚ → ℚ) (g : V → ℚ) (h : ∀ x ∈ row, ∀ q, val x = some q → g x = f q) :
    (row.filter fun x => !k.null x).map g = (numbers val row).map f := by
  induction row with
  | nil => rfl
  | cons x row ih =>
    have ih := ih (fun y hy => h y (List.mem_cons_of_mem _ hy))
    cases hv : val x with
    | none =>
      have h1 : k.null x = true := by rw [L.null, hv]; rfl
      have e : numbers val (x :: row) = numbers val row := by simp [numbers, hv]
      rw [e, ← ih]
      simp [h1]
    | some q =>
      have h1 : k.null x = false := by rw [L.null, hv]; rfl
      have e : numbers val (x :: row) = q :: numbers val row := by simp [numbers, hv]
      rw [e, List.map_cons, ← ih, ← h x (by simp) q hv]
      simp [h1]

theorem terms_value {row : List V} (hrow : ∀ x ∈ row, ok x) (g : F80 → F80) (f : ℚ → ℚ)
    (h : ∀ x q, ok x → val x = some q → Finite (g (k.toL x)) ∧ value (g (k.toL x)) = f q) :
    (terms k g row).map value = (numbers val row).map f ∧ (∀ d ∈ terms k g row, Finite d) ∧
      (terms k g row).length = (numbers val row).length := by
  have h1 := filter_numbers L row f (fun x => value (g (k.toL x))) (fun x hx q hv => (h x q (hrow x hx) hv).2)
  have h2 : (terms k g row).map value = (numbers val row).map f := by
    rw [← h1]
    unfold terms
    rw [List.map_map]
    rfl
  refine ⟨h2, ?_, by have := congrArg List.length h2; simpa using this⟩
  intro d hd
  obtain ⟨x, hx, rfl⟩ := List.mem_map.1 hd
  rw [List.mem_filter] at hx
  cases hv : val x with
  | none =>
    have h3 := hx.2
    rw [L.null, hv] at h3
    simp at h3
  | some q => exact (h x q (hrow x hx.1) hv).1

end

theorem long_large : (2 : ℚ) ^ 5000 < tooLarge F80 := by
  unfold tooLarge
  rw [show Binary.frac F80 = 63 from rfl, show ((bias F80 : Nat) : Int) = 16383 by decide +kernel,
    show (2 : ℚ) ^ (16383 - ((63 : Nat) : Int) - 1 : Int) = 2 ^ 16319 from by
      rw [show (16383 - ((63 : Nat) : Int) - 1 : Int) = ((16319 : Nat) : Int) by norm_num, zpow_natCast]]
  have h1 : (2 : ℚ) ^ 5000 ≤ 2 ^ 16319 := pow_le_pow_right₀ (by norm_num) (by norm_num)
  have h2 : (0 : ℚ) < 2 ^ 5000 := by positivity
  generalize (2 : ℚ) ^ 5000 = A at *
  generalize (2 : ℚ) ^ 16319 = B at *
  norm_num
  linarith

theorem sum_bound {l : List ℚ} {B : ℚ} (h : ∀ q ∈ l, q ≤ B) : l.sum ≤ l.length * B := by
  induction l with
  | nil => simp
  | cons a l ih =>
    have h1 := h a (by simp)
    have h2 := ih (fun q hq => h q (List.mem_cons_of_mem _ hq))
    rw [List.sum_cons, List.length_cons]
    push_cast
    linarith

theorem le_sum {l : List ℚ} (h0 : ∀ q ∈ l, 0 ≤ q) {q : ℚ} (hq : q ∈ l) : q ≤ l.sum := by
  induction l with
  | nil => simp at hq
  | cons a l ih =>
    have h1 := List.sum_nonneg (fun q h => h0 q (List.mem_cons_of_mem a h))
    have h2 := h0 a (by simp)
    rw [List.sum_cons]
    rcases List.mem_cons.1 hq with rfl | hq
    · linarith
    · have := ih (fun q h => h0 q (List.mem_cons_of_mem a h)) hq
      linarith

/-- A running sum of numbers none of which is negligible, or of natural numbers, or one that is known not to throw. -/
theorem sum_total {ds : List F80} {l : List ℚ} (he : ds.map value = l) (hf : ∀ d ∈ ds, Finite d) (h0 : ∀ q ∈ l, 0 ≤ q)
    (hlen : l.length ≤ 2 ^ 62) (hbig : ∀ q ∈ l, q ≤ 2 ^ 4000)
    (h : (∀ q ∈ l, q = 0 ∨ l.sum < 2 ^ 62 * q) ∨ SmallNaturals l ∨ (sumAll ds (zero false)).1 = .ok ()) :
    ∃ b, sumAll ds (zero false) = (.ok (), b) ∧ Finite b ∧ 0 ≤ value b ∧ |value b - l.sum| ≤ l.sum * (l.length / 2 ^ 63) ∧
      ∀ q ∈ l, q ≤ value b := by
  have hsum : 0 ≤ l.sum := List.sum_nonneg h0
  have hl : ds.length = l.length := by rw [← he, List.length_map]
  have hD : 2 * l.sum < tooLarge F80 := by
    refine lt_of_le_of_lt ?_ long_large
    have h1 := sum_bound hbig
    have h2 : (l.length : ℚ) ≤ 2 ^ 62 := by exact_mod_cast hlen
    have h3 : (l.length : ℚ) * 2 ^ 4000 ≤ 2 ^ 62 * 2 ^ 4000 := mul_le_mul_of_nonneg_right h2 (by positivity)
    have h4 : (2 : ℚ) * (2 ^ 62 * 2 ^ 4000) ≤ 2 ^ 5000 := by
      rw [← pow_add, ← pow_succ']
      exact pow_le_pow_right₀ (by norm_num) (by norm_num)
    clear hbig
    generalize (2 : ℚ) ^ 5000 = B at *
    generalize (2 : ℚ) ^ 4000 = A at *
    linarith
  rcases h with h | h | h
  · obtain ⟨b, h1, h2, h3, h4, h5⟩ := sum_run l.sum hD ds (zero false) 0 0 (finite_zero _) (le_refl _) (by simp [value_zero])
      (by
        intro d hd
        have hm : value d ∈ l := by rw [← he]; exact List.mem_map_of_mem hd
        exact ⟨hf d hd, h0 _ hm, h _ hm⟩) (by rw [he]; linarith) (by omega)
    rw [he, zero_add, zero_add, hl] at h3
    refine ⟨b, h1, h2, by rwa [value_zero] at h4, le_trans h3 ?_, ?_⟩
    · rw [mul_comm]
      exact mul_le_mul_of_nonneg_left (pow_small hlen) hsum
    · intro q hq
      rw [← he] at hq
      obtain ⟨d, hd, rfl⟩ := List.mem_map.1 hq
      exact h5 d hd
  · obtain ⟨h60, hs, hn⟩ := h
    clear h60
    have hz : ∃ zs : List Nat, l = zs.map (fun z : Nat => (z : ℚ)) := by
      clear he hf hl hs hbig hlen h0 hsum hD
      induction l with
      | nil => exact ⟨[], rfl⟩
      | cons a l ih =>
        obtain ⟨zs, hz⟩ := ih (fun q hq => hn q (List.mem_cons_of_mem _ hq))
        obtain ⟨n, rfl⟩ := hn a (by simp)
        exact ⟨n :: zs, by rw [hz]; rfl⟩
    obtain ⟨zs, hz⟩ := hz
    have hsz : l.sum = ((zs.sum : Nat) : ℚ) := by
      rw [hz]
      clear hz
      induction zs with
      | nil => simp
      | cons a zs ih => rw [List.map_cons, List.sum_cons, List.sum_cons, ih]; push_cast; ring
    obtain ⟨b, h1, h2, h3⟩ := sum_exact ds (zero false) 0 zs (finite_zero _) (by simp [value_zero]) hf (by rw [he, hz]) (by
      rw [hsz] at hs
      rw [Nat.zero_add]
      exact_mod_cast hs)
    rw [Nat.zero_add, ← hsz] at h3
    refine ⟨b, h1, h2, by rw [h3]; exact hsum, ?_, ?_⟩
    · rw [h3, sub_self, abs_zero]
      positivity
    · intro q hq
      rw [h3]
      exact le_sum h0 hq
  · rcases hr : sumAll ds (zero false) with ⟨r, b⟩
    rw [hr] at h
    simp only at h
    subst h
    obtain ⟨h2, h3, h4, h5⟩ := sum_accepted l.sum hD ds (zero false) b 0 0 (finite_zero _) (le_refl _) (by simp [value_zero])
      (by
        intro d hd
        have hm : value d ∈ l := by rw [← he]; exact List.mem_map_of_mem hd
        exact ⟨hf d hd, h0 _ hm⟩) (by rw [he]; linarith) (by omega) hr
    rw [he, zero_add, zero_add, hl] at h3
    refine ⟨b, rfl, h2, by rwa [value_zero] at h4, le_trans h3 ?_, ?_⟩
    · rw [mul_comm]
      exact mul_le_mul_of_nonneg_left (pow_small hlen) hsum
    · intro q hq
      rw [← he] at hq
      obtain ⟨d, hd, rfl⟩ := List.mem_map.1 hq
      exact h5 d hd

/-! ### The norms of a row -/

/-- What the updater does with a row whose norm is `S`. -/
def RowNorm (k : NormInput V) (u : Updater) (val : Reading V) (row : List V) (S : ℝ) : Prop :=
  ∃ a, updateAll k u row Acc.start = (.ok (), ⟨a, true⟩) ∧
    FloatArith.lt (FloatArith.cast (u.commit a) : F64) (zero false) = false ∧
    Normalized val row (row.map (quotient k (FloatArith.cast (u.commit a)))) ∧
    (1 / 2 ^ 1000 ≤ S → S ≤ 2 ^ 1023 → Near S ((numbers val row).length / 2 ^ 62 + 1 / 2 ^ 49) val row
      (row.map (quotient k (FloatArith.cast (u.commit a)))))

theorem length_le {l : List ℚ} {p : Prop} (h : NoneNegligible l ∨ SmallNaturals l ∨ (l.length ≤ 2 ^ 60 ∧ p)) : l.length ≤ 2 ^ 60 := by
  rcases h with h | h | h <;> exact h.1

/-- The updater accepts the row. -/
def Accepted (k : NormInput V) (u : Updater) (row : List V) : Prop := (updateAll k u row Acc.start).1 = .ok ()

theorem Near.mono {S ε ε' : ℝ} {val : Reading V} {row : List V} {out : List F64} (h : Near S ε val row out) (hle : ε ≤ ε') :
    Near S ε' val row out := fun i x y q h1 h2 h3 => le_trans (h i x y q h1 h2 h3) hle

section
variable {k : NormInput V} {ok : V → Prop} {val : Reading V}

theorem terms_isEmpty {row : List V} {g : F80 → F80} (h : (terms k g row).length = (numbers val row).length)
    (hne : numbers val row ≠ []) : (false || !(terms k g row).isEmpty) = true := by
  cases ht : terms k g row with
  | nil =>
    rw [ht] at h
    exact absurd (List.length_eq_zero_iff.1 h.symm) hne
  | cons => rfl

variable (L : NormLawful k ok val)
include L

/-- `L1NormUpdater`. -/
theorem l1_row {row : List V} (hrow : ∀ x ∈ row, ok x) (hne : numbers val row ≠ [])
    (h : NoneNegligible ((numbers val row).map fun q => |q|) ∨ SmallNaturals ((numbers val row).map fun q => |q|) ∨
      (((numbers val row).map fun q => |q|).length ≤ 2 ^ 60 ∧ Accepted k l1 row)) :
    RowNorm k l1 val row (sumAbs (numbers val row) : ℚ) := by
  have hlen := length_le h
  rw [List.length_map] at hlen
  have habs : ∀ q ∈ (numbers val row).map (fun q => |q|), 0 ≤ q := by
    intro q hq
    obtain ⟨r, _, rfl⟩ := List.mem_map.1 hq
    exact abs_nonneg r
  obtain ⟨h1, h2, h3⟩ := terms_value L hrow absolute (fun q => |q|) (by
    intro x q ho hv
    obtain ⟨hf, he⟩ := L.exact x q ho hv
    have hk := key_absolute (k.toL x)
    refine ⟨by rw [finite_key, hk, Int.natAbs_abs, ← finite_key]; exact hf, ?_⟩
    rw [value_key, hk, ← he, value_key]
    exact FloatScalers.fval_abs _)
  obtain ⟨b, h4, h5, h6, h7, h8⟩ := sum_total h1 h2 habs (by rw [List.length_map]; omega)
    (by
      intro q hq
      obtain ⟨r, hr, rfl⟩ := List.mem_map.1 hq
      obtain ⟨x, hx, hv⟩ := List.mem_filterMap.1 hr
      exact le_trans (L.small x r (hrow x hx) hv) (pow_le_pow_right₀ (by norm_num) (by norm_num)))
    (by
      rcases h with h | h | h
      · left
        intro q hq
        rcases h.2 q hq with h | h
        · exact .inl h
        · right
          have := habs q hq
          linarith
      · exact .inr (.inl h)
      · right; right
        have := h.2
        unfold Accepted l1 at this
        rw [updateAll_sum] at this
        exact this)
  have hle : ∀ q ∈ numbers val row, |q| ≤ value b := fun q hq => h8 |q| (List.mem_map_of_mem (f := fun q => |q|) hq)
  have hS : ((numbers val row).map fun q => |q|).sum = sumAbs (numbers val row) := rfl
  rw [hS, List.length_map] at h7
  obtain ⟨h9, h10, h11⟩ := row_of_commit L hrow h5 (by
      intro hall
      have : sumAbs (numbers val row) = 0 := by
        unfold sumAbs
        refine List.sum_eq_zero ?_
        intro q hq
        obtain ⟨r, hr, rfl⟩ := List.mem_map.1 hq
        rw [hall r hr, abs_zero]
      rw [this, zero_mul, sub_zero] at h7
      exact abs_nonpos_iff.1 h7) hle h6
  refine ⟨b, ?_, h9, h10, ?_⟩
  · unfold l1
    rw [updateAll_sum]
    simp only [Acc.start]
    rw [h4, terms_isEmpty h3 hne]
  · intro hS1 hS2
    have hn60 : ((numbers val row).length : ℝ) ≤ 2 ^ 60 := by exact_mod_cast hlen
    refine (h11 (sumAbs (numbers val row) : ℚ) ((numbers val row).length / 2 ^ 63) hS1 hS2 (by positivity)
      (by rw [div_le_iff₀ (by positivity)]; linarith)
      (by have := (Rat.cast_le (K := ℝ)).2 h7
          push_cast at this
          exact this)
      (by intro q hq
          have : |q| ≤ sumAbs (numbers val row) := le_sum habs (List.mem_map_of_mem (f := fun q => |q|) hq)
          exact_mod_cast this)).mono ?_
    have e : 2 * (((numbers val row).length : ℝ) / 2 ^ 63) = (numbers val row).length / 2 ^ 62 := by ring
    rw [e]
    have : (1 : ℝ) / 2 ^ 50 ≤ 1 / 2 ^ 49 := by norm_num
    linarith

/-- The rounded square of a number of a row. -/
theorem square_term {x : V} {q : ℚ} (ho : ok x) (hv : val x = some q) :
    Finite (mul (absolute (k.toL x)) (absolute (k.toL x))) ∧
    value (mul (absolute (k.toL x)) (absolute (k.toL x))) = fval (fmt F80) (rnd (fmt F80) (q ^ 2)) ∧
    |fval (fmt F80) (rnd (fmt F80) (q ^ 2)) - q ^ 2| ≤ q ^ 2 / 2 ^ 64 ∧
    q ^ 2 ≤ 2 ^ 2048 ∧ q ^ 2 < tooLarge F80 ∧ ∃ z : Int, q ^ 2 = z / 2 ^ (fmt F80).scale := by
  obtain ⟨hf, he⟩ := L.exact x q ho hv
  have hk := key_absolute (k.toL x)
  have hfa : Finite (absolute (k.toL x)) := by rw [finite_key, hk, Int.natAbs_abs, ← finite_key]; exact hf
  have hva : value (absolute (k.toL x)) = |q| := by
    rw [value_key, hk, ← he, value_key]
    exact FloatScalers.fval_abs _
  have hm := key_mul hfa hfa
  rw [hva, ← pow_two, sq_abs] at hm
  have hle : q ^ 2 ≤ 2 ^ 2048 := by
    have h1 := L.small x q ho hv
    have h2 := pow_le_pow_left₀ (abs_nonneg q) h1 2
    rw [sq_abs, ← pow_mul] at h2
    exact h2
  have hlt : q ^ 2 < tooLarge F80 :=
    lt_of_le_of_lt (le_trans hle (pow_le_pow_right₀ (by norm_num) (by norm_num))) long_large
  have hgrid : ∃ z : Int, q ^ 2 = z / 2 ^ (fmt F80).scale := by
    obtain ⟨z, hz⟩ := L.grid x q ho hv
    refine ⟨z ^ 2 * 2 ^ 14297, ?_⟩
    rw [hz, div_pow, ← pow_mul, show (fmt F80).scale = 1074 * 2 + 14297 by decide +kernel, pow_add]
    push_cast
    rw [mul_div_mul_right _ _ (by positivity)]
  have hfin := rnd_finite (T := F80) (q := q ^ 2) (by rwa [abs_of_nonneg (by positivity)])
  refine ⟨by rw [finite_key, hm]; exact hfin, by rw [value_key, hm], ?_, hle, hlt, hgrid⟩
  obtain ⟨z, hz⟩ := hgrid
  have hfin' := hfin
  rw [hz] at hfin'
  have h1 := rnd_error_int (Lawful.good (T := F80)) hfin'
  rw [← hz, abs_of_nonneg (show (0 : ℚ) ≤ q ^ 2 by positivity)] at h1
  exact h1

/-- The square root of a sum of squares is not less than any of the numbers. -/
theorem sqrt_bound {x : V} {q : ℚ} (ho : ok x) (hv : val x = some q) (hq : q ≠ 0) {b : F80} (hb : Finite b)
    (hle : fval (fmt F80) (rnd (fmt F80) (q ^ 2)) ≤ value b) : |q| ≤ value (sqrt b) ∧ 1 / 2 ^ 3000 ≤ value b := by
  obtain ⟨hf, he⟩ := L.exact x q ho hv
  have hk := key_absolute (k.toL x)
  have hfa : Finite (absolute (k.toL x)) := by rw [finite_key, hk, Int.natAbs_abs, ← finite_key]; exact hf
  have hva : value (absolute (k.toL x)) = |q| := by
    rw [value_key, hk, ← he, value_key]
    exact FloatScalers.fval_abs _
  obtain ⟨_, _, h3, _, h5, h6⟩ := square_term L ho hv
  have hlow : 1 / 2 ^ 1074 ≤ |q| := by
    obtain ⟨z, hz⟩ := L.grid x q ho hv
    have hz0 : z ≠ 0 := by rintro rfl; exact hq (by rw [hz]; simp)
    rw [hz, abs_div, abs_of_pos (show (0 : ℚ) < 2 ^ 1074 by positivity), div_le_div_iff_of_pos_right (by positivity),
      ← Int.cast_abs]
    exact_mod_cast Int.one_le_abs hz0
  constructor
  · rw [← hva, value_key, value_key (sqrt b), fval_le]
    refine sqrt_ge hfa (by rw [hva]; exact abs_pos.2 hq) ?_ (by rw [hva, sq_abs]; exact h6) (by rw [hva, sq_abs]; exact h5) hb
      (by rw [hva, sq_abs, ← fval_le (F := fmt F80), ← value_key]; exact hle)
    by_contra hlt
    push Not at hlt
    rw [Nat.div_lt_iff_lt_mul (by positivity)] at hlt
    have h7 : key (absolute (k.toL x)) ≤ ((2 * 2 ^ 63 : Nat) : Int) := by
      rw [show (fmt F80).frac = 63 from rfl] at hlt
      omega
    have h8 := (fval_le (F := fmt F80)).2 h7
    rw [← value_key, hva, fval_nat, show (fmt F80).mag (2 * 2 ^ 63) = 2 ^ 64 by decide +kernel] at h8
    have h9 := le_trans hlow h8
    rw [show (fmt F80).scale = 64 + 16381 by decide +kernel, pow_add] at h9
    push_cast at h9
    rw [div_mul_eq_div_div, show (18446744073709551616 : ℚ) / 2 ^ 64 = 1 by norm_num, one_div_le_one_div (by positivity) (by positivity)] at h9
    have h10 : (2 : ℚ) ^ 1074 < 2 ^ 16381 := pow_lt_pow_right₀ (by norm_num) (by norm_num)
    exact absurd h10 (not_lt.2 h9)
  · refine le_trans ?_ hle
    have h7 := (abs_le.1 h3).1
    have h8 : (1 / 2 ^ 1074) ^ 2 ≤ q ^ 2 := by
      rw [← sq_abs q]
      exact pow_le_pow_left₀ (by positivity) hlow 2
    rw [div_pow, one_pow, ← pow_mul] at h8
    have h9 : (1 : ℚ) / 2 ^ 3000 ≤ 1 / 2 ^ (1074 * 2) / 2 := by
      rw [div_div, ← pow_succ]
      exact one_div_le_one_div_of_le (by positivity) (pow_le_pow_right₀ (by norm_num) (by norm_num))
    generalize (1 : ℚ) / 2 ^ 3000 = A at *
    generalize (1 : ℚ) / 2 ^ (1074 * 2) = B at *
    have h10 : q ^ 2 / 2 ^ 64 ≤ q ^ 2 / 2 := div_le_div_of_nonneg_left (by positivity) (by norm_num) (by norm_num)
    linarith

omit L in
theorem sum_near {l : List ℚ} {f g : ℚ → ℚ} {u : ℚ} (h : ∀ q ∈ l, |f q - g q| ≤ g q * u) :
    |(l.map f).sum - (l.map g).sum| ≤ (l.map g).sum * u := by
  induction l with
  | nil => simp
  | cons a l ih =>
    have h1 := h a (by simp)
    have h2 := ih (fun q hq => h q (List.mem_cons_of_mem _ hq))
    rw [List.map_cons, List.map_cons, List.sum_cons, List.sum_cons]
    have e : f a + (l.map f).sum - (g a + (l.map g).sum) = (f a - g a) + ((l.map f).sum - (l.map g).sum) := by ring
    rw [e]
    have := abs_add_le (f a - g a) ((l.map f).sum - (l.map g).sum)
    linarith

/-- `L2NormUpdater`. -/
theorem l2_row {row : List V} (hrow : ∀ x ∈ row, ok x) (hne : numbers val row ≠ [])
    (h : NoneNegligible ((numbers val row).map fun q => q ^ 2) ∨ SmallNaturals ((numbers val row).map fun q => q ^ 2) ∨
      (((numbers val row).map fun q => q ^ 2).length ≤ 2 ^ 60 ∧ Accepted k l2 row)) :
    RowNorm k l2 val row (Real.sqrt (sumSq (numbers val row) : ℚ)) := by
  have hlen := length_le h
  rw [List.length_map] at hlen
  have hS : ((numbers val row).map fun q => q ^ 2).sum = sumSq (numbers val row) := rfl
  have hQ0 : 0 ≤ sumSq (numbers val row) := by
    rw [← hS]
    refine List.sum_nonneg ?_
    intro q hq
    obtain ⟨r, _, rfl⟩ := List.mem_map.1 hq
    positivity
  have hsq := fun x q (ho : ok x) (hv : val x = some q) => square_term L ho hv
  have hval : ∀ q ∈ numbers val row, ∃ x, ok x ∧ val x = some q := by
    intro q hq
    obtain ⟨x, hx, hv⟩ := List.mem_filterMap.1 hq
    exact ⟨x, hrow x hx, hv⟩
  have herr : ∀ q ∈ numbers val row, |fval (fmt F80) (rnd (fmt F80) (q ^ 2)) - q ^ 2| ≤ q ^ 2 * (1 / 2 ^ 64) := by
    intro q hq
    obtain ⟨x, ho, hv⟩ := hval q hq
    rw [mul_one_div]
    exact (hsq x q ho hv).2.2.1
  have hD := sum_near herr
  rw [hS] at hD
  obtain ⟨h1, h2, h3⟩ := terms_value L hrow (fun x => mul (absolute x) (absolute x)) (fun q => fval (fmt F80) (rnd (fmt F80) (q ^ 2)))
    (fun x q ho hv => ⟨(hsq x q ho hv).1, (hsq x q ho hv).2.1⟩)
  have hpos : ∀ q : ℚ, 0 ≤ fval (fmt F80) (rnd (fmt F80) (q ^ 2)) := fun q => fval_nonneg (rnd_nonneg (by positivity))
  obtain ⟨b, h4, h5, h6, h7, h8⟩ := sum_total h1 h2 (by
      intro q hq
      obtain ⟨r, _, rfl⟩ := List.mem_map.1 hq
      exact hpos r) (by rw [List.length_map]; omega)
    (by
      intro q hq
      obtain ⟨r, hr, rfl⟩ := List.mem_map.1 hq
      obtain ⟨x, ho, hv⟩ := hval r hr
      have h9 := (abs_le.1 (herr r hr)).2
      have h10 := (hsq x r ho hv).2.2.2.1
      have h11 : (2 : ℚ) * 2 ^ 2048 ≤ 2 ^ 4000 := by
        rw [← pow_succ']
        exact pow_le_pow_right₀ (by norm_num) (by norm_num)
      have h12 : 0 ≤ r ^ 2 := by positivity
      generalize (2 : ℚ) ^ 4000 = A at *
      generalize (2 : ℚ) ^ 2048 = B at *
      linarith)
    (by
      rcases h with h | h | h
      · left
        intro q hq
        obtain ⟨r, hr, rfl⟩ := List.mem_map.1 hq
        rcases h.2 (r ^ 2) (List.mem_map_of_mem (f := fun q => q ^ 2) hr) with h | h
        · left
          rw [h, rnd_zero, fval_zero]
        · right
          rw [hS] at h
          have h9 := (abs_le.1 (herr r hr)).1
          have h10 := (abs_le.1 hD).2
          have h12 : 0 ≤ r ^ 2 := by positivity
          linarith
      · right; left
        have hex : ∀ q ∈ numbers val row, fval (fmt F80) (rnd (fmt F80) (q ^ 2)) = q ^ 2 := by
          intro q hq
          obtain ⟨n, hn⟩ := h.2.2 (q ^ 2) (List.mem_map_of_mem (f := fun q => q ^ 2) hq)
          have hle : q ^ 2 ≤ 2 ^ 64 := le_trans (le_sum (by
            intro q hq
            obtain ⟨r, _, rfl⟩ := List.mem_map.1 hq
            positivity) (List.mem_map_of_mem (f := fun q => q ^ 2) hq)) h.2.1
          rw [hn] at hle
          have hle' : n ≤ 2 ^ 64 := by exact_mod_cast hle
          obtain ⟨e1, e2⟩ := ofInt_exact (T := F80) (z := (n : Int)) (by
            rw [Int.natAbs_natCast, show (fmt F80).frac = 63 from rfl]; omega)
          have e3 := key_ofInt (T := F80) (n : Int)
          rw [hn, ← Int.cast_natCast, ← e3, ← value_key, e2]
        rw [List.map_congr_left hex]
        exact h
      · right; right
        have := h.2
        unfold Accepted l2 at this
        rw [updateAll_sum] at this
        exact this)
  rw [List.length_map] at h7
  have hle : ∀ q ∈ numbers val row, fval (fmt F80) (rnd (fmt F80) (q ^ 2)) ≤ value b := fun q hq =>
    h8 _ (List.mem_map_of_mem (f := fun q => fval (fmt F80) (rnd (fmt F80) (q ^ 2))) hq)
  -- zero, or the square root of a number that is not small
  have hroot : ((∀ q ∈ numbers val row, q = 0) ∧ value b = 0 ∧ Finite (sqrt b) ∧ value (sqrt b) = 0) ∨ 1 / 2 ^ 3000 ≤ value b := by
    by_cases hall : ∀ q ∈ numbers val row, q = 0
    · left
      have hz : sumSq (numbers val row) = 0 := by
        unfold sumSq
        refine List.sum_eq_zero ?_
        intro q hq
        obtain ⟨r, hr, rfl⟩ := List.mem_map.1 hq
        rw [hall r hr]
        norm_num
      rw [hz, zero_mul, sub_zero] at hD
      rw [abs_nonpos_iff.1 hD, zero_mul, sub_zero] at h7
      have hb0 := abs_nonpos_iff.1 h7
      have hu : units b = 0 := by rw [units_eq_zero, ← fval_eq_zero (F := fmt F80), ← value_key, hb0]
      have e : sqrt b = b := by
        unfold sqrt
        rw [if_neg (by rw [Finite.not_nan h5]; simp), if_pos (by rw [hu]; simp)]
      exact ⟨hall, hb0, by rw [e]; exact h5, by rw [e]; exact hb0⟩
    · right
      push Not at hall
      obtain ⟨q, hq, hq0⟩ := hall
      obtain ⟨x, ho, hv⟩ := hval q hq
      exact (sqrt_bound L ho hv hq0 h5 (hle q hq)).2
  have hfin : Finite (sqrt b) := by
    rcases hroot with h | h
    · exact h.2.2.1
    · exact (sqrt_error h5 h).1
  have hnn : 0 ≤ value (sqrt b) := by
    rcases hroot with h | h
    · rw [h.2.2.2]
    · obtain ⟨s, q, hk, e1, e2, e3⟩ := key_sqrt h5 (lt_of_lt_of_le (by positivity) h).ne'
      rw [value_key, hk]
      exact fval_nonneg (rnd_nonneg (sqrt_near (lt_of_lt_of_le (by positivity) h) e1 e2 e3).2.1)
  have hge : ∀ q ∈ numbers val row, |q| ≤ value (sqrt b) := by
    intro q hq
    by_cases hq0 : q = 0
    · rw [hq0, abs_zero]; exact hnn
    · obtain ⟨x, ho, hv⟩ := hval q hq
      exact (sqrt_bound L ho hv hq0 h5 (hle q hq)).1
  obtain ⟨h9, h10, h11⟩ := row_of_commit L hrow hfin (by
      intro hall
      rcases hroot with h | h
      · exact h.2.2.2
      · exfalso
        have hz : sumSq (numbers val row) = 0 := by
          unfold sumSq
          refine List.sum_eq_zero ?_
          intro q hq
          obtain ⟨r, hr, rfl⟩ := List.mem_map.1 hq
          rw [hall r hr]
          norm_num
        rw [hz, zero_mul, sub_zero] at hD
        rw [abs_nonpos_iff.1 hD, zero_mul, sub_zero] at h7
        rw [abs_nonpos_iff.1 h7] at h
        have : (0 : ℚ) < 1 / 2 ^ 3000 := by positivity
        linarith) hge hnn
  refine ⟨b, ?_, h9, h10, ?_⟩
  · show updateAll k ⟨fun a x => accumulate a (mul (absolute x) (absolute x)), sqrt⟩ row Acc.start = _
    rw [updateAll_sum k (fun x => mul (absolute x) (absolute x))]
    simp only [Acc.start]
    rw [h4, terms_isEmpty h3 hne]
  · intro hS1 hS2
    have hn60 : ((numbers val row).length : ℝ) ≤ 2 ^ 60 := by exact_mod_cast hlen
    have hn0 : (0 : ℝ) ≤ (numbers val row).length := Nat.cast_nonneg _
    have hSpos : 0 < Real.sqrt (sumSq (numbers val row) : ℚ) := lt_of_lt_of_le (by positivity) hS1
    have hb3 : 1 / 2 ^ 3000 ≤ value b := by
      rcases hroot with h | h
      · exfalso
        have hz : sumSq (numbers val row) = 0 := by
          unfold sumSq
          refine List.sum_eq_zero ?_
          intro q hq
          obtain ⟨r, hr, rfl⟩ := List.mem_map.1 hq
          rw [h.1 r hr]
          norm_num
        rw [hz] at hSpos
        simp at hSpos
      · exact h
    have hroot := (sqrt_error h5 hb3).2
    -- the sum against the exact one
    have hbQ : |(value b : ℝ) - (sumSq (numbers val row) : ℚ)| ≤
        (sumSq (numbers val row) : ℚ) * ((numbers val row).length / 2 ^ 63 + 1 / 2 ^ 62) := by
      have h12 : |value b - sumSq (numbers val row)| ≤
          sumSq (numbers val row) * ((numbers val row).length / 2 ^ 63 + 1 / 2 ^ 62) := by
        have hn60q : ((numbers val row).length : ℚ) ≤ 2 ^ 60 := by exact_mod_cast hlen
        have hn0q : (0 : ℚ) ≤ (numbers val row).length := Nat.cast_nonneg _
        generalize ((numbers val row).map fun q => fval (fmt F80) (rnd (fmt F80) (q ^ 2))).sum = D at *
        generalize sumSq (numbers val row) = Q at *
        generalize ((numbers val row).length : ℚ) = n at *
        have e := abs_sub_le (value b) D Q
        have e1 := (abs_le.1 hD).2
        have e2 : D * (n / 2 ^ 63) ≤ (Q + Q * (1 / 2 ^ 64)) * (n / 2 ^ 63) := mul_le_mul_of_nonneg_right (by linarith) (by positivity)
        have e3 : Q * (1 / 2 ^ 64) * (n / 2 ^ 63) ≤ Q * (1 / 2 ^ 64) * 1 :=
          mul_le_mul_of_nonneg_left (by rw [div_le_one (by positivity)]; linarith) (by positivity)
        have e4 : Q * (n / 2 ^ 63 + 1 / 2 ^ 62) = Q * (n / 2 ^ 63) + Q * (1 / 2 ^ 64) * 4 := by ring
        have e5 : 0 ≤ Q * (1 / 2 ^ 64) := by positivity
        linarith
      have := (Rat.cast_le (K := ℝ)).2 h12
      push_cast at this
      exact this
    have hQr : (0 : ℝ) ≤ (sumSq (numbers val row) : ℚ) := by exact_mod_cast hQ0
    have hbr : (0 : ℝ) ≤ (value b : ℚ) := by exact_mod_cast h6
    have hQ2 := Real.sq_sqrt hQr
    have hb2 := Real.sq_sqrt hbr
    have hqS : ∀ q ∈ numbers val row, ((|q| : ℚ) : ℝ) ≤ Real.sqrt (sumSq (numbers val row) : ℚ) := by
      intro q hq
      apply Real.le_sqrt_of_sq_le
      have h12 : q ^ 2 ≤ sumSq (numbers val row) := le_sum (by
        intro q hq
        obtain ⟨r, _, rfl⟩ := List.mem_map.1 hq
        positivity) (List.mem_map_of_mem (f := fun q => q ^ 2) hq)
      rw [← sq_abs] at h12
      exact_mod_cast h12
    have hθ : |Real.sqrt (value b : ℚ) - Real.sqrt (sumSq (numbers val row) : ℚ)| ≤
        Real.sqrt (sumSq (numbers val row) : ℚ) * ((numbers val row).length / 2 ^ 63 + 1 / 2 ^ 62) := by
      have hsb := Real.sqrt_nonneg ((value b : ℚ) : ℝ)
      rw [← hQ2, ← hb2] at hbQ
      generalize Real.sqrt (sumSq (numbers val row) : ℚ) = S at *
      generalize Real.sqrt (value b : ℚ) = B at *
      rw [show B ^ 2 - S ^ 2 = (B - S) * (B + S) by ring, abs_mul, abs_of_nonneg (by linarith : 0 ≤ B + S)] at hbQ
      have e1 : |B - S| * S ≤ |B - S| * (B + S) := mul_le_mul_of_nonneg_left (by linarith) (abs_nonneg _)
      have e2 := le_trans e1 hbQ
      rw [pow_two, mul_assoc, mul_comm] at e2
      exact le_of_mul_le_mul_left e2 hSpos
    refine (h11 (Real.sqrt (sumSq (numbers val row) : ℚ)) ((numbers val row).length / 2 ^ 63 + 1 / 2 ^ 60) hS1 hS2 (by positivity)
      (by have : ((numbers val row).length : ℝ) / 2 ^ 63 ≤ 1 / 8 := by
            rw [div_le_iff₀ (by positivity)]; linarith
          have : (1 : ℝ) / 2 ^ 60 ≤ 1 / 8 := by norm_num
          linarith) ?_ hqS).mono ?_
    · have hk : ((numbers val row).length : ℝ) / 2 ^ 63 ≤ 1 / 2 := by
        rw [div_le_iff₀ (by positivity)]; linarith
      generalize Real.sqrt (sumSq (numbers val row) : ℚ) = S at *
      have hroot' : |(value (sqrt b) : ℝ) - Real.sqrt (value b : ℚ)| ≤ Real.sqrt (value b : ℚ) / 2 ^ 62 := hroot
      show |(value (sqrt b) : ℝ) - S| ≤ _
      generalize Real.sqrt (value b : ℚ) = B at *
      generalize (value (sqrt b) : ℝ) = C at *
      generalize ((numbers val row).length : ℝ) / 2 ^ 63 = t at *
      have e := abs_sub_le C B S
      have e1 := (abs_le.1 hθ).2
      have e2 : S * (t + 1 / 2 ^ 62) ≤ S * 1 := mul_le_mul_of_nonneg_left (by
        have : (1 : ℝ) / 2 ^ 62 ≤ 1 / 2 := by norm_num
        linarith) hSpos.le
      have e3 : B / 2 ^ 62 ≤ 2 * S / 2 ^ 62 := div_le_div_of_nonneg_right (by linarith) (by positivity)
      have e4 : S * (t + 1 / 2 ^ 60) = S * (t + 1 / 2 ^ 62) + 2 * S / 2 ^ 62 + S / 2 ^ 62 := by ring
      have e5 : 0 ≤ S / 2 ^ 62 := by positivity
      linarith
    · have e : 2 * (((numbers val row).length : ℝ) / 2 ^ 63 + 1 / 2 ^ 60) = (numbers val row).length / 2 ^ 62 + 1 / 2 ^ 59 := by ring
      rw [e]
      have : (1 : ℝ) / 2 ^ 59 + 1 / 2 ^ 50 ≤ 1 / 2 ^ 49 := by norm_num
      linarith

end

end Feat.FloatNorms
