import Verif.Model.FloatDocs
import Verif.Props.DocStats
import Verif.Proofs.FloatTfidf
import Verif.Spec.FloatScalers
/-
C93: the bounds on the document frequency, on the `float`s of the machine.
-/
namespace Feat.FloatDocs
open Feat.FloatArith Feat.FloatText

/-! ### The quotient -/

theorem count_float (n : Nat) (hn : n < 2 ^ 32) : Finite (ofInt n : F32) ∧ 0 ≤ value (ofInt n : F32) := by
  have hk := key_ofInt (T := F32) n
  have hf : (rnd (fmt F32) ((n : Int) : ℚ)).natAbs < (fmt F32).inf := by
    refine rnd_finite ?_
    refine lt_of_lt_of_le ?_ FloatTfidf.tooLarge_float
    rw [abs_of_nonneg (by positivity)]
    have h1 : ((n : Int) : ℚ) < ((2 ^ 32 : Nat) : ℚ) := by exact_mod_cast hn
    refine lt_trans h1 ?_
    norm_num
  refine ⟨by rw [finite_key, hk]; exact hf, ?_⟩
  rw [value_key, hk, ← fval_zero (F := fmt F32), fval_le]
  exact rnd_nonneg (by positivity)

theorem count_mono {a b : Nat} (h : a ≤ b) : value (ofInt a : F32) ≤ value (ofInt b : F32) := by
  rw [value_key, value_key, fval_le, key_ofInt, key_ofInt]
  exact rnd_mono Lawful.good (by exact_mod_cast h)

theorem one_float : Finite (ofInt 1 : F32) ∧ value (ofInt 1 : F32) = 1 := by
  have := ofInt_exact (T := F32) (z := 1) (by decide +kernel)
  refine ⟨this.1, ?_⟩
  rw [this.2]; norm_num

theorem count_pos {n : Nat} (h : 1 ≤ n) : 1 ≤ value (ofInt n : F32) := by
  have := count_mono h
  rw [show ((1 : Nat) : Int) = 1 from rfl, one_float.2] at this
  exact this

theorem key_ratio (a b : UInt32) (hb : 0 < b.toNat) :
    key (documentOps.ratio a b) = rnd (fmt F32) (value (ofInt a.toNat : F32) / value (ofInt b.toNat : F32)) := by
  have h1 := count_pos (n := b.toNat) hb
  exact key_div (count_float _ a.toNat_lt).1 (count_float _ b.toNat_lt).1 (by linarith)

theorem ratio_bounds (a b : UInt32) (hb : 0 < b.toNat) (hab : a.toNat ≤ b.toNat) :
    0 ≤ key (documentOps.ratio a b) ∧ key (documentOps.ratio a b) ≤ key documentOps.one ∧
      isNaN (documentOps.ratio a b) = false := by
  have h1 := count_pos (n := b.toNat) hb
  have h0 := (count_float a.toNat a.toNat_lt).2
  have h2 := count_mono hab
  have hk := key_ratio a b hb
  have hq0 : 0 ≤ value (ofInt a.toNat : F32) / value (ofInt b.toNat : F32) := div_nonneg h0 (by linarith)
  have hq1 : value (ofInt a.toNat : F32) / value (ofInt b.toNat : F32) ≤ 1 := (div_le_one (by linarith)).2 h2
  have hone : rnd (fmt F32) 1 = key documentOps.one := by
    have := rnd_value one_float.1
    rw [one_float.2] at this
    exact this
  have hle : key (documentOps.ratio a b) ≤ key documentOps.one := by
    rw [hk, ← hone]
    exact rnd_mono Lawful.good hq1
  have h00 : 0 ≤ key (documentOps.ratio a b) := by rw [hk]; exact rnd_nonneg hq0
  refine ⟨h00, hle, ?_⟩
  refine Finite.not_nan ?_
  have hf := one_float.1
  have hf' : (key documentOps.one).natAbs < (fmt F32).inf := (finite_key _).1 hf
  rw [finite_key]
  refine lt_of_le_of_lt ?_ hf'
  generalize key documentOps.one = u at hle ⊢
  omega

/-- **C93 (the assumption of C44)** The floats of the machine, NaN included, meet what C44, C45, C54, C55, C83 and C84 assume
of them. -/
theorem C93_floats : GoodRatio documentOps := by
  intro a b hb hab
  obtain ⟨h0, h1, hn⟩ := ratio_bounds a b hb hab
  constructor
  · intro x hx
    change lt (zero false) x = false at hx
    change lt (documentOps.ratio a b) x = false
    unfold lt at hx ⊢
    rw [key_zero] at hx
    rw [Finite.not_nan (x := (zero false : F32)) (by rw [finite_key, key_zero]; decide +kernel)] at hx
    rw [hn]
    cases hx' : isNaN x
    · rw [hx'] at hx
      simp only [Bool.not_false, Bool.true_and, decide_eq_false_iff_not] at hx ⊢
      generalize key x = u at hx ⊢
      omega
    · rfl
  · intro x hx
    change lt x documentOps.one = false at hx
    change lt x (documentOps.ratio a b) = false
    unfold lt at hx ⊢
    rw [Finite.not_nan (x := documentOps.one) one_float.1] at hx
    rw [hn]
    cases hx' : isNaN x
    · rw [hx'] at hx
      simp only [Bool.not_false, Bool.true_and, decide_eq_false_iff_not] at hx ⊢
      generalize key x = u at hx ⊢
      generalize key documentOps.one = w at hx h1
      omega
    · rfl

/-! ### Bounds as fractions -/

/-- The quotient for up to 2²⁴ documents: the exact one, rounded once. -/
theorem key_small {d n : Nat} (hd : d ≤ n) (h1 : 1 ≤ n) (hn : n ≤ 2 ^ 24) :
    key (documentOps.ratio (UInt32.ofNat d) (UInt32.ofNat n)) = rnd (fmt F32) ((d : ℚ) / n) := by
  have e1 : (UInt32.ofNat n).toNat = n := UInt32.toNat_ofNat_of_lt' (lt_of_le_of_lt hn (by norm_num))
  have e2 : (UInt32.ofNat d).toNat = d := UInt32.toNat_ofNat_of_lt' (lt_of_le_of_lt (hd.trans hn) (by norm_num))
  have exact_of : ∀ k : Nat, k ≤ 2 ^ 24 → value (ofInt k : F32) = k := by
    intro k hk
    have := (ofInt_exact (T := F32) (z := k) (by
      show k ≤ 2 * 2 ^ (fmt F32).frac
      have : (2 * 2 ^ (fmt F32).frac : Nat) = 2 ^ 24 := by decide +kernel
      omega)).2
    rw [this]; norm_num
  rw [key_ratio _ _ (by rw [e1]; exact h1), e1, e2, exact_of _ hn, exact_of _ (hd.trans hn)]

/-- The quotient differs from the exact one by at most one part in 2²⁴. -/
theorem ratio_near {d n : Nat} (h0 : 1 ≤ d) (hd : d ≤ n) (hn : n ≤ 2 ^ 24) :
    Finite (documentOps.ratio (UInt32.ofNat d) (UInt32.ofNat n)) ∧
      |value (documentOps.ratio (UInt32.ofNat d) (UInt32.ofNat n)) - (d : ℚ) / n| ≤ 1 / 2 ^ 24 * ((d : ℚ) / n) := by
  have hk := key_small hd (h0.trans hd) hn
  have hnq : (1 : ℚ) ≤ n := by exact_mod_cast h0.trans hd
  have hdq : (1 : ℚ) ≤ d := by exact_mod_cast h0
  have hdn : (d : ℚ) ≤ n := by exact_mod_cast hd
  have hnn : (n : ℚ) ≤ 2 ^ 24 := by exact_mod_cast hn
  have hlo : (1 : ℚ) / 2 ^ 100 ≤ (d : ℚ) / n := by
    rw [div_le_div_iff₀ (by positivity) (by linarith)]
    have : (2 : ℚ) ^ 24 ≤ 2 ^ 100 := by norm_num
    nlinarith
  have hhi : (d : ℚ) / n ≤ 1 := (div_le_one (by linarith)).2 hdn
  obtain ⟨hf, hr⟩ := FloatTfidf.rounded_float hk hlo (lt_of_le_of_lt hhi (by norm_num))
  refine ⟨hf, ?_⟩
  unfold FloatTfidf.Rel at hr
  generalize value (documentOps.ratio (UInt32.ofNat d) (UInt32.ofNat n)) = v at hr ⊢
  refine (Rat.cast_le (K := ℝ)).1 ?_
  push_cast at hr ⊢
  exact hr

/-- The `float` nearest to a fraction between 0 and 1. -/
theorem bound_near {x : F32} {q : ℚ} (h0 : 0 ≤ q) (h1 : q ≤ 1) (hx : IsNearest q x) : |value x - q| ≤ 1 / 2 ^ 24 := by
  rcases lt_or_ge q (1 / 2 ^ 100) with h | h
  · have := hx.least (zero false) (by rw [finite_key, key_zero]; decide +kernel)
    rw [value_zero, zero_sub, abs_neg, abs_of_nonneg h0] at this
    exact le_trans this (le_trans h.le (by norm_num))
  · have hfin : (rnd (fmt F32) q).natAbs < (fmt F32).inf :=
      rnd_finite (by rw [abs_of_nonneg h0]; exact lt_of_le_of_lt h1 (lt_of_lt_of_le (by norm_num) FloatTfidf.tooLarge_float))
    have hpos := rnd_nonneg (F := fmt F32) h0
    have hmake : key (make false (rnd (fmt F32) q).natAbs : F32) = rnd (fmt F32) q := by
      have := inf_lt_signBit F32
      rw [key_make _ (by omega)]
      generalize rnd (fmt F32) q = z at hpos ⊢
      simp only [Bool.false_eq_true, if_false]
      omega
    obtain ⟨hf, hr⟩ := FloatTfidf.rounded_float hmake h (lt_of_le_of_lt h1 (by norm_num))
    have := hx.least _ hf
    refine le_trans this ?_
    unfold FloatTfidf.Rel at hr
    generalize value (make false (rnd (fmt F32) q).natAbs : F32) = v at hr ⊢
    have hr' : |v - q| ≤ 1 / 2 ^ 24 * q := by
      refine (Rat.cast_le (K := ℝ)).1 ?_
      push_cast at hr ⊢
      exact hr
    refine le_trans hr' ?_
    nlinarith

theorem two_float : Finite (ofInt 2 : F32) ∧ value (ofInt 2 : F32) = 2 ∧ (key (ofInt 2 : F32)).natAbs + 1 < (fmt F32).inf := by
  have := ofInt_exact (T := F32) (z := 2) (by decide +kernel)
  refine ⟨this.1, ?_, by decide +kernel⟩
  rw [this.2]; norm_num

/-- There is only one nearest number. -/
theorem nearest_unique {x y : F32} {q : ℚ} (h0 : 0 ≤ q) (h1 : q ≤ 1) (hx : IsNearest q x) (hy : IsNearest q y) :
    value x = value y := by
  have near : ∀ z : F32, IsNearest q z → (fmt F32).Near (|q| * 2 ^ (fmt F32).scale) (key z).natAbs := by
    intro z hz
    have hb := abs_le.1 (bound_near h0 h1 hz)
    have hp : (1 : ℚ) / 2 ^ 24 ≤ 1 := by norm_num
    have hu : value z ≤ value (ofInt 2 : F32) := by rw [two_float.2.1]; linarith [hb.2]
    have hl : value (negate (ofInt 2) : F32) ≤ value z := by
      have : value (negate (ofInt 2) : F32) = -2 := by
        have := two_float.2.1
        rw [value_key] at this ⊢
        rw [show key (negate (ofInt 2) : F32) = - key (ofInt 2 : F32) by decide +kernel, fval_neg, this]
      rw [this]; linarith [hb.1]
    rw [value_key, value_key, fval_le] at hu hl
    rw [show key (negate (ofInt 2) : F32) = - key (ofInt 2 : F32) by decide +kernel] at hl
    have h2 := two_float.2.2
    have := (shape F32).near_of hz (by
      show pat z < (fmt F32).inf - 1
      rw [← key_natAbs]
      generalize key (ofInt 2 : F32) = u at hu hl h2
      generalize (fmt F32).inf = I at h2 ⊢
      omega)
    rw [key_natAbs]
    exact this
  have he := (near x hx).unique (near y hy)
  have hv : value x = value y ∨ value x = - value y := by
    rw [value_key, value_key]
    rcases Int.natAbs_eq_natAbs_iff.1 he with h | h
    · left; rw [h]
    · right; rw [h, fval_neg]
  rcases hv with h | h
  · exact h
  · have e := le_antisymm (hx.least y hy.finite) (hy.least x hx.finite)
    rw [h] at e
    rcases abs_eq_abs.1 e with e | e
    · linarith
    · have hq : q = 0 := by linarith
      have := hx.least (zero false) (by rw [finite_key, key_zero]; decide +kernel)
      rw [value_zero, hq, sub_zero, sub_zero, abs_zero] at this
      have hx0 := abs_eq_zero.1 (le_antisymm this (abs_nonneg _))
      rw [hx0] at h ⊢
      linarith

/-- The document frequency of a term as a fraction of the documents. -/
def share (c : DocConfig F32) (docs : List Str) (t : Str) : ℚ := (docFreq c docs t : ℚ) / docs.length

/-- A bound that is no number, or a number with the property. -/
def Bound (x : F32) (p : ℚ → Prop) : Prop := IsNaN x ∨ (Finite x ∧ p (value x))

theorem lt_bound {x y : F32} (hx : Finite x) (hy : IsNaN y ∨ Finite y) :
    (lt x y = false ↔ Bound y fun b => b ≤ value x) ∧ (lt y x = false ↔ Bound y fun b => value x ≤ b) := by
  rcases hy with hn | hf
  · have : isNaN y = true := (isNaN_iff y).2 hn
    refine ⟨⟨fun _ => Or.inl hn, fun _ => ?_⟩, ⟨fun _ => Or.inl hn, fun _ => ?_⟩⟩ <;> unfold lt <;> rw [this] <;> simp
  · have hnn : ¬ IsNaN y := fun h => by
      have := (isNaN_iff y).2 h
      rw [FloatArith.Finite.not_nan hf] at this
      cases this
    refine ⟨?_, ?_⟩
    · rw [← Bool.not_eq_true, lt_iff hx hf, not_lt]
      exact ⟨fun h => Or.inr ⟨hf, h⟩, fun h => by rcases h with h | h; exacts [absurd h hnn, h.2]⟩
    · rw [← Bool.not_eq_true, lt_iff hf hx, not_lt]
      exact ⟨fun h => Or.inr ⟨hf, h⟩, fun h => by rcases h with h | h; exacts [absurd h hnn, h.2]⟩

/-- Bounds that the constructor accepts are numbers between 0 and 1, or NaN. -/
theorem C93_accepted (c : DocConfig F32) (hc : c.check documentOps = .ok ()) :
    (Bound c.minDf fun b => 0 ≤ b ∧ b ≤ 1) ∧ Bound c.maxDf fun b => 0 ≤ b ∧ b ≤ 1 := by
  have key : ∀ x : F32, lt x (zero false) = false → lt (ofInt 1) x = false → Bound x fun b => 0 ≤ b ∧ b ≤ 1 := by
    intro x h1 h2
    have hz : Finite (zero false : F32) := by rw [finite_key, key_zero]; decide +kernel
    have hx : IsNaN x ∨ Finite x := by
      rcases hn : isNaN x with _ | _
      · right
        unfold lt at h1 h2
        rw [hn, FloatArith.Finite.not_nan hz, key_zero] at h1
        rw [hn, FloatArith.Finite.not_nan one_float.1] at h2
        simp only [Bool.not_false, Bool.true_and, decide_eq_false_iff_not, not_lt] at h1 h2
        have h3 := (finite_key _).1 one_float.1
        rw [finite_key]
        omega
      · left; exact (isNaN_iff x).1 hn
    have e1 := (lt_bound hz hx).2.1 h1
    have e2 := (lt_bound one_float.1 hx).1.1 h2
    rw [value_zero] at e1
    rw [one_float.2] at e2
    rcases e1 with e1 | e1
    · exact Or.inl e1
    · rcases e2 with e2 | e2
      · exact Or.inl e2
      · exact Or.inr ⟨e1.1, e1.2, e2.2⟩
  unfold DocConfig.check at hc
  repeat' split at hc
  all_goals try cases hc
  rename_i h3 h4 _ _ _ _
  simp only [Bool.or_eq_true, not_or, Bool.not_eq_true] at h3 h4
  exact ⟨key _ h3.1 h3.2, key _ h4.1 h4.2⟩

/-- The quotient of C44 for a term that occurs in some of up to 2²⁴ documents. -/
theorem share_facts (c : DocConfig F32) (docs : List Str) (t : Str) (h1 : 1 ≤ docFreq c docs t) (hn : docs.length ≤ 2 ^ 24) :
    ∃ r : F32, (WithinDf documentOps c docs t ↔ lt r c.minDf = false ∧ lt c.maxDf r = false) ∧ Finite r ∧
      key r = rnd (fmt F32) (share c docs t) ∧ |value r - share c docs t| ≤ 1 / 2 ^ 24 * share c docs t ∧
      0 < share c docs t ∧ share c docs t ≤ 1 := by
  have hle := docFreq_le c docs t
  have hr := ratio_near h1 hle hn
  have hdq : (1 : ℚ) ≤ docFreq c docs t := by exact_mod_cast h1
  have hdn : (docFreq c docs t : ℚ) ≤ docs.length := by exact_mod_cast hle
  refine ⟨documentOps.ratio (UInt32.ofNat (docFreq c docs t)) (UInt32.ofNat docs.length), Iff.rfl, hr.1,
    key_small hle (h1.trans hle) hn, hr.2, ?_, ?_⟩
  · exact div_pos (by linarith) (by linarith)
  · exact (div_le_one (by linarith)).2 hdn

/-- **C93** For up to 2²⁴ documents: a term whose share of the documents is within the bounds is never dropped because of them,
and one that is kept is within the bounds up to one part in 2²⁴.  A bound that is NaN is no bound. -/
theorem C93_bounds_partial (c : DocConfig F32) (hc : c.check documentOps = .ok ()) (docs : List Str) (t : Str)
    (h1 : 1 ≤ docFreq c docs t) (hn : docs.length ≤ 2 ^ 24) :
    ((Bound c.minDf fun b => b ≤ share c docs t) → (Bound c.maxDf fun b => share c docs t ≤ b) → WithinDf documentOps c docs t) ∧
    (WithinDf documentOps c docs t →
      (Bound c.minDf fun b => b ≤ share c docs t * (1 + 1 / 2 ^ 24)) ∧
      Bound c.maxDf fun b => share c docs t * (1 - 1 / 2 ^ 24) ≤ b) := by
  obtain ⟨r, hw, hf, hk, he, h0, hs1⟩ := share_facts c docs t h1 hn
  obtain ⟨a1, a2⟩ := C93_accepted c hc
  have num : ∀ {x : F32} {p : ℚ → Prop}, Bound x p → IsNaN x ∨ Finite x := fun h => h.imp id And.left
  rw [hw, (lt_bound hf (num a1)).1, (lt_bound hf (num a2)).2]
  refine ⟨fun b1 b2 => ⟨b1.imp id fun h => ⟨h.1, ?_⟩, b2.imp id fun h => ⟨h.1, ?_⟩⟩,
    fun h => ⟨h.1.imp id fun h => ⟨h.1, ?_⟩, h.2.imp id fun h => ⟨h.1, ?_⟩⟩⟩
  · show value c.minDf ≤ value r
    rw [value_key, value_key, fval_le, hk, ← rnd_value h.1]
    exact rnd_mono Lawful.good h.2
  · show value r ≤ value c.maxDf
    rw [value_key, value_key, fval_le, hk, ← rnd_value h.1]
    exact rnd_mono Lawful.good h.2
  · have := (abs_le.1 he).2
    refine le_trans h.2 ?_
    linarith
  · have := (abs_le.1 he).1
    refine le_trans ?_ h.2
    linarith

/-- **C93** Bounds that are written as fractions: if the number of documents times the denominator of each bound is less than
2²³, exactly the terms are within the bounds whose share of the documents is. -/
theorem C93_fractions (c : DocConfig F32) (lo hi : ℚ) (hlo : 0 ≤ lo ∧ lo ≤ 1) (hhi : 0 ≤ hi ∧ hi ≤ 1)
    (hmin : IsNearest lo c.minDf) (hmax : IsNearest hi c.maxDf) (docs : List Str)
    (hd1 : docs.length * lo.den < 2 ^ 23) (hd2 : docs.length * hi.den < 2 ^ 23)
    (t : Str) (h1 : 1 ≤ docFreq c docs t) :
    WithinDf documentOps c docs t ↔ lo ≤ share c docs t ∧ share c docs t ≤ hi := by
  have hlen : 1 ≤ docs.length := h1.trans (docFreq_le c docs t)
  have hn : docs.length ≤ 2 ^ 24 := by
    have := Nat.le_mul_of_pos_right docs.length lo.den_pos
    have : 2 ^ 23 ≤ 2 ^ 24 := by norm_num
    omega
  obtain ⟨r, hw, hf, hk, he, h0, hs1⟩ := share_facts c docs t h1 hn
  have hr := nearest_of_key hk hf
  rw [hw]
  -- different fractions are far apart
  have gap : ∀ q : ℚ, docs.length * q.den < 2 ^ 23 → q ≠ share c docs t → 1 / 2 ^ 23 < |q - share c docs t| := by
    intro q hq hne
    have hq' : ((docs.length * q.den : Nat) : ℚ) < ((2 ^ 23 : Nat) : ℚ) := by exact_mod_cast hq
    have hL : (0 : ℚ) < docs.length := by exact_mod_cast hlen
    have hD : (0 : ℚ) < q.den := by exact_mod_cast q.den_pos
    have e : q - share c docs t = ((q.num * docs.length - docFreq c docs t * q.den : Int) : ℚ) / (docs.length * q.den) := by
      unfold share
      conv_lhs => rw [← Rat.num_div_den q]
      push_cast
      field_simp
    have hz : (q.num * docs.length - docFreq c docs t * q.den : Int) ≠ 0 := by
      intro h
      rw [h, Int.cast_zero, zero_div, sub_eq_zero] at e
      exact hne e
    rw [e, abs_div, abs_of_pos (mul_pos hL hD), div_lt_div_iff₀ (by positivity) (mul_pos hL hD), one_mul]
    have h2 : (1 : ℚ) ≤ |((q.num * docs.length - docFreq c docs t * q.den : Int) : ℚ)| := by
      rw [← Int.cast_abs]
      exact_mod_cast Int.one_le_abs hz
    push_cast at hq' h2 ⊢
    refine lt_of_lt_of_le hq' ?_
    exact le_mul_of_one_le_left (by positivity) h2
  have he' : |value r - share c docs t| ≤ 1 / 2 ^ 24 := by
    refine le_trans he ?_
    nlinarith
  have half : (1 : ℚ) / 2 ^ 23 = 1 / 2 ^ 24 + 1 / 2 ^ 24 := by norm_num
  have lower : ∀ {x : F32} {q : ℚ}, 0 ≤ q → q ≤ 1 → IsNearest q x → docs.length * q.den < 2 ^ 23 →
      (value x ≤ value r ↔ q ≤ share c docs t) ∧ (value r ≤ value x ↔ share c docs t ≤ q) := by
    intro x q hq0 hq1 hx hq
    by_cases heq : q = share c docs t
    · subst heq
      have := nearest_unique hq0 hq1 hx hr
      rw [this]
      simp
    · have hg := gap q hq heq
      have hb := abs_le.1 (bound_near hq0 hq1 hx)
      have hb' := abs_le.1 he'
      rw [half] at hg
      rcases lt_abs.1 hg with hg | hg
      · exact ⟨⟨fun h => by linarith, fun h => by linarith⟩, ⟨fun h => by linarith, fun h => by linarith⟩⟩
      · exact ⟨⟨fun h => by linarith, fun h => by linarith⟩, ⟨fun h => by linarith, fun h => by linarith⟩⟩
  rw [← (lower hlo.1 hlo.2 hmin hd1).1, ← (lower hhi.1 hhi.2 hmax hd2).2, ← Bool.not_eq_true, ← Bool.not_eq_true,
    lt_iff hf hmin.finite, lt_iff hmax.finite hf, not_lt, not_lt]

/-- **C93 (training)** Training with bounds written as fractions: the vocabulary is that of C44 where "within the bounds" means
that the exact share of the documents is between the fractions. -/
theorem C93_training (it : IterOrder Str UInt32) (nth : NthElement) (c : DocConfig F32) (hc : c.check documentOps = .ok ())
    (lo hi : ℚ) (hlo : 0 ≤ lo ∧ lo ≤ 1) (hhi : 0 ≤ hi ∧ hi ≤ 1)
    (hmin : IsNearest lo c.minDf) (hmax : IsNearest hi c.maxDf) (hk : ∀ k, c.topK = some k → k.toNat < 2 ^ 31)
    (col cap : Nat) (hcap : 0 < cap) (batches : List (List Str)) (hb : NoEmptyBatch batches)
    (maps : AnnotationMaps DocStats) (hcol : col < maps.length)
    (hnone : getAnnotation (fun _ => true) maps col "DocumentStatisticsEstimator" = .ok none)
    (hp : ∀ d ∈ batches.flatten.take cap, ∃ ts, c.text.tokens d = .ok ts)
    (hd1 : (batches.flatten.take cap).length * lo.den < 2 ^ 23) (hd2 : (batches.flatten.take cap).length * hi.den < 2 ^ 23) :
    ∃ vocab index ks,
      IsVocabulary (docFreq c (batches.flatten.take cap))
        (fun t => lo ≤ share c (batches.flatten.take cap) t ∧ share c (batches.flatten.take cap) t ≤ hi)
        (c.topK.map UInt32.toNat) vocab ∧
      IndexMapSpec vocab (c.vocabulary.getD UMap.empty) index ks ∧
      (vocab = [] →
        trainEstimator (docStatsPolicy it nth documentOps c) (docStatsConfig col) cap ⟨UMap.empty, 0⟩ batches maps
          = (.error .invalidArgument, maps)) ∧
      (vocab ≠ [] → ∃ stats maps',
        trainEstimator (docStatsPolicy it nth documentOps c) (docStatsConfig col) cap ⟨UMap.empty, 0⟩ batches maps
          = (.ok (), maps') ∧
        getAnnotation (fun _ => true) maps' col "DocumentStatisticsEstimator" = .ok (some stats) ∧
        stats.total.toNat = (batches.flatten.take cap).length ∧
        ∀ t fi, stats.terms.find? t = some fi ↔
          t ∈ vocab ∧ fi.freq.toNat = docFreq c (batches.flatten.take cap) t ∧ index.find? t = some fi.index) := by
  have hn : (batches.flatten.take cap).length < 2 ^ 32 := by
    have := Nat.le_mul_of_pos_right (batches.flatten.take cap).length lo.den_pos
    have : 2 ^ 23 ≤ 2 ^ 32 := by norm_num
    omega
  obtain ⟨vocab, index, ks, hv, rest⟩ := C44_document_statistics it nth documentOps C93_floats c hc hk col cap hcap batches hb
    maps hcol hnone hp hn
  have hw : ∀ t, 1 ≤ docFreq c (batches.flatten.take cap) t → (WithinDf documentOps c (batches.flatten.take cap) t ↔ _) :=
    fun t ht => C93_fractions c lo hi hlo hhi hmin hmax _ hd1 hd2 t ht
  refine ⟨vocab, index, ks, ⟨hv.nodup, fun t ht => ?_, hv.size, fun t h1 h2 h3 => hv.dropped t h1 ((hw t h1).2 h2) h3⟩, rest⟩
  have := hv.only t ht
  exact ⟨this.1, (hw t this.1).1 this.2⟩

/-- **C93 (refuted)** With more documents than 2²⁴ a term whose share is within the bounds can be dropped: 16777217 of 16777219
documents are more than 1 - 2⁻²³, but 16777217 is converted to 16777216 and 16777219 to 16777220. -/
theorem C93_large_refuted (c : DocConfig F32) (hmin : c.minDf = ⟨0x3F7FFFFE⟩) (docs : List Str) (t : Str)
    (hn : docs.length = 16777219) (hd : docFreq c docs t = 16777217) :
    value c.minDf < share c docs t ∧ ¬ WithinDf documentOps c docs t := by
  constructor
  · have hv : value c.minDf = 8388607 / 8388608 := by
      have h1 : signedUnits (⟨0x3F7FFFFE⟩ : F32) = 8388607 * 2 ^ 126 := by decide +kernel
      have h2 : (fmt F32).scale = 149 := by decide +kernel
      rw [hmin, value_units, h1, h2]
      norm_num
    rw [hv]
    unfold share
    rw [hn, hd]
    norm_num
  · unfold WithinDf
    rw [hn, hd, hmin]
    intro h
    have := h.1
    revert this
    decide +kernel

/-! ### Concrete cases -/

/-- At least a tenth, at most one half of the documents: `0.1f` and `0.5f`. -/
private def tenth : DocConfig F32 := ⟨⟨.word, none, 1, 1⟩, none, none, none, ⟨0x3DCCCCCD⟩, ⟨0x3F000000⟩⟩

private theorem nearest_tenth : IsNearest (1 / 10) (⟨0x3DCCCCCD⟩ : F32) := by
  have e : (⟨0x3DCCCCCD⟩ : F32) = div (ofInt 1) (ofInt 10) := by decide +kernel
  have h10 := ofInt_exact (T := F32) (z := 10) (by decide +kernel)
  rw [e]
  have hk := key_div one_float.1 h10.1 (by rw [h10.2]; norm_num)
  rw [one_float.2, h10.2] at hk
  have := nearest_of_key hk (by rw [finite_key]; decide +kernel)
  norm_num at this ⊢
  exact this

private theorem nearest_half : IsNearest (1 / 2) (⟨0x3F000000⟩ : F32) := by
  have e : (⟨0x3F000000⟩ : F32) = div (ofInt 1) (ofInt 2) := by decide +kernel
  rw [e]
  have hk := key_div one_float.1 two_float.1 (by rw [two_float.2.1]; norm_num)
  rw [one_float.2, two_float.2.1] at hk
  exact nearest_of_key hk (by rw [finite_key]; decide +kernel)

/-- Ten documents: "a" nine times and "b" once.  "b" is in exactly a tenth of them and is within the bounds, "a" is not. -/
private def ten : List Str := ⟨[98]⟩ :: List.replicate 9 ⟨[97]⟩

example : tenth.check documentOps = .ok () ∧ ten.length * (1 / 10 : ℚ).den < 2 ^ 23 ∧ ten.length * (1 / 2 : ℚ).den < 2 ^ 23 ∧
    WithinDf documentOps tenth ten ⟨[98]⟩ ∧ ¬ WithinDf documentOps tenth ten ⟨[97]⟩ := by
  have hb : docFreq tenth ten ⟨[98]⟩ = 1 := by decide +kernel
  have ha : docFreq tenth ten ⟨[97]⟩ = 9 := by decide +kernel
  have hl : ten.length = 10 := rfl
  have h1 : ten.length * (1 / 10 : ℚ).den < 2 ^ 23 := by rw [hl]; decide +kernel
  have h2 : ten.length * (1 / 2 : ℚ).den < 2 ^ 23 := by rw [hl]; decide +kernel
  refine ⟨by decide +kernel, h1, h2, ?_, ?_⟩
  · rw [C93_fractions tenth _ _ (by norm_num) (by norm_num) nearest_tenth nearest_half ten h1 h2 _ (by rw [hb])]
    unfold share
    rw [hb, hl]
    norm_num
  · rw [C93_fractions tenth _ _ (by norm_num) (by norm_num) nearest_tenth nearest_half ten h1 h2 _ (by rw [ha]; norm_num)]
    unfold share
    rw [ha, hl]
    norm_num

/-- Bounds that are NaN are accepted. -/
example : (⟨⟨.word, none, 1, 1⟩, none, none, none, ⟨0x7FC00000⟩, ⟨0x7FC00000⟩⟩ : DocConfig F32).check documentOps = .ok () ∧
    IsNaN (⟨0x7FC00000⟩ : F32) := ⟨by decide +kernel, (isNaN_iff _).1 (by decide +kernel)⟩

/-- The documents of `C93_large_refuted`: `n` times "a" and `m` times "b". -/
private theorem many (n m : Nat) (c : DocConfig F32) (hc : c.text = ⟨.word, none, 1, 1⟩) (hd : c.decorator = none) :
    docFreq c (List.replicate n ⟨[97]⟩ ++ List.replicate m ⟨[98]⟩) ⟨[97]⟩ = n := by
  have ha : c.termsOf ⟨[97]⟩ = [⟨[97]⟩] := by
    unfold DocConfig.termsOf
    rw [hc, hd]
    decide +kernel
  have hb : c.termsOf ⟨[98]⟩ = [⟨[98]⟩] := by
    unfold DocConfig.termsOf
    rw [hc, hd]
    decide +kernel
  unfold docFreq
  rw [List.countP_append, List.countP_replicate, List.countP_replicate, ha, hb]
  simp

example : ∃ (c : DocConfig F32) (docs : List Str) (t : Str), c.check documentOps = .ok () ∧ c.minDf = ⟨0x3F7FFFFE⟩ ∧
    docs.length = 16777219 ∧ docFreq c docs t = 16777217 :=
  ⟨⟨⟨.word, none, 1, 1⟩, none, none, none, ⟨0x3F7FFFFE⟩, ⟨0x3F800000⟩⟩, _, ⟨[97]⟩, by decide +kernel, rfl,
    by rw [List.length_append, List.length_replicate, List.length_replicate], many 16777217 2 _ rfl rfl⟩

end Feat.FloatDocs
