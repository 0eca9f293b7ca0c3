import Verif.Model.CountBits
import Verif.Props.FloatTfidf
import Verif.Props.Vectorizer
/-
C45 on bit patterns: the count vectorizer in floating point arithmetic computes what Model/Vectorizer says with natural numbers.
-/
namespace Feat.FloatTfidf
open Feat.FloatText Feat.FloatArith

/-- The pattern of the `float` nearest to a natural number. -/
theorem round_mag (F : Fmt) (hf : F.frac = 23) (n : Nat) (hn : 2 ^ 24 ≤ n) :
    F.mag (F.nearest n 1) = roundFloat n * 2 ^ F.scale ∧ roundFloat n ≤ 2 * n := by
  have hn0 : n ≠ 0 := by omega
  obtain ⟨e, he, h0⟩ : ∃ e, n.log2 = e + 23 ∧ e ≠ 0 := by
    have : 24 ≤ n.log2 := (Nat.le_log2 hn0).2 hn
    exact ⟨n.log2 - 23, by omega, by omega⟩
  have hlo : 2 ^ (e + 23) ≤ n := he ▸ Nat.log2_self_le hn0
  have hhi : n < 2 ^ (e + 24) := by have := Nat.lt_log2_self (n := n); rw [he] at this; exact this
  have hE : 0 < 2 ^ e := by positivity
  have hS : 0 < 2 ^ F.scale := by positivity
  have hlog : Nat.log2 (n * 2 ^ F.scale / 1) = e + 23 + F.scale := by
    rw [Nat.div_one, Nat.log2_eq_iff (by positivity), pow_add 2 (e + 23), show e + 23 + F.scale + 1 = (e + 24) + F.scale by omega,
      pow_add 2 (e + 24)]
    exact ⟨Nat.mul_le_mul_right _ hlo, Nat.mul_lt_mul_of_pos_right hhi hS⟩
  have hq1 : 2 ^ 23 ≤ n / 2 ^ e := by
    rw [Nat.le_div_iff_mul_le hE, ← pow_add, Nat.add_comm 23]; exact hlo
  have hq2 : n / 2 ^ e < 2 ^ 24 := by
    rw [Nat.div_lt_iff_lt_mul hE, ← pow_add, Nat.add_comm 24]; exact hhi
  have hdiv : n * 2 ^ F.scale / (1 * 2 ^ (e + 23 + F.scale - F.frac)) = n / 2 ^ e := by
    rw [hf, show e + 23 + F.scale - 23 = e + F.scale by omega, Nat.one_mul, pow_add, Nat.mul_div_mul_right _ _ hS]
  have hmod : n * 2 ^ F.scale % (1 * 2 ^ (e + 23 + F.scale - F.frac)) = n % 2 ^ e * 2 ^ F.scale := by
    rw [hf, show e + 23 + F.scale - 23 = e + F.scale by omega, Nat.one_mul, pow_add, Nat.mul_mod_mul_right]
  have hden : 1 * 2 ^ (e + 23 + F.scale - F.frac) = 2 ^ e * 2 ^ F.scale := by
    rw [hf, show e + 23 + F.scale - 23 = e + F.scale by omega, Nat.one_mul, pow_add]
  have hn' := Nat.div_add_mod n (2 ^ e)
  have hmlt := Nat.mod_lt n hE
  have hevenE : e ≠ 0 → 2 ^ e / 2 * 2 = 2 ^ e := by
    intro h
    obtain ⟨k, rfl⟩ := Nat.exists_eq_succ_of_ne_zero h
    rw [Nat.pow_succ, Nat.mul_div_cancel _ (by norm_num)]
  have hround : roundEven (n * 2 ^ F.scale) (1 * 2 ^ (e + 23 + F.scale - F.frac)) * 2 ^ e = roundFloat n ∧
      (roundEven (n * 2 ^ F.scale) (1 * 2 ^ (e + 23 + F.scale - F.frac)) = n / 2 ^ e ∨
        roundEven (n * 2 ^ F.scale) (1 * 2 ^ (e + 23 + F.scale - F.frac)) = n / 2 ^ e + 1) := by
    have hrf : roundFloat n = if n % 2 ^ e < 2 ^ e / 2 then n / 2 ^ e * 2 ^ e
        else if 2 ^ e / 2 < n % 2 ^ e then (n / 2 ^ e + 1) * 2 ^ e
        else if n / 2 ^ e % 2 = 0 then n / 2 ^ e * 2 ^ e else (n / 2 ^ e + 1) * 2 ^ e := by
      unfold roundFloat
      rw [if_neg (by omega), he, show e + 23 - 23 = e by omega]
    rw [hrf]
    unfold roundEven
    rw [hdiv, hmod, hden]
    simp only [← Nat.mul_assoc, Nat.mul_lt_mul_right hS]
    have h2 := hevenE h0
    clear hrf hdiv hmod hden hlog hevenE hlo hhi
    generalize n % 2 ^ e = r at *
    generalize n / 2 ^ e = q at *
    generalize 2 ^ e = E at *
    split_ifs <;> first
      | exact ⟨rfl, .inl rfl⟩
      | exact ⟨rfl, .inr rfl⟩
      | (exfalso; omega)
  constructor
  · unfold Fmt.nearest
    rw [hlog]
    obtain ⟨h1, h2⟩ := hround
    obtain ⟨Q, hQ⟩ : ∃ Q, roundEven (n * 2 ^ F.scale) (1 * 2 ^ (e + 23 + F.scale - F.frac)) = Q := ⟨_, rfl⟩
    rw [hQ] at h1 h2 ⊢
    rw [F.mag_line _ Q (by rw [hf]; omega) (.inr (by rw [hf]; omega)), ← h1, hf, show e + 23 + F.scale - 23 = e + F.scale by omega,
      pow_add, Nat.mul_assoc]
  · rw [← hround.1]
    have hb : roundEven (n * 2 ^ F.scale) (1 * 2 ^ (e + 23 + F.scale - F.frac)) ≤ n / 2 ^ e + 1 := by
      rcases hround.2 with h | h <;> omega
    have h3 := Nat.mul_le_mul_right (2 ^ e) hb
    have h4 : n / 2 ^ e * 2 ^ e ≤ n := Nat.div_mul_le_self _ _
    have h5 : 2 ^ e ≤ n := le_trans (Nat.pow_le_pow_right (by norm_num) (by omega)) hlo
    rw [Nat.add_mul] at h3
    omega

theorem frac32 : (fmt F32).frac = 23 := by decide
theorem frac64 : (fmt F64).frac = 52 := by decide

/-- A count as `float`. -/
theorem count_value (n : Nat) (hn : n < 2 ^ 32) :
    Finite (FloatArith.cast (mul (ofInt (n : Int) : F64) (ofInt 1)) : F32) ∧
    value (FloatArith.cast (mul (ofInt (n : Int) : F64) (ofInt 1)) : F32) = roundFloat n := by
  obtain ⟨f1, v1⟩ := ofInt_exact (T := F64) (z := (n : Int)) (by
    rw [frac64, Int.natAbs_natCast]
    exact le_of_lt (lt_trans hn (by norm_num)))
  obtain ⟨f2, v2⟩ := ofInt_exact (T := F64) (z := 1) (by rw [frac64]; norm_num)
  have hm : key (mul (ofInt (n : Int) : F64) (ofInt 1)) = key (ofInt (n : Int) : F64) := by
    rw [key_mul f1 f2, v2, Int.cast_one, mul_one, rnd_value f1]
  have f3 : Finite (mul (ofInt (n : Int) : F64) (ofInt 1)) := by
    rw [finite_key, hm, ← finite_key]; exact f1
  have v3 : value (mul (ofInt (n : Int) : F64) (ofInt 1)) = n := by
    rw [value_key, hm, ← value_key, v1, Int.cast_natCast]
  have hk : key (FloatArith.cast (mul (ofInt (n : Int) : F64) (ofInt 1)) : F32) = key (ofInt (n : Int) : F32) := by
    rw [key_cast f3, v3, key_ofInt, Int.cast_natCast]
  rw [finite_key, hk, ← finite_key, value_key, hk, ← value_key]
  by_cases h24 : n ≤ 2 ^ 24
  · rw [C45_small_counts n h24]
    have := ofInt_exact (T := F32) (z := (n : Int)) (by rw [frac32, Int.natAbs_natCast]; omega)
    rwa [Int.cast_natCast] at this
  · have hr := round_mag (fmt F32) frac32 n (by omega)
    have hrn : rnd (fmt F32) (n : ℚ) = (min ((fmt F32).nearest n 1) (fmt F32).inf : Nat) := by
      unfold rnd
      rw [if_neg (by have : (0 : ℚ) ≤ n := by positivity
                     linarith), Rat.num_natCast, Rat.den_natCast, Int.natAbs_natCast]
    have hfin : (rnd (fmt F32) (n : ℚ)).natAbs < (fmt F32).inf := by
      apply rnd_finite
      rw [abs_of_nonneg (by positivity)]
      have h1 : (n : ℚ) < 2 ^ 32 := by exact_mod_cast hn
      have h2 : (2 : ℚ) ^ 32 < tooLarge F32 := by
        have := tooLarge_float
        linarith
      linarith
    have hki : key (ofInt (n : Int) : F32) = rnd (fmt F32) (n : ℚ) := by rw [key_ofInt, Int.cast_natCast]
    refine ⟨by rw [finite_key, hki]; exact hfin, ?_⟩
    rw [value_key, hki, hrn] at *
    rw [Int.natAbs_natCast] at hfin
    have hmin : min ((fmt F32).nearest n 1) (fmt F32).inf = (fmt F32).nearest n 1 := by
      rcases Nat.le_total ((fmt F32).nearest n 1) (fmt F32).inf with h | h
      · exact Nat.min_eq_left h
      · rw [Nat.min_eq_right h] at hfin; exact absurd hfin (Nat.lt_irrefl _)
    rw [hmin, fval_nat, hr.1]
    push_cast
    rw [mul_div_cancel_right₀ _ (by positivity)]

theorem divided {x : F32} (hx : Finite x) : Finite (div x (ofInt 1)) ∧ value (div x (ofInt 1)) = value x := by
  obtain ⟨f, v⟩ := ofInt_exact (T := F32) (z := 1) (by rw [frac32]; norm_num)
  have hk : key (div x (ofInt 1)) = key x := by
    rw [key_div hx f (by rw [v]; norm_num), v, Int.cast_one, div_one, rnd_value hx]
  exact ⟨by rw [finite_key, hk, ← finite_key]; exact hx, by rw [value_key, hk, ← value_key]⟩

theorem cast_count {x : F32} (hx : Finite x) {n : Nat} (h : value x = n) : castUInt32 x = castCount n := by
  have hu : units x = n * 2 ^ (fmt F32).scale := by
    have h1 := abs_value x
    rw [h, abs_of_nonneg (by positivity), eq_div_iff (by positivity)] at h1
    exact_mod_cast h1.symm
  have hdiv : units x / 2 ^ (fmt F32).scale = n := by
    rw [hu, Nat.mul_div_cancel _ (by positivity)]
  unfold castUInt32 castCount
  rw [if_neg (by simp [Finite.not_nan hx, Finite.not_inf hx]), hdiv]
  rw [if_neg]
  intro hc
  rw [Bool.and_eq_true, decide_eq_true_eq] at hc
  have h1 := value_signed x
  rw [hc.1, h] at h1
  have h2 : (0 : ℚ) < (units x : ℚ) / 2 ^ (fmt F32).scale := by
    have : 0 < units x := by
      rw [hu]; exact Nat.mul_pos (Nat.pos_of_ne_zero hc.2) (by positivity)
    have : (0 : ℚ) < units x := by exact_mod_cast this
    positivity
  have h3 : (0 : ℚ) ≤ n := by positivity
  simp only [signOf] at h1
  norm_num at h1
  linarith

/-- **C45 (on bits)** For every document, with any number of tokens, the count vectorizer in the machine's arithmetic — counts as
`double`, multiplied by 1, as `float`, divided by 1, cut to a 32-bit number — gives what the other theorems about C45 say about
`countExecute`, exceptions and undefined behaviour included; the logarithm is not used. -/
theorem C45_bits (log : F64 → F64) (t : Tfidf) (hnorm : t.norm = .none) (huse : t.useIdf = false)
    (hsub : t.sublinearTf = false) (doc : Str) : countBits log t doc = countExecute t doc := by
  unfold countBits countExecute Tfidf.execute
  rcases t.text.executeTokens t.lowercase doc with e | ts
  · rfl
  simp only
  rw [Tfidf.loop_eq (floatOps log) t (fun _ => ofInt 1) _ (by intro e _ _; simp [Tfidf.idf, huse, floatOps]),
    Tfidf.loop_eq countOps t (fun _ => 1) _ (by intro e _ _; simp [Tfidf.idf, huse, countOps])]
  simp only [List.nil_append, Tfidf.divisor, hnorm]
  -- both are images of the counts
  let base : List (UInt32 × UInt32) := t.found (fun _ n => if t.binary then 1 else n) (countTokens ts)
  obtain ⟨fv, hfv⟩ : ∃ fv : UInt32 → F32, ∀ n : UInt32,
      fv n = div (FloatArith.cast (mul (ofInt (n.toNat : Int) : F64) (ofInt 1))) (ofInt 1) := ⟨_, fun _ => rfl⟩
  have hfound : ∀ {Fl : Type} (w : Str → UInt32 → Fl) (g : UInt32 → Fl), (∀ s n, w s n = g (if t.binary then 1 else n)) →
      t.found w (countTokens ts) = base.map fun r => (r.1, g r.2) := by
    intro Fl w g hw
    show (countTokens ts).filterMap _ = ((countTokens ts).filterMap _).map _
    rw [List.map_filterMap]
    congr 1
    funext e
    rw [Option.map_map]
    congr 1
    funext i
    simp [hw]
  rw [hfound _ (fun n => FloatArith.cast (mul (ofInt (n.toNat : Int) : F64) (ofInt 1))) (by
      intro s n
      cases hb : t.binary <;> simp [Tfidf.tf, floatOps, hb, hsub]),
    hfound _ (fun n => roundFloat n.toNat) (by
      intro s n
      cases hb : t.binary <;> simp [Tfidf.tf, countOps, hb, hsub])]
  simp only [List.map_map]
  have hsort : ∀ {Fl : Type} (g : UInt32 → Fl), sortByIndex (base.map fun r => (⟨g r.2, r.1.toUInt64⟩ : ValueEncoding Fl))
      = (sortByIndex (base.map fun r => (⟨r.2, r.1.toUInt64⟩ : ValueEncoding UInt32))).map fun v => ⟨g v.value, v.index⟩ := by
    intro Fl g
    unfold sortByIndex
    rw [List.map_insertionSort (r := fun a b : ValueEncoding UInt32 => a.index.toNat ≤ b.index.toNat)
      (s := fun a b : ValueEncoding Fl => a.index.toNat ≤ b.index.toNat) (fun v => ⟨g v.value, v.index⟩) _ (by
        intro a _ b _
        rfl), List.map_map]
    rfl
  have e1 : base.map ((fun r => (⟨(floatOps log).divF r.2 (floatOps log).oneF, r.1.toUInt64⟩ : ValueEncoding F32)) ∘
      fun r => (r.1, FloatArith.cast (mul (ofInt (r.2.toNat : Int) : F64) (ofInt 1))))
      = base.map fun r => ⟨fv r.2, r.1.toUInt64⟩ := by
    simp only [Function.comp_def, floatOps, hfv]
  have e2 : base.map ((fun r => (⟨countOps.divF r.2 countOps.oneF, r.1.toUInt64⟩ : ValueEncoding Nat)) ∘
      fun r => (r.1, roundFloat r.2.toNat))
      = base.map fun r => ⟨roundFloat r.2.toNat, r.1.toUInt64⟩ := by
    simp [countOps, Function.comp_def]
  rw [e1, e2, hsort fv, hsort fun n => roundFloat n.toNat]
  generalize sortByIndex (base.map fun r => (⟨r.2, r.1.toUInt64⟩ : ValueEncoding UInt32)) = vs
  have hcast : ∀ vs : List (ValueEncoding UInt32), castAll (vs.map fun v => ⟨fv v.value, v.index⟩)
      = castCounts (vs.map fun v => ⟨roundFloat v.value.toNat, v.index⟩) := by
    intro vs
    induction vs with
    | nil => rfl
    | cons v vs ih =>
      obtain ⟨f1, v1⟩ := count_value v.value.toNat v.value.toNat_lt
      obtain ⟨f2, v2⟩ := divided f1
      rw [List.map_cons, List.map_cons, castAll, castCounts, ih]
      simp only
      rw [show castUInt32 (fv v.value) = castCount (roundFloat v.value.toNat) by
        rw [hfv]; exact cast_count f2 (v2.trans v1)]
      rfl
  have hord : ∀ {Fl : Type} (g : UInt32 → Fl) (i : UInt64) (vs : List (ValueEncoding UInt32)),
      orderedFrom i (vs.map fun v => (⟨g v.value, v.index⟩ : ValueEncoding Fl)) = orderedFrom i vs := by
    intro Fl g i vs
    induction vs generalizing i with
    | nil => rfl
    | cons v vs ih => simp [orderedFrom, ih]
  have hmk : ∀ {Fl : Type} (g : UInt32 → Fl) (n : UInt64) (vs : List (ValueEncoding UInt32)),
      mkSparse n (vs.map fun v => (⟨g v.value, v.index⟩ : ValueEncoding Fl))
        = (mkSparse n vs).map fun s => ⟨s.numElements, s.values.map fun v => ⟨g v.value, v.index⟩⟩ := by
    intro Fl g n vs
    unfold mkSparse
    split_ifs with h1 h2 h3
    · rfl
    · rfl
    · rw [List.length_map] at h2; contradiction
    · rw [List.length_map] at h2; contradiction
    · cases vs with
      | nil => rfl
      | cons v vs =>
        simp only [List.map_cons, hord]
        split_ifs <;> rfl
  rw [hmk fv, hmk fun n => roundFloat n.toNat]
  rcases mkSparse (UInt64.ofNat t.labels.size) vs with e | s
  · rfl
  · simp only [Except.map, hcast]
    cases castCounts (s.values.map fun v => ⟨roundFloat v.value.toNat, v.index⟩) <;> rfl

/-- The words "a" and "b", no normalization, no frequencies: a count vectorizer. -/
def sampleCounts : Tfidf := { sampleTfidf with norm := .none, useIdf := false, sublinearTf := false, binary := false }

/-! Non-vacuity: the document "A b x a". -/
example (log : F64 → F64) : countBits log sampleCounts ⟨[65, 32, 98, 32, 120, 32, 97]⟩ = .ok ⟨2, [⟨1, 0⟩, ⟨2, 1⟩]⟩ := by
  rw [C45_bits log sampleCounts rfl rfl rfl]
  rfl

end Feat.FloatTfidf
