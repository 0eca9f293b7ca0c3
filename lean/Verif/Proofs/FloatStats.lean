import Verif.Model.FloatStats
import Verif.Spec.FloatStats
import Verif.Proofs.FloatNormsTrain
import Verif.Proofs.FloatInf
/-
Statistics of a column in floating point arithmetic.
-/
namespace Feat.FloatStats
open FloatText FloatArith FloatNorms FloatScalers
variable {ι V S α : Type}

/-! ### The parts of the loop -/

/-- The loop over the values that are not null. -/
def statAll (k : StatInput ι V S) : List V → StatState V S → Except Err Unit × StatState V S
  | [], s => (.ok (), s)
  | x :: xs, s => match update k s x with
    | (.error e, s') => (.error e, s')
    | (.ok (), s') => statAll k xs s'

/-- The sum only. -/
def total (k : StatInput ι V S) : List V → S → Except Err Unit × S
  | [], s => (.ok (), s)
  | x :: xs, s => match k.step s x with
    | (.error e, s') => (.error e, s')
    | (.ok (), s') => total k xs s'

theorem fitAll_eq (k : StatInput ι V S) (wrap : FloStats V S → α) (xs : List ι) : ∀ s,
    (statPolicy k wrap).fitAll xs s = statAll k (xs.filterMap k.get) s := by
  induction xs with
  | nil => intro s; rfl
  | cons x xs ih =>
    intro s
    cases h : k.get x with
    | none =>
      have hf : (statPolicy k wrap).fit x s = (.ok (), s) := by simp only [statPolicy, h]
      rw [List.filterMap_cons_none h]
      simp only [Policy.fitAll, hf]
      exact ih s
    | some v =>
      have hf : (statPolicy k wrap).fit x s = update k s v := by simp only [statPolicy, h]
      rw [List.filterMap_cons_some h]
      simp only [Policy.fitAll, hf, statAll]
      rcases update k s v with ⟨_ | _, s'⟩
      · rfl
      · exact ih s'

theorem statAll_eq (k : StatInput ι V S) (vs : List V) : ∀ s : StatState V S, s.count + vs.length < 2 ^ 64 →
    (∀ e t, total k vs s.sum = (.error e, t) → ∃ st, statAll k vs s = (.error e, st)) ∧
    (∀ t, total k vs s.sum = (.ok (), t) →
      statAll k vs s = (.ok (), ⟨vs.foldl (fun r x => some (widen k r x)) s.range, s.count + vs.length, t⟩)) := by
  induction vs with
  | nil =>
    intro s _
    refine ⟨fun e t h => ?_, fun t h => ?_⟩
    · simp [total] at h
    · simp only [total, Prod.mk.injEq, true_and] at h
      subst h
      rfl
  | cons x vs ih =>
    intro s hs
    rw [List.length_cons] at hs
    have hu : update k s x = ((k.step s.sum x).1, ⟨some (widen k s.range x), s.count + 1, (k.step s.sum x).2⟩) := by
      unfold update
      rw [if_neg (by omega)]
    simp only [total, statAll, hu]
    rcases k.step s.sum x with ⟨e | u, t'⟩
    · refine ⟨fun e' t h => ?_, fun t h => ?_⟩
      · simp only [Prod.mk.injEq, Except.error.injEq] at h ⊢
        exact ⟨_, h.1, rfl⟩
      · simp at h
    · obtain ⟨h1, h2⟩ := ih ⟨some (widen k s.range x), s.count + 1, t'⟩ (by simp only; omega)
      simp only at h1 h2 ⊢
      refine ⟨fun e t h => h1 e t h, fun t h => ?_⟩
      rw [h2 t h, List.length_cons, List.foldl_cons, Nat.add_right_comm, Nat.add_assoc]

/-- How the code compares the values. -/
structure StatLawful (k : StatInput ι V S) (num : V → Prop) (val : V → ℚ) : Prop where
  lt_num : ∀ x y, num x → num y → (k.lt x y = true ↔ val x < val y)

theorem widen_run {k : StatInput ι V S} {num : V → Prop} {val : V → ℚ} (L : StatLawful k num val) (vs : List V) :
    ∀ (pre : List V) (lo hi : V), (∀ v ∈ pre ++ vs, num v) → Least val pre lo → Greatest val pre hi →
    ∃ lo' hi', vs.foldl (fun r x => some (widen k r x)) (some (lo, hi)) = some (lo', hi') ∧
      Least val (pre ++ vs) lo' ∧ Greatest val (pre ++ vs) hi' := by
  induction vs with
  | nil => intro pre lo hi _ h1 h2; exact ⟨lo, hi, rfl, by simpa using h1, by simpa using h2⟩
  | cons x vs ih =>
    intro pre lo hi hnum h1 h2
    have hx := hnum x (by simp)
    have hlo := hnum lo (by simp [h1.1])
    have hhi := hnum hi (by simp [h2.1])
    rw [List.foldl_cons]
    simp only [widen]
    have e : pre ++ x :: vs = (pre ++ [x]) ++ vs := by simp
    rw [e] at hnum ⊢
    refine ih (pre ++ [x]) _ _ hnum ?_ ?_
    · split_ifs with h
      · rw [L.lt_num x lo hx hlo] at h
        refine ⟨by simp, fun v hv => ?_⟩
        rcases List.mem_append.1 hv with hv | hv
        · exact le_trans h.le (h1.2 v hv)
        · rw [List.mem_singleton.1 hv]
      · rw [L.lt_num x lo hx hlo] at h
        refine ⟨by simp [h1.1], fun v hv => ?_⟩
        rcases List.mem_append.1 hv with hv | hv
        · exact h1.2 v hv
        · rw [List.mem_singleton.1 hv]; exact not_lt.1 h
    · split_ifs with h
      · rw [L.lt_num hi x hhi hx] at h
        refine ⟨by simp, fun v hv => ?_⟩
        rcases List.mem_append.1 hv with hv | hv
        · exact le_trans (h2.2 v hv) h.le
        · rw [List.mem_singleton.1 hv]
      · rw [L.lt_num hi x hhi hx] at h
        refine ⟨by simp [h2.1], fun v hv => ?_⟩
        rcases List.mem_append.1 hv with hv | hv
        · exact h2.2 v hv
        · rw [List.mem_singleton.1 hv]; exact not_lt.1 h

theorem range_run {k : StatInput ι V S} {num : V → Prop} {val : V → ℚ} (L : StatLawful k num val) {vs : List V} (hne : vs ≠ [])
    (hnum : ∀ v ∈ vs, num v) : ∃ lo hi, vs.foldl (fun r x => some (widen k r x)) none = some (lo, hi) ∧
      Least val vs lo ∧ Greatest val vs hi := by
  obtain ⟨x, vs, rfl⟩ := List.exists_cons_of_ne_nil hne
  rw [List.foldl_cons]
  exact widen_run L vs [x] x x hnum ⟨by simp, by simp⟩ ⟨by simp, by simp⟩

/-- Training of the statistics, whatever the other annotations. -/
theorem stat_trained_of (wrap : FloStats V S → α) (kind : α → Bool) {k : StatInput ι V S} {num : V → Prop} {val : V → ℚ} (L : StatLawful k num val)
    (col cap : Nat) (hcap : 0 < cap) (batches : List (List ι)) (hb : NoEmptyBatch batches)
    (maps : AnnotationMaps α) (hcol : col < maps.length)
    (hnone : getAnnotation kind maps col "StatisticalMetricsEstimator" = .ok none)
    (vs : List V) (hvs : vs = (batches.flatten.take cap).filterMap k.get) (hlen : vs.length < 2 ^ 64) (hnum : ∀ v ∈ vs, num v) :
    (∀ e t, total k vs k.zero = (.error e, t) →
      trainEstimator (statPolicy k wrap) (statsConfig col kind) cap ⟨none, 0, k.zero⟩ batches maps
        = (.error e, maps)) ∧
    (∀ t, total k vs k.zero = (.ok (), t) → vs = [] →
      trainEstimator (statPolicy k wrap) (statsConfig col kind) cap ⟨none, 0, k.zero⟩ batches maps
        = (.error .runtimeError, maps)) ∧
    (∀ t, total k vs k.zero = (.ok (), t) → vs ≠ [] → ∃ lo hi, Least val vs lo ∧ Greatest val vs hi ∧
      trainEstimator (statPolicy k wrap) (statsConfig col kind) cap ⟨none, 0, k.zero⟩ batches maps
        = match commit k ⟨some (lo, hi), vs.length, t⟩ with
          | .error e => (.error e, maps)
          | .ok st => addAnnotation (some (wrap st)) col "StatisticalMetricsEstimator" maps) := by
  have ht := trainEstimator_run (statPolicy k wrap) (fun _ _ => rfl)
    (statsConfig col kind) cap hcap ⟨none, 0, k.zero⟩ batches hb maps hcol rfl hnone
  rw [fitAll_eq, ← hvs] at ht
  obtain ⟨h1, h2⟩ := statAll_eq k vs ⟨none, 0, k.zero⟩ (by simpa using hlen)
  refine ⟨fun e t h => ?_, fun t h he => ?_, fun t h hne => ?_⟩
  · obtain ⟨st, hst⟩ := h1 e t h
    rw [hst] at ht
    exact ht
  · rw [h2 t h] at ht
    subst he
    exact ht
  · obtain ⟨lo, hi, hr, hlo, hhi⟩ := range_run L hne hnum
    refine ⟨lo, hi, hlo, hhi, ?_⟩
    rw [h2 t h] at ht
    simp only [hr, Nat.zero_add, statPolicy] at ht
    refine ht.trans ?_
    rcases commit k ⟨some (lo, hi), vs.length, t⟩ with e | st <;> rfl

/-- Training of the statistics. -/
theorem stat_trained {k : StatInput ι V S} {num : V → Prop} {val : V → ℚ} (L : StatLawful k num val)
    (col cap : Nat) (hcap : 0 < cap) (batches : List (List ι)) (hb : NoEmptyBatch batches)
    (maps : AnnotationMaps (FloAnnot V S)) (hcol : col < maps.length)
    (hnone : getAnnotation FloAnnot.isStats maps col "StatisticalMetricsEstimator" = .ok none)
    (vs : List V) (hvs : vs = (batches.flatten.take cap).filterMap k.get) (hlen : vs.length < 2 ^ 64) (hnum : ∀ v ∈ vs, num v) :
    (∀ e t, total k vs k.zero = (.error e, t) →
      trainEstimator (statPolicy k FloAnnot.stats) (statsConfig col FloAnnot.isStats) cap ⟨none, 0, k.zero⟩ batches maps
        = (.error e, maps)) ∧
    (∀ t, total k vs k.zero = (.ok (), t) → vs = [] →
      trainEstimator (statPolicy k FloAnnot.stats) (statsConfig col FloAnnot.isStats) cap ⟨none, 0, k.zero⟩ batches maps
        = (.error .runtimeError, maps)) ∧
    (∀ t, total k vs k.zero = (.ok (), t) → vs ≠ [] → ∃ lo hi, Least val vs lo ∧ Greatest val vs hi ∧
      trainEstimator (statPolicy k FloAnnot.stats) (statsConfig col FloAnnot.isStats) cap ⟨none, 0, k.zero⟩ batches maps
        = match commit k ⟨some (lo, hi), vs.length, t⟩ with
          | .error e => (.error e, maps)
          | .ok st => addAnnotation (some (.stats st)) col "StatisticalMetricsEstimator" maps) :=
  stat_trained_of FloAnnot.stats FloAnnot.isStats L col cap hcap batches hb maps hcol hnone vs hvs hlen hnum

/-! ### Sums of floating point numbers -/

section
variable {T : Type} [FloType T] [Lawful T] [Wider T F80]

/-- Small multiples of a number are `long double`s. -/
theorem multiple_exact {x : T} (hx : Finite x) {n : Nat} (hn : n * (2 * 2 ^ (fmt T).frac) ≤ 2 * 2 ^ (fmt F80).frac) :
    ∃ k : Int, k.natAbs < (fmt F80).inf ∧ fval (fmt F80) k = n * value x := by
  have hw2 := Wider.scale (S := T) (T := F80)
  have hw3 := Wider.exp (S := T) (T := F80)
  have hP : 0 < 2 ^ (fmt F80).frac := Nat.pow_pos (by norm_num)
  have hf : pat x < (fmt T).inf := by rw [finite_key, key_natAbs] at hx; exact hx
  have h8 := (Lawful.good (T := T)).exp_pow
  obtain ⟨c, e, hne⟩ := mag_split (fmt T) hf
  have hne' : (fmt T).mag (pat x) = c * 2 ^ e ∧ c ≤ 2 * 2 ^ (fmt T).frac ∧ e + 3 ≤ 2 ^ (fmt T).exp := by
    rcases hne with h | h
    · exact h
    · exact ⟨h.1, h.2.1, by omega⟩
  obtain ⟨m, h1, h2⟩ := mag_exists (fmt F80) (e + ((fmt F80).scale - (fmt T).scale)) (n * c)
    (le_trans (Nat.mul_le_mul_left n hne'.2.1) hn)
  have hm : m < (fmt F80).inf := by
    refine lt_of_le_of_lt h1 ?_
    unfold Fmt.inf
    exact Nat.mul_lt_mul_of_pos_right (by omega) hP
  have hv : fval (fmt F80) m = n * |value x| := by
    rw [fval_nat, abs_value]
    unfold units
    rw [hne'.1, h2]
    push_cast
    obtain ⟨d, hd⟩ : ∃ d, (fmt F80).scale = (fmt T).scale + d := ⟨(fmt F80).scale - (fmt T).scale, by omega⟩
    rw [hd, show (fmt T).scale + d - (fmt T).scale = d by omega, pow_add, pow_add]
    field_simp
  rcases le_total 0 (value x) with h | h
  · exact ⟨m, by simpa using hm, by rw [hv, abs_of_nonneg h]⟩
  · exact ⟨-m, by simpa using hm, by rw [fval_neg, hv, abs_of_nonpos h]; ring⟩

/-- A sum that does not throw stays between the multiples of two bounds. -/
theorem total_between {lo hi : T} (hlo : Finite lo) (hhi : Finite hi) (vs : List T) : ∀ (a b : F80) (i : Nat), Finite a →
    (i + vs.length) * (2 * 2 ^ (fmt T).frac) ≤ 2 * 2 ^ (fmt F80).frac →
    (∀ v ∈ vs, Finite v ∧ value lo ≤ value v ∧ value v ≤ value hi) → i * value lo ≤ value a → value a ≤ i * value hi →
    total (floStat T) vs a = (.ok (), b) →
    Finite b ∧ ((i + vs.length : Nat) : ℚ) * value lo ≤ value b ∧ value b ≤ ((i + vs.length : Nat) : ℚ) * value hi := by
  induction vs with
  | nil =>
    intro a b i ha _ _ h1 h2 h
    simp only [total, Prod.mk.injEq, true_and] at h
    subst h
    exact ⟨ha, h1, h2⟩
  | cons x vs ih =>
    intro a b i ha hn hv h1 h2 h
    rw [List.length_cons] at hn
    obtain ⟨hx, hl, hg⟩ := hv x (by simp)
    obtain ⟨hcf, hcv⟩ := cast_exact (T := F80) hx
    have hk := key_add ha hcf
    rw [hcv] at hk
    have hn' : (i + 1) * (2 * 2 ^ (fmt T).frac) ≤ 2 * 2 ^ (fmt F80).frac :=
      le_trans (Nat.mul_le_mul_right _ (by omega)) hn
    obtain ⟨kl, hkl, el⟩ := multiple_exact hlo hn'
    obtain ⟨kh, hkh, eh⟩ := multiple_exact hhi hn'
    have hg80 : (fmt F80).Good := Lawful.good
    have m1 : kl ≤ key (add a (FloatArith.cast x)) := by
      rw [hk, ← rnd_fval hg80 hkl.le, el]
      refine rnd_mono hg80 ?_
      push_cast
      linarith
    have m2 : key (add a (FloatArith.cast x)) ≤ kh := by
      rw [hk, ← rnd_fval hg80 hkh.le, eh]
      refine rnd_mono hg80 ?_
      push_cast
      linarith
    have hf : Finite (add a (FloatArith.cast x : F80)) := by rw [finite_key]; omega
    have hst : (floStat T).step a x = (.ok (), add a (FloatArith.cast x)) := by
      rcases hs : (floStat T).step a x with ⟨e | u, t⟩
      · simp only [total, hs] at h
        simp at h
      · simp only [floStat] at hs
        split_ifs at hs <;> simp only [Prod.mk.injEq, reduceCtorEq, false_and] at hs
        rw [← hs.2]
    simp only [total, hst] at h
    have := ih (add a (FloatArith.cast x)) b (i + 1) hf (by rw [show i + 1 + vs.length = i + (vs.length + 1) by ring]; exact hn)
      (fun v hm => hv v (List.mem_cons_of_mem _ hm))
      (by rw [value_key (add a _), ← el, fval_le]; exact m1) (by rw [value_key (add a _), ← eh, fval_le]; exact m2) h
    rwa [show i + 1 + vs.length = i + (x :: vs).length by rw [List.length_cons]; ring] at this

/-- A sum: it either throws because of a number that is negligible, or has a small error. -/
theorem total_near (D : ℚ) (hD : 2 * D < tooLarge F80) (vs : List T) : ∀ (a : F80) (s A : ℚ) (i : Nat), Finite a → |s| ≤ A →
    |value a - s| ≤ ((1 + 1 / 2 ^ 64) ^ i - 1) * A → (∀ v ∈ vs, Finite v) → A + sumAbs (vs.map value) ≤ D →
    i + vs.length ≤ 2 ^ 62 →
    (∃ b, total (floStat T) vs a = (.error .runtimeError, b) ∧ ∃ v ∈ vs, value v ≠ 0 ∧ 2 ^ 61 * |value v| ≤ D) ∨
    ∃ b, total (floStat T) vs a = (.ok (), b) ∧ Finite b ∧
      |value b - (s + (vs.map value).sum)| ≤ ((1 + 1 / 2 ^ 64) ^ (i + vs.length) - 1) * (A + sumAbs (vs.map value)) := by
  induction vs with
  | nil =>
    intro a s A i ha hs h _ _ _
    exact .inr ⟨a, rfl, ha, by simpa [sumAbs] using h⟩
  | cons x vs ih =>
    intro a s A i ha hs h hv hA hn
    have hx := hv x (by simp)
    obtain ⟨hcf, hcv⟩ := cast_exact (T := F80) hx
    have e1 : sumAbs ((x :: vs).map value) = |value x| + sumAbs (vs.map value) := by simp [sumAbs]
    have e2 : ((x :: vs).map value).sum = value x + (vs.map value).sum := by simp
    rw [List.length_cons] at hn ⊢
    rw [e1] at hA ⊢
    rw [e2]
    have hrest : 0 ≤ sumAbs (vs.map value) := by
      unfold sumAbs
      exact List.sum_nonneg (by
        intro q hq
        obtain ⟨e, _, rfl⟩ := List.mem_map.1 hq
        exact abs_nonneg e)
    have hp1 : (1 : ℚ) ≤ (1 + 1 / 2 ^ 64) ^ i := one_le_pow₀ (by norm_num)
    have hp2 : (1 + 1 / 2 ^ 64 : ℚ) ^ i ≤ 3 / 2 := pow_le_half (by omega)
    have hps : (1 + 1 / 2 ^ 64 : ℚ) ^ (i + 1) = (1 + 1 / 2 ^ 64) ^ i * (1 + 1 / 2 ^ 64) := pow_succ _ _
    have hstep := ih (add a (FloatArith.cast x)) (s + value x) (A + |value x|) (i + 1)
    rw [hps] at hstep
    rw [show i + (vs.length + 1) = i + 1 + vs.length by ring, ← add_assoc, ← add_assoc]
    generalize (1 + 1 / 2 ^ 64 : ℚ) ^ i = p at *
    have hA0 : 0 ≤ A := le_trans (abs_nonneg s) hs
    have hx0 := abs_nonneg (value x)
    have hap : |value a| ≤ p * A := by
      have := abs_add_le (value a - s) s
      rw [sub_add_cancel] at this
      linarith
    have hpA : p * A ≤ 3 / 2 * A := mul_le_mul_of_nonneg_right hp2 hA0
    have hsum : |value a + value x| ≤ p * A + |value x| := by
      have := abs_add_le (value a) (value x)
      linarith
    obtain ⟨hf, he⟩ := add_error ha hcf (by rw [hcv]; linarith)
    rw [hcv, show Binary.frac F80 + 1 = 64 from rfl] at he
    by_cases habs : (eq (add a (FloatArith.cast x)) a && !eq x (FloatArith.zero false)) = true
    · refine .inl ⟨a, ?_, x, by simp, ?_⟩
      · have hst : (floStat T).step a x = (.error .runtimeError, a) := by
          simp only [floStat]
          rw [if_pos habs]
        simp only [total, hst]
      · rw [Bool.and_eq_true, Bool.not_eq_true', eq_iff hf ha] at habs
        refine ⟨?_, ?_⟩
        · intro h0
          have : eq x (FloatArith.zero false) = true := by rw [eq_iff hx (finite_zero _), value_zero, h0]
          rw [habs.2] at this
          cases this
        · rw [habs.1, show value a - (value a + value x) = -value x by ring, abs_neg] at he
          have h9 : |value a + value x| / 2 ^ 64 ≤ (3 / 2 * A + |value x|) / 2 ^ 64 :=
            div_le_div_of_nonneg_right (by linarith) (by positivity)
          have h10 := le_trans he h9
          rw [le_div_iff₀ (by positivity)] at h10
          norm_num at h10 ⊢
          linarith
    · have hst : (floStat T).step a x = (.ok (), add a (FloatArith.cast x)) := by
        simp only [floStat]
        rw [if_neg habs, if_neg (by rw [Finite.not_inf hf]; simp)]
      rcases hstep hf (by have := abs_add_le s (value x); linarith) (by
        have := abs_sub_le (value (add a (FloatArith.cast x))) (value a + value x) (s + value x)
        rw [show value a + value x - (s + value x) = value a - s by ring] at this
        refine le_trans this ?_
        have h9 : |value a + value x| / 2 ^ 64 ≤ (p * A + |value x|) * (1 / 2 ^ 64) := by
          rw [div_eq_mul_one_div]
          exact mul_le_mul_of_nonneg_right hsum (by positivity)
        have h10 : (0 : ℚ) ≤ (p - 1) * (1 + 1 / 2 ^ 64) * |value x| := by
          have : 0 ≤ p - 1 := by linarith
          positivity
        have := le_trans (add_le_add he h) (add_le_add_left h9 _)
        linarith) (fun v hm => hv v (List.mem_cons_of_mem _ hm)) (by linarith) (by omega) with ⟨b, h1, v, hm, h2⟩ | ⟨b, h1, h2, h3⟩
      · refine .inl ⟨b, ?_, v, List.mem_cons_of_mem _ hm, h2⟩
        simp only [total, hst, h1]
      · refine .inr ⟨b, ?_, h2, h3⟩
        simp only [total, hst, h1]

end

/-! ### Averages -/

/-- Two roundings, to `long double` and to `double`. -/
theorem twice_error {q : ℚ} {d : F80} {a : F64} (hd : key d = rnd (fmt F80) q) (hdf : Finite d) (ha : key a = rnd (fmt F64) (value d))
    (haf : Finite a) : |value a - q| ≤ |q| * (9 / 8 / 2 ^ 53) + 1 / 2 ^ 1074 := by
  have h80 := rnd_error (Lawful.good (T := F80)) (q := q) (by rw [← hd, ← finite_key]; exact hdf)
  have h64 := rnd_error (Lawful.good (T := F64)) (q := value d) (by rw [← ha, ← finite_key]; exact haf)
  rw [← hd, ← value_key, show (fmt F80).frac + 1 = 64 from rfl] at h80
  rw [← ha, ← value_key, show (fmt F64).frac + 1 = 53 from rfl] at h64
  have hs : (2 : ℚ) ^ 1077 ≤ 2 ^ (fmt F80).scale := pow_le_pow_right₀ (by norm_num) (by decide +kernel)
  have ht : (1 : ℚ) / 2 / 2 ^ (fmt F80).scale ≤ 1 / 2 / 2 ^ 1077 := div_le_div_of_nonneg_left (by norm_num) (by positivity) hs
  have e : (2 : ℚ) ^ 1077 = 8 * 2 ^ 1074 := by rw [show 1077 = 3 + 1074 by rfl, pow_add]; norm_num
  rw [e] at ht
  rw [show (fmt F64).scale = 1074 by decide +kernel] at h64
  generalize (1 : ℚ) / 2 / 2 ^ (fmt F80).scale = t at *
  have hT : (0 : ℚ) < 2 ^ 1074 := by positivity
  generalize (2 : ℚ) ^ 1074 = P at *
  have e1 : (1 : ℚ) / 2 / (8 * P) = 1 / P / 16 := by field_simp; norm_num
  have e2 : (1 : ℚ) / 2 / P = 1 / P / 2 := by field_simp
  rw [e1] at ht
  rw [e2] at h64
  have hw : 0 < 1 / P := by positivity
  generalize 1 / P = w at *
  have hq := abs_nonneg q
  have h1 : |value d - q| ≤ |q| / 2 ^ 64 + w / 16 := by
    rcases h80 with h | h
    · have : 0 ≤ |q| / 2 ^ 64 := by positivity
      linarith
    · linarith
  have hdv : |value d| ≤ |q| + (|q| / 2 ^ 64 + w / 16) := by
    have := abs_add_le (value d - q) q
    rw [sub_add_cancel] at this
    linarith
  have h2 : |value a - value d| ≤ |value d| / 2 ^ 53 + w / 2 := by
    rcases h64 with h | h
    · have : 0 ≤ |value d| / 2 ^ 53 := by positivity
      linarith
    · linarith
  have h3 := abs_sub_le (value a) (value d) q
  have h4 : |value d| / 2 ^ 53 ≤ (|q| + (|q| / 2 ^ 64 + w / 16)) / 2 ^ 53 := div_le_div_of_nonneg_right hdv (by positivity)
  generalize |q| = Q at *
  norm_num at *
  linarith

section
variable {T : Type} [FloType T] [Lawful T] [Wider T F80]

theorem count_exact {n : Nat} (hn : n ≤ 2 ^ 62) : Finite (ofInt (n : Int) : F80) ∧ value (ofInt (n : Int) : F80) = n := by
  have := ofInt_exact (T := F80) (z := (n : Int)) (by rw [Int.natAbs_natCast, show (fmt F80).frac = 63 from rfl]; omega)
  exact ⟨this.1, by rw [this.2]; norm_cast⟩

/-- What `commit` returns. -/
theorem commit_float (hD : ∀ x : T, Finite x → Finite (FloatArith.cast x : F64) ∧ value (FloatArith.cast x : F64) = value x)
    {vs : List T} {lo hi : T} {s : F80} (hne : vs ≠ []) (hlen : vs.length ≤ 2 ^ 60) (hv : ∀ v ∈ vs, Finite v)
    (hlo : Least value vs lo) (hhi : Greatest value vs hi) (hs : Finite s)
    (herr : |value s - (vs.map value).sum| ≤ ((1 + 1 / 2 ^ 64) ^ vs.length - 1) * sumAbs (vs.map value)) :
    (commit (floStat T) ⟨some (lo, hi), vs.length, s⟩ = .error .runtimeError ∨
     commit (floStat T) ⟨some (lo, hi), vs.length, s⟩ = .error .invalidArgument ∨
     ∃ a, commit (floStat T) ⟨some (lo, hi), vs.length, s⟩ = .ok ⟨lo, hi, vs.length, s, a⟩ ∧
      Within (vs.map value) a ∧ NearMean (vs.length / 2 ^ 63 + 1 / 2 ^ 52) (vs.map value) a) ∧
    (vs.length * value lo ≤ value s → value s ≤ vs.length * value hi →
      ∃ a, commit (floStat T) ⟨some (lo, hi), vs.length, s⟩ = .ok ⟨lo, hi, vs.length, s, a⟩) := by
  have hn0 : vs.length ≠ 0 := by simpa using hne
  have hnq : (0 : ℚ) < vs.length := by exact_mod_cast Nat.pos_of_ne_zero hn0
  obtain ⟨hcf, hcv⟩ := count_exact (n := vs.length) (by omega)
  have hkd := key_div hs hcf (by rw [hcv]; exact ne_of_gt hnq)
  rw [hcv] at hkd
  obtain ⟨hlf, hlv⟩ := hD lo (hv lo hlo.1)
  obtain ⟨hhf, hhv⟩ := hD hi (hv hi hhi.1)
  have hle : value lo ≤ value hi := hlo.2 hi hhi.1
  have hord : (floStat T).lt hi lo = false := by
    show FloatArith.lt hi lo = false
    rw [← Bool.not_eq_true, lt_iff (hv hi hhi.1) (hv lo hlo.1)]
    linarith
  have hA0 : 0 ≤ sumAbs (vs.map value) := by
    unfold sumAbs
    exact List.sum_nonneg (by
      intro q hq
      obtain ⟨e, _, rfl⟩ := List.mem_map.1 hq
      exact abs_nonneg e)
  have hsumle : |(vs.map value).sum| ≤ sumAbs (vs.map value) := by
    unfold sumAbs
    generalize vs.map value = l
    induction l with
    | nil => simp
    | cons q l ih =>
      rw [List.sum_cons, List.map_cons, List.sum_cons]
      have := abs_add_le q l.sum
      linarith
  have hp2 := pow_small (n := vs.length) (by omega)
  have hp3 : (1 + 1 / 2 ^ 64 : ℚ) ^ vs.length ≤ 3 / 2 := pow_le_half (by omega)
  have hsv : |value s| ≤ 3 / 2 * sumAbs (vs.map value) := by
    have h1 := abs_add_le (value s - (vs.map value).sum) (vs.map value).sum
    rw [sub_add_cancel] at h1
    have h2 := mul_le_mul_of_nonneg_right hp3 hA0
    linarith
  have hM0 : 0 ≤ meanAbs (vs.map value) := by
    unfold meanAbs
    positivity
  have hqv : |value s / vs.length| ≤ 3 / 2 * meanAbs (vs.map value) := by
    unfold meanAbs
    rw [abs_div, abs_of_pos hnq, List.length_map, ← mul_div_assoc]
    exact div_le_div_of_nonneg_right hsv hnq.le
  have hqm : |value s / vs.length - mean (vs.map value)| ≤ vs.length / 2 ^ 63 * meanAbs (vs.map value) := by
    unfold mean meanAbs
    rw [List.length_map, ← sub_div, abs_div, abs_of_pos hnq, ← mul_div_assoc]
    refine div_le_div_of_nonneg_right (le_trans herr ?_) hnq.le
    exact mul_le_mul_of_nonneg_right hp2 hA0
  set d : F80 := div s (ofInt (vs.length : Int)) with hdd
  -- the average is not too large for `long double`
  have hdfin : Finite d := by
    rw [finite_key, hkd]
    refine rnd_finite (lt_of_le_of_lt hqv ?_)
    have hM : meanAbs (vs.map value) ≤ 2 ^ 1024 := by
      unfold meanAbs
      rw [div_le_iff₀ (by rw [List.length_map]; exact hnq), mul_comm]
      unfold sumAbs
      refine le_trans (sum_bound (B := 2 ^ 1024) ?_) (le_of_eq (by simp))
      intro q hq
      obtain ⟨e, he, rfl⟩ := List.mem_map.1 hq
      obtain ⟨v, hm, rfl⟩ := List.mem_map.1 he
      obtain ⟨h1, h2⟩ := hD v (hv v hm)
      rw [← h2]
      exact (double_bounds h1).2
    refine lt_of_le_of_lt ?_ long_large
    have h1 : (2 : ℚ) ^ 1024 * 2 ≤ 2 ^ 5000 := by
      rw [← pow_succ]
      exact pow_le_pow_right₀ (by norm_num) (by norm_num)
    have h0 : (0 : ℚ) ≤ 2 ^ 1024 := by positivity
    generalize (2 : ℚ) ^ 1024 = B at *
    generalize (2 : ℚ) ^ 5000 = C at *
    linarith
  have hka : key (FloatArith.cast d : F64) = rnd (fmt F64) (value d) := key_cast hdfin
  have hcommit : commit (floStat T) ⟨some (lo, hi), vs.length, s⟩ =
      if FloatArith.lt (FloatArith.cast (largest : F64)) d then .error .runtimeError
      else if FloatArith.lt (FloatArith.cast hi) (FloatArith.cast d : F64) || FloatArith.lt (FloatArith.cast d) (FloatArith.cast lo : F64) then
        .error .invalidArgument
      else .ok ⟨lo, hi, vs.length, s, FloatArith.cast d⟩ := by
    unfold commit
    simp only
    rw [if_neg hn0, if_neg (by rw [hord]; simp)]
    simp only [floStat, ← hdd]
  rw [hcommit]
  constructor
  · split_ifs with h1 h2
    · exact .inl rfl
    · exact .inr (.inl rfl)
    · refine .inr (.inr ⟨_, rfl, ?_⟩)
      rw [Bool.or_eq_true, not_or] at h2
      have hnn : isNaN (FloatArith.cast d : F64) = false := not_nan_rnd hka
      have k1 : key (FloatArith.cast d : F64) ≤ key (FloatArith.cast hi : F64) := by
        have := h2.1
        unfold FloatArith.lt at this
        rw [hnn, Finite.not_nan hhf] at this
        simpa using this
      have k2 : key (FloatArith.cast lo : F64) ≤ key (FloatArith.cast d : F64) := by
        have := h2.2
        unfold FloatArith.lt at this
        rw [hnn, Finite.not_nan hlf] at this
        simpa using this
      have haf : Finite (FloatArith.cast d : F64) := by
        rw [finite_key] at hhf hlf ⊢
        omega
      have v1 : value (FloatArith.cast d : F64) ≤ value hi := by rw [← hhv, value_key (FloatArith.cast d), value_key (FloatArith.cast hi), fval_le]; exact k1
      have v2 : value lo ≤ value (FloatArith.cast d : F64) := by rw [← hlv, value_key (FloatArith.cast d), value_key (FloatArith.cast lo), fval_le]; exact k2
      refine ⟨⟨⟨value lo, List.mem_map.2 ⟨lo, hlo.1, rfl⟩, v2⟩, value hi, List.mem_map.2 ⟨hi, hhi.1, rfl⟩, v1⟩, haf, ?_⟩
      have h3 := twice_error hkd hdfin hka haf
      have h4 := abs_sub_le (value (FloatArith.cast d : F64)) (value s / vs.length) (mean (vs.map value))
      have h5 : |value s / vs.length| * (9 / 8 / 2 ^ 53) ≤ 3 / 2 * meanAbs (vs.map value) * (9 / 8 / 2 ^ 53) :=
        mul_le_mul_of_nonneg_right hqv (by positivity)
      generalize (1 : ℚ) / 2 ^ 1074 = w at *
      have h6 : 3 / 2 * meanAbs (vs.map value) * (9 / 8 / 2 ^ 53) ≤ 1 / 2 ^ 52 * meanAbs (vs.map value) := by
        generalize meanAbs (vs.map value) = M at *
        norm_num
        linarith
      rw [add_mul]
      linarith
  · intro b1 b2
    obtain ⟨l1, l2⟩ := cast_exact (T := F80) (hv lo hlo.1)
    obtain ⟨u1, u2⟩ := cast_exact (T := F80) (hv hi hhi.1)
    have q1 : value lo ≤ value s / vs.length := by rw [le_div_iff₀ hnq]; linarith
    have q2 : value s / vs.length ≤ value hi := by rw [div_le_iff₀ hnq]; linarith
    have d1 : value lo ≤ value d := by
      rw [← l2, value_key d, value_key (FloatArith.cast lo), fval_le, hkd, ← rnd_value l1, l2]
      exact rnd_mono (Lawful.good (T := F80)) q1
    have d2 : value d ≤ value hi := by
      rw [← u2, value_key d, value_key (FloatArith.cast hi), fval_le, hkd, ← rnd_value u1, u2]
      exact rnd_mono (Lawful.good (T := F80)) q2
    have k1 : key (FloatArith.cast lo : F64) ≤ key (FloatArith.cast d : F64) := by
      rw [hka, key_cast (hv lo hlo.1)]
      exact rnd_mono (Lawful.good (T := F64)) d1
    have k2 : key (FloatArith.cast d : F64) ≤ key (FloatArith.cast hi : F64) := by
      rw [hka, key_cast (hv hi hhi.1)]
      exact rnd_mono (Lawful.good (T := F64)) d2
    obtain ⟨g1, g2⟩ := cast_exact (T := F80) (finite_largest (T := F64))
    refine ⟨FloatArith.cast d, ?_⟩
    rw [if_neg, if_neg]
    · rw [Bool.or_eq_true, not_or]
      unfold FloatArith.lt
      constructor
      · simp only [Bool.and_eq_true, decide_eq_true_iff, not_and]
        intro _
        omega
      · simp only [Bool.and_eq_true, decide_eq_true_iff, not_and]
        intro _
        omega
    · rw [lt_iff g1 hdfin, g2]
      have := value_le_largest hhf
      rw [hhv] at this
      linarith

omit [Wider T F80] in
/-- The values of a column. -/
theorem flo_values (xs : List T) (hx : ∀ x ∈ xs, ¬ IsInf x) :
    (∀ v ∈ xs.filterMap (floStat T).get, Finite v) ∧ (xs.filterMap (floStat T).get).map value = numbers floNumber xs := by
  induction xs with
  | nil => simp [numbers]
  | cons x xs ih =>
    obtain ⟨h1, h2⟩ := ih (fun y hy => hx y (List.mem_cons_of_mem _ hy))
    cases h : isNaN x with
    | true =>
      have hg : (floStat T).get x = none := by simp only [floStat, h, if_true]
      rw [List.filterMap_cons_none hg]
      refine ⟨h1, ?_⟩
      rw [h2]
      unfold numbers
      rw [List.filterMap_cons_none (floNumber_none.2 h)]
    | false =>
      have hg : (floStat T).get x = some x := by simp only [floStat, h]; rfl
      have hi : isInf x = false := by
        rw [← Bool.not_eq_true, isInf_iff]
        exact hx x (by simp)
      have hf := finite_or h hi
      have hn : floNumber x = some (value x) := by
        unfold floNumber
        rw [if_neg]
        intro hh
        have : isNaN x = true := (isNaN_iff x).2 hh
        rw [h] at this
        cases this
      rw [List.filterMap_cons_some hg]
      refine ⟨?_, ?_⟩
      · intro v hv
        rcases List.mem_cons.1 hv with rfl | hv
        · exact hf
        · exact h1 v hv
      · rw [List.map_cons, h2]
        unfold numbers
        rw [List.filterMap_cons_some hn]

omit [Wider T F80] in
theorem flo_lawful : StatLawful (floStat T) (fun x => Finite x) value := ⟨fun _ _ hx hy => lt_iff hx hy⟩

/-- Training on a floating point column, whatever the other annotations. -/
theorem float_trained_of (wrap : FloStats T F80 → α) (kind : α → Bool) (hD : ∀ x : T, Finite x → Finite (FloatArith.cast x : F64) ∧ value (FloatArith.cast x : F64) = value x)
    (N : Nat) (hN : N * (2 * 2 ^ (fmt T).frac) ≤ 2 * 2 ^ (fmt F80).frac)
    (col cap : Nat) (hcap : 0 < cap) (batches : List (List T)) (hb : NoEmptyBatch batches)
    (maps : AnnotationMaps α) (hcol : col < maps.length)
    (hnone : getAnnotation kind maps col "StatisticalMetricsEstimator" = .ok none)
    (hx : ∀ x ∈ batches.flatten.take cap, ¬ IsInf x)
    (l : List ℚ) (hl : l = numbers floNumber (batches.flatten.take cap)) (hlen : l.length ≤ 2 ^ 60) :
    (∃ e, trainEstimator (statPolicy (floStat T) wrap) (statsConfig col kind) cap ⟨none, 0, (floStat T).zero⟩ batches maps
        = (.error e, maps) ∧ (e = .runtimeError ∨ e = .invalidArgument) ∧ (l = [] → e = .runtimeError) ∧
        (l.length ≤ N → e ≠ .invalidArgument) ∧ (l ≠ [] → l.length ≤ N → ¬ NoneNegligible (l.map fun q => |q|))) ∨
    ∃ st, trainEstimator (statPolicy (floStat T) wrap) (statsConfig col kind) cap ⟨none, 0, (floStat T).zero⟩ batches maps
        = addAnnotation (some (wrap st)) col "StatisticalMetricsEstimator" maps ∧ l ≠ [] ∧ st.count = l.length ∧
      Finite st.min ∧ value st.min ∈ l ∧ (∀ q ∈ l, value st.min ≤ q) ∧ Finite st.max ∧ value st.max ∈ l ∧ (∀ q ∈ l, q ≤ value st.max) ∧
      Within l st.average ∧ NearMean (l.length / 2 ^ 63 + 1 / 2 ^ 52) l st.average := by
  obtain ⟨hfin, hval⟩ := flo_values _ hx
  obtain ⟨vs, hvs⟩ : ∃ vs, vs = (batches.flatten.take cap).filterMap (floStat T).get := ⟨_, rfl⟩
  rw [← hvs] at hfin hval
  have hll : l.length = vs.length := by rw [hl, ← hval, List.length_map]
  rw [← hl] at hval
  obtain ⟨t1, t2, t3⟩ := stat_trained_of wrap kind (flo_lawful (T := T)) col cap hcap batches hb maps hcol hnone vs hvs (by omega) hfin
  have hB : ∀ v ∈ vs, |value v| ≤ 2 ^ 1024 := by
    intro v hm
    obtain ⟨h1, h2⟩ := hD v (hfin v hm)
    rw [← h2]
    exact (double_bounds h1).2
  have hD2 : 2 * sumAbs (vs.map value) < tooLarge F80 := by
    have h1 : sumAbs (vs.map value) ≤ vs.length * 2 ^ 1024 := by
      unfold sumAbs
      refine le_trans (sum_bound (B := 2 ^ 1024) ?_) (le_of_eq (by simp))
      intro q hq
      obtain ⟨e, he, rfl⟩ := List.mem_map.1 hq
      obtain ⟨v, hm, rfl⟩ := List.mem_map.1 he
      exact hB v hm
    refine lt_of_le_of_lt ?_ long_large
    have h2 : (vs.length : ℚ) ≤ 2 ^ 60 := by rw [← hll]; exact_mod_cast hlen
    have h3 : (2 : ℚ) ^ 60 * (2 * 2 ^ 1024) ≤ 2 ^ 5000 := by
      rw [← pow_succ', ← pow_add]
      exact pow_le_pow_right₀ (by norm_num) (by norm_num)
    have h0 : (0 : ℚ) ≤ 2 ^ 1024 := by positivity
    generalize (2 : ℚ) ^ 1024 = B at *
    generalize (2 : ℚ) ^ 5000 = C at *
    have := mul_le_mul_of_nonneg_right h2 h0
    linarith
  have hz : Finite (floStat T).zero := finite_zero (T := F80) false
  have hzv : value (floStat T).zero = 0 := value_zero (T := F80) false
  have hrun := total_near (sumAbs (vs.map value)) hD2 vs (floStat T).zero 0 0 0 hz (by simp) (by rw [hzv]; simp) hfin
    (by simp) (by omega)
  rw [zero_add, zero_add, zero_add] at hrun
  rcases hrun with ⟨b, h1, v, hm, h0, h2⟩ | ⟨b, h1, hbf, herr⟩
  · left
    refine ⟨.runtimeError, t1 _ _ h1, .inl rfl, fun _ => rfl, fun _ => by simp, ?_⟩
    intro _ _ hnn
    have := hnn.2 |value v| (List.mem_map.2 ⟨value v, by rw [← hval]; exact List.mem_map.2 ⟨v, hm, rfl⟩, rfl⟩)
    rw [← hval] at this
    rcases this with h | h
    · exact h0 (by simpa using h)
    · exact absurd h2 (not_le.2 h)
  · by_cases hne : vs = []
    · left
      have hl0 : l = [] := by rw [← hval, hne]; rfl
      exact ⟨.runtimeError, t2 b h1 hne, .inl rfl, fun _ => rfl, fun _ => by simp, fun h => absurd hl0 h⟩
    · obtain ⟨lo, hi, hlo, hhi, ht⟩ := t3 b h1 hne
      have hlne : l ≠ [] := by
        rw [← hval]
        simpa using hne
      obtain ⟨c1, c2⟩ := commit_float hD hne (by omega) hfin hlo hhi hbf herr
      have hok : l.length ≤ N → ∃ a, commit (floStat T) ⟨some (lo, hi), vs.length, b⟩ = .ok ⟨lo, hi, vs.length, b, a⟩ := by
        intro hle
        have hh := total_between (hfin lo hlo.1) (hfin hi hhi.1) vs (floStat T).zero b 0 hz
          (le_trans (Nat.mul_le_mul_right _ (by omega)) hN) (fun v hm => ⟨hfin v hm, hlo.2 v hm, hhi.2 v hm⟩)
          (by rw [hzv]; simp) (by rw [hzv]; simp) h1
        rw [Nat.zero_add] at hh
        exact c2 hh.2.1 hh.2.2
      rcases c1 with h | h | ⟨a, h, hw, hnm⟩
      · left
        refine ⟨.runtimeError, by rw [ht, h], .inl rfl, fun _ => rfl, fun _ => by simp, ?_⟩
        intro _ hle _
        obtain ⟨a, ha⟩ := hok hle
        rw [h] at ha
        cases ha
      · left
        refine ⟨.invalidArgument, by rw [ht, h], .inr rfl, fun h' => absurd h' hlne, ?_, ?_⟩
        · intro hle
          obtain ⟨a, ha⟩ := hok hle
          rw [h] at ha
          cases ha
        · intro _ hle _
          obtain ⟨a, ha⟩ := hok hle
          rw [h] at ha
          cases ha
      · right
        refine ⟨_, by rw [ht, h], hlne, hll.symm, hfin lo hlo.1, ?_, ?_, hfin hi hhi.1, ?_, ?_, ?_, ?_⟩
        · rw [← hval]; exact List.mem_map.2 ⟨lo, hlo.1, rfl⟩
        · intro q hq
          rw [← hval] at hq
          obtain ⟨v, hm, rfl⟩ := List.mem_map.1 hq
          exact hlo.2 v hm
        · rw [← hval]; exact List.mem_map.2 ⟨hi, hhi.1, rfl⟩
        · intro q hq
          rw [← hval] at hq
          obtain ⟨v, hm, rfl⟩ := List.mem_map.1 hq
          exact hhi.2 v hm
        · rw [← hval]; exact hw
        · rw [hll, ← hval]; exact hnm

/-- Training on a floating point column. -/
theorem float_trained (hD : ∀ x : T, Finite x → Finite (FloatArith.cast x : F64) ∧ value (FloatArith.cast x : F64) = value x)
    (N : Nat) (hN : N * (2 * 2 ^ (fmt T).frac) ≤ 2 * 2 ^ (fmt F80).frac)
    (col cap : Nat) (hcap : 0 < cap) (batches : List (List T)) (hb : NoEmptyBatch batches)
    (maps : AnnotationMaps (FloAnnot T F80)) (hcol : col < maps.length)
    (hnone : getAnnotation FloAnnot.isStats maps col "StatisticalMetricsEstimator" = .ok none)
    (hx : ∀ x ∈ batches.flatten.take cap, ¬ IsInf x)
    (l : List ℚ) (hl : l = numbers floNumber (batches.flatten.take cap)) (hlen : l.length ≤ 2 ^ 60) :
    (∃ e, trainEstimator (statPolicy (floStat T) FloAnnot.stats) (statsConfig col FloAnnot.isStats) cap ⟨none, 0, (floStat T).zero⟩ batches maps
        = (.error e, maps) ∧ (e = .runtimeError ∨ e = .invalidArgument) ∧ (l = [] → e = .runtimeError) ∧
        (l.length ≤ N → e ≠ .invalidArgument) ∧ (l ≠ [] → l.length ≤ N → ¬ NoneNegligible (l.map fun q => |q|))) ∨
    ∃ st, trainEstimator (statPolicy (floStat T) FloAnnot.stats) (statsConfig col FloAnnot.isStats) cap ⟨none, 0, (floStat T).zero⟩ batches maps
        = addAnnotation (some (.stats st)) col "StatisticalMetricsEstimator" maps ∧ l ≠ [] ∧ st.count = l.length ∧
      Finite st.min ∧ value st.min ∈ l ∧ (∀ q ∈ l, value st.min ≤ q) ∧ Finite st.max ∧ value st.max ∈ l ∧ (∀ q ∈ l, q ≤ value st.max) ∧
      Within l st.average ∧ NearMean (l.length / 2 ^ 63 + 1 / 2 ^ 52) l st.average :=
  float_trained_of FloAnnot.stats FloAnnot.isStats hD N hN col cap hcap batches hb maps hcol hnone hx l hl hlen

/-- A column with an infinity. -/
theorem total_inf (vs : List T) (hn : ∀ v ∈ vs, isNaN v = false) (hinf : ∃ v ∈ vs, IsInf v) : ∀ a : F80, Finite a →
    ∃ b, total (floStat T) vs a = (.error .runtimeError, b) := by
  induction vs with
  | nil => obtain ⟨_, h, _⟩ := hinf; simp at h
  | cons x vs ih =>
    intro a ha
    have hx := hn x (by simp)
    cases hi : isInf x with
    | true =>
      have hc := isInf_cast (T := F80) hi hx
      have hadd := isInf_add ha hc
      have he := eq_inf hadd ha
      refine ⟨add a (FloatArith.cast x), ?_⟩
      have hst : (floStat T).step a x = (.error .runtimeError, add a (FloatArith.cast x)) := by
        simp only [floStat]
        rw [if_neg (by rw [he]; simp), if_pos hadd]
      simp only [total, hst]
    | false =>
      have hf := finite_or hx hi
      obtain ⟨hcf, _⟩ := cast_exact (T := F80) hf
      have hinf' : ∃ v ∈ vs, IsInf v := by
        obtain ⟨v, hm, h⟩ := hinf
        rcases List.mem_cons.1 hm with rfl | hm
        · rw [← isInf_iff, hi] at h
          cases h
        · exact ⟨v, hm, h⟩
      have hst : (∃ b, (floStat T).step a x = (.error .runtimeError, b)) ∨
          ((floStat T).step a x = (.ok (), add a (FloatArith.cast x)) ∧ isInf (add a (FloatArith.cast x : F80)) = false) := by
        simp only [floStat]
        split_ifs with h1 h2
        · exact .inl ⟨_, rfl⟩
        · exact .inl ⟨_, rfl⟩
        · exact .inr ⟨rfl, by simpa using h2⟩
      rcases hst with ⟨b, h⟩ | ⟨h, h2⟩
      · exact ⟨b, by simp only [total, h]⟩
      · obtain ⟨b, hb⟩ := ih (fun v hm => hn v (List.mem_cons_of_mem _ hm)) hinf' _ (finite_or (not_nan_rnd (key_add ha hcf)) h2)
        exact ⟨b, by simp only [total, h, hb]⟩

end

end Feat.FloatStats
