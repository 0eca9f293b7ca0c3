import Verif.Model.FloatTimeSeries
import Verif.Props.FloatWindows
import Verif.Props.FloatText
import Verif.Props.TimeSeriesTraining
/-
C96: the replacement values of the median strategy as texts.
-/
namespace Feat.FloatTimeSeries
open Feat.FloatArith Feat.FloatText Feat.FloatWindows

variable {K : Type}

theorem average_eq (l : List F64) : average l = div (l.foldl add (zero false)) (ofInt l.length) := rfl

/-- The average of finite numbers whose sum does not come near the end of the range. -/
theorem C96_average (l : List F64) (hl : l ≠ []) (hfin : ∀ x ∈ l, Finite x)
    (hsum : 2 * (l.map fun x => |value x|).sum < tooLarge F64) (hlen : l.length ≤ 2 ^ 51) :
    NearMean l (average l) := by
  have hlen' : l.length ≤ 2 ^ ((fmt F64).frac - 1) := hlen
  have h := sum_near l hfin _ hsum (by decide) (zero false) 0 0 0 (finite_zero _) (by simp) (by simp [value_zero])
    (by simp) (by omega)
  obtain ⟨v, h1, h2⟩ := C82_mean_partial l hl hfin hsum hlen'
  have hz : key (FloatWindows.sumCalc l) = key (l.foldl add (zero false)) := by
    rw [FloatWindows.sumCalc, key_add (finite_zero _) h.1, value_zero, zero_add, rnd_value h.1]
  have hs : Finite (FloatWindows.sumCalc l) := by rw [finite_key, hz, ← finite_key]; exact h.1
  have hn1 : 1 ≤ l.length := List.length_pos_of_ne_nil hl
  obtain ⟨hnf, hnv⟩ := ofInt_count (n := l.length) (hlen.trans (Nat.pow_le_pow_right (by norm_num) (by norm_num)))
  have hne : value (ofInt (l.length : Int) : F64) ≠ 0 := by
    rw [hnv]
    have : (1 : ℚ) ≤ l.length := by exact_mod_cast hn1
    linarith
  have hv : value (FloatWindows.sumCalc l) = value (l.foldl add (zero false)) := by rw [value_key, value_key, hz]
  have hk : key v = key (average l) := by
    rw [average_eq, key_div h.1 hnf hne]
    rw [FloatWindows.meanCalc, if_neg (by omega)] at h1
    simp only [Except.ok.injEq] at h1
    rw [← h1, key_div (cast_self hs).1 hnf hne, (cast_self hs).2, hv]
  obtain ⟨g1, g2⟩ := h2
  refine ⟨by rw [finite_key, ← hk, ← finite_key]; exact g1, ?_⟩
  rw [value_key, ← hk, ← value_key]
  exact g2

/-- Reading a number: half a unit in the last place. -/
theorem read_error {x : F64} {q : ℚ} (hx : IsNearest q x) (hq : |q| < tooLarge F64) :
    |value x - q| ≤ |q| / 2 ^ 53 + 1 / 2 ^ 1075 := by
  obtain ⟨neg, hs⟩ : ∃ neg : Bool, signOf neg * ((q.num.natAbs : ℚ) / q.den) = q := by
    refine ⟨decide (q < 0), ?_⟩
    have h1 : ((q.num.natAbs : ℚ)) = |(q.num : ℚ)| := by
      rw [Nat.cast_natAbs, Int.cast_abs]
    have h2 : |(q.num : ℚ)| / q.den = |q| := by
      conv_rhs => rw [← Rat.num_div_den q]
      rw [abs_div, Nat.abs_cast]
    rw [h1, h2]
    by_cases h : q < 0
    · simp [h, signOf, abs_of_neg h]
    · simp [h, signOf, abs_of_nonneg (not_lt.1 h)]
  have hk := key_roundTo (T := F64) neg q.num.natAbs q.den_pos
  rw [hs] at hk
  have hf := rnd_finite (T := F64) hq
  have hfin : Finite (roundTo neg q.num.natAbs q.den : F64) := by rw [finite_key, hk]; exact hf
  refine le_trans (hx.least _ hfin) ?_
  rw [value_key, hk]
  have hp : (0 : ℚ) ≤ |q| / 2 ^ 53 := by positivity
  have hp2 : (0 : ℚ) ≤ 1 / 2 ^ 1075 := by positivity
  rcases rnd_error (Lawful.good : (fmt F64).Good) hf with h | h
  · refine le_trans h ?_
    have : (1 : ℚ) / 2 / 2 ^ (fmt F64).scale = 1 / 2 ^ 1075 := by
      rw [show (fmt F64).scale = 1074 from rfl, div_div, ← pow_succ']
    rw [this]
    generalize (1 : ℚ) / 2 ^ 1075 = z at *
    linarith
  · refine le_trans h ?_
    rw [show (fmt F64).frac + 1 = 53 from rfl]
    generalize (1 : ℚ) / 2 ^ 1075 = z at *
    linarith

theorem sums_near (u z : ℚ) : ∀ (l : List F64) (qs : List ℚ),
    List.Forall₂ (fun (x : F64) (q : ℚ) => |value x - q| ≤ |q| * u + z) l qs →
    |(l.map value).sum - qs.sum| ≤ (qs.map abs).sum * u + l.length * z ∧
      (l.map fun x => |value x|).sum ≤ (qs.map abs).sum * (1 + u) + l.length * z := by
  intro l qs h
  induction h with
  | nil => simp
  | @cons x q l qs hx _ ih =>
    obtain ⟨h1, h2⟩ := ih
    simp only [List.map_cons, List.sum_cons, List.length_cons]
    push_cast
    constructor
    · have e : value x + (l.map value).sum - (q + qs.sum) = (value x - q) + ((l.map value).sum - qs.sum) := by ring
      rw [e]
      refine le_trans (abs_add_le _ _) ?_
      linarith
    · have e : |value x| ≤ |q| + (|q| * u + z) := by
        have : value x = q + (value x - q) := by ring
        rw [this]
        exact le_trans (abs_add_le _ _) (by linarith)
      linarith

theorem sixteen_le : (16 : ℚ) ≤ tooLarge F64 := by
  have e : tooLarge F64 = (4 * 2 ^ 52 - 1) * (2 : ℚ) ^ ((1023 : ℤ) - 52 - 1) := rfl
  rw [e]
  have : (1 : ℚ) ≤ (2 : ℚ) ^ ((1023 : ℤ) - 52 - 1) := one_le_zpow₀ (by norm_num) (by norm_num)
  linarith

theorem small_le : tooSmall F64 ≤ 1 := by
  have e : tooSmall F64 = (4 * 2 ^ 52 - 1) * (2 : ℚ) ^ ((1 : ℤ) - 1023 - 52 - 2) := rfl
  rw [e]
  have h : (2 : ℚ) ^ ((1 : ℤ) - 1023 - 52 - 2) ≤ (2 : ℚ) ^ (-54 : ℤ) := zpow_le_zpow_right₀ (by norm_num) (by norm_num)
  have h2 : (2 : ℚ) ^ (-54 : ℤ) = 1 / 2 ^ 54 := by rw [zpow_neg, one_div]; norm_num
  rw [h2] at h
  generalize (2 : ℚ) ^ ((1 : ℤ) - 1023 - 52 - 2) = z at *
  have h3 : (4 * 2 ^ 52 - 1) * z ≤ (4 * 2 ^ 52 - 1) * (1 / 2 ^ 54) := mul_le_mul_of_nonneg_left h (by norm_num)
  refine le_trans h3 (by norm_num)

/-- The average of numbers that were read from texts and the mean of what the texts denote. -/
theorem average_near (l : List F64) (qs : List ℚ) (hl : l ≠ [])
    (hr : List.Forall₂ (fun (x : F64) (q : ℚ) => IsNearest q x ∧ |q| < tooLarge F64) l qs)
    (hsum : 4 * (qs.map abs).sum < tooLarge F64) (hlen : l.length ≤ 2 ^ 51) :
    Finite (average l) ∧ |value (average l) - qs.sum / qs.length| ≤
      ((qs.length + 2) / 2 ^ 52) * ((qs.map abs).sum / qs.length) + 3 / 2 ^ 1075 := by
  have hn := hr.length_eq
  have hr' : List.Forall₂ (fun (x : F64) (q : ℚ) => |value x - q| ≤ |q| * (1 / 2 ^ 53) + 1 / 2 ^ 1075) l qs := by
    refine hr.imp (fun x q h => ?_)
    have := read_error h.1 h.2
    rw [mul_one_div]
    exact this
  obtain ⟨h1, h2⟩ := sums_near _ _ l qs hr'
  have hfin : ∀ x ∈ l, Finite x := by
    intro x hx
    obtain ⟨i, hi, rfl⟩ := List.mem_iff_getElem.1 hx
    exact (List.forall₂_iff_get.1 hr).2 i hi (by omega) |>.1.finite
  have hbig := sixteen_le
  have hz1 : (1 : ℚ) / 2 ^ 1075 ≤ 1 / 2 ^ 52 := by
    apply one_div_le_one_div_of_le (by positivity)
    exact pow_le_pow_right₀ (by norm_num) (by norm_num)
  have hz0 : (0 : ℚ) < 1 / 2 ^ 1075 := by positivity
  have e3 : (3 : ℚ) / 2 ^ 1075 = 3 * (1 / 2 ^ 1075) := by ring
  rw [e3]
  clear e3
  have hnq : (1 : ℚ) ≤ l.length := by exact_mod_cast List.length_pos_of_ne_nil hl
  have hnq2 : (l.length : ℚ) ≤ 2 ^ 51 := by exact_mod_cast hlen
  have hA : 0 ≤ (qs.map abs).sum := List.sum_nonneg (by simp)
  rw [← hn]
  generalize hzz : (1 : ℚ) / 2 ^ 1075 = z at *
  clear hr hr'
  have hB : 2 * (l.map fun x => |value x|).sum < tooLarge F64 := by
    clear hzz
    have : (l.length : ℚ) * z ≤ 1 := by
      have := mul_le_mul hnq2 hz1 hz0.le (by positivity)
      refine le_trans this (by norm_num)
    generalize tooLarge F64 = B at *
    generalize (l.map fun x => |value x|).sum = V at *
    generalize (qs.map abs).sum = Q at *
    have : Q * (1 + 1 / 2 ^ 53) ≤ Q * (3 / 2) := mul_le_mul_of_nonneg_left (by norm_num) hA
    linarith
  have hav := C96_average l hl hfin hB hlen
  obtain ⟨hf, hm⟩ := hav
  refine ⟨hf, ?_⟩
  rw [show (fmt F64).frac = 52 from rfl] at hm
  rw [FloatWindows.mean, FloatWindows.magnitude] at hm
  rw [hzz] at hm
  clear hzz hbig hsum hB hf
  generalize value (average l) = a at *
  generalize (l.map value).sum = SV at *
  generalize (l.map fun x => |value x|).sum = V at *
  generalize (qs.map abs).sum = Q at *
  generalize qs.sum = SQ at *
  generalize (l.length : ℚ) = n at *
  have hn0 : (0 : ℚ) < n := by linarith
  have e1 : |SV / n - SQ / n| ≤ Q / n * (1 / 2 ^ 53) + z := by
    rw [← sub_div, abs_div, abs_of_pos hn0, div_le_iff₀ hn0]
    have : (Q / n * (1 / 2 ^ 53) + z) * n = Q * (1 / 2 ^ 53) + n * z := by field_simp
    rw [this]
    exact h1
  have e2 : V / n ≤ Q / n + (Q / n * (1 / 2 ^ 53) + z) := by
    rw [div_le_iff₀ hn0]
    have : (Q / n + (Q / n * (1 / 2 ^ 53) + z)) * n = Q * (1 + 1 / 2 ^ 53) + n * z := by
      field_simp
      ring
    rw [this]
    exact h2
  have hc1 : (n + 1) / 2 ^ 52 ≤ 1 := by
    rw [div_le_one (by positivity)]
    have : (2 : ℚ) ^ 51 + 1 ≤ 2 ^ 52 := by norm_num
    linarith
  have hc0 : 0 ≤ (n + 1) / 2 ^ 52 := by positivity
  have hQ : 0 ≤ Q / n := by positivity
  generalize Q / n = M at *
  generalize V / n = W at *
  have e3 : (n + 1) / 2 ^ 52 * W ≤ (n + 1) / 2 ^ 52 * M + (M * (1 / 2 ^ 53) + z) := by
    have i1 := mul_le_mul_of_nonneg_left e2 hc0
    have i2 : (n + 1) / 2 ^ 52 * (M * (1 / 2 ^ 53) + z) ≤ 1 * (M * (1 / 2 ^ 53) + z) :=
      mul_le_mul_of_nonneg_right hc1 (by positivity)
    rw [mul_add] at i1
    linarith
  have e4 : a - SQ / n = (a - SV / n) + (SV / n - SQ / n) := by ring
  rw [e4]
  refine le_trans (abs_add_le _ _) ?_
  have e5 : (n + 2) / 2 ^ 52 * M = (n + 1) / 2 ^ 52 * M + 2 * (M * (1 / 2 ^ 53)) := by ring
  rw [e5]
  linarith

theorem value_sign {T : Type} [Binary T] (x : T) : value x = (if negative x then -1 else 1) * |value x| := by
  unfold value
  rw [abs_mul]
  have h1 : |(if negative x then (-1 : ℚ) else 1)| = 1 := by split <;> norm_num
  rw [h1, one_mul]
  congr 1
  rw [abs_of_nonneg]
  split
  · exact mul_nonneg (div_nonneg (Nat.cast_nonneg _) (by positivity)) (zpow_nonneg (by norm_num) _)
  · refine mul_nonneg ?_ (zpow_nonneg (by norm_num) _)
    have : (0 : ℚ) ≤ (fraction x : ℚ) / 2 ^ Binary.frac T := div_nonneg (Nat.cast_nonneg _) (by positivity)
    linarith

/-- The text of the average: a number with six decimals, half a millionth and the rounding errors away from the mean. -/
theorem C96_text (l : List F64) (qs : List ℚ) (hl : l ≠ [])
    (hr : List.Forall₂ (fun (x : F64) (q : ℚ) => IsNearest q x ∧ |q| < tooLarge F64) l qs)
    (hsum : 4 * (qs.map abs).sum < tooLarge F64) (hlen : l.length ≤ 2 ^ 51) :
    ∃ (neg : Bool) (k : Nat), TextTraits.toText (average l) = sixDecimals neg k ∧
      |(if neg then -1 else 1) * ((k : ℚ) / 1000000) - qs.sum / qs.length| ≤
        1 / 2000000 + ((qs.length + 2) / 2 ^ 52) * ((qs.map abs).sum / qs.length) + 3 / 2 ^ 1075 := by
  obtain ⟨hf, he⟩ := average_near l qs hl hr hsum hlen
  obtain ⟨k, h1, h2, -⟩ := C67_text.2 (average l) hf
  refine ⟨negative (average l), k, h1, ?_⟩
  have h3 : |(if negative (average l) then -1 else 1) * ((k : ℚ) / 1000000) - value (average l)| ≤ 1 / 2000000 := by
    rw [value_sign (average l)]
    have h4 := signed_dist (negative (average l)) ((k : ℚ) / 1000000) |value (average l)|
    unfold signOf at h4
    rw [h4]
    exact h2
  have e : (if negative (average l) then -1 else 1) * ((k : ℚ) / 1000000) - qs.sum / qs.length =
      ((if negative (average l) then -1 else 1) * ((k : ℚ) / 1000000) - value (average l)) +
        (value (average l) - qs.sum / qs.length) := by ring
  rw [e]
  refine le_trans (abs_add_le _ _) ?_
  rw [add_assoc]
  exact add_le_add h3 he

/-- Every text in a column of a floating point type starts with a decimal number, `den`, that a `double` can hold. -/
def Decimals (den : List UInt8 → ℚ) (types : List UInt32) (rows : List (TsIn K (List UInt8))) : Prop :=
  ∀ x ∈ rows, ∀ (i : Nat) v, x.cells[i]? = some (some v) → Averaged types i →
    (∃ neg, Numeral v neg (den v)) ∧ |den v| < tooLarge F64 ∧
      (tooSmall F64 ≤ |den v| ∨ ∃ y : F64, Finite y ∧ value y = den v)

/-- The number that a text is read as. -/
def read (v : List UInt8) : F64 := match (TextTraits.fromText v : Except Err F64) with
  | .ok d => d
  | .error _ => zero false

theorem read_spec {v : List UInt8} {q : ℚ} (h : ∃ neg, Numeral v neg q) (h1 : |q| < tooLarge F64)
    (h2 : tooSmall F64 ≤ |q| ∨ ∃ y : F64, Finite y ∧ value y = q) :
    (TextTraits.fromText v : Except Err F64) = .ok (read v) ∧ IsNearest q (read v) := by
  obtain ⟨neg, hn⟩ := h
  obtain ⟨x, e, hx, -⟩ := (C67_read v neg q hn).2.2 (by
    rintro (h | ⟨h, h'⟩)
    · exact absurd h1 (not_lt.2 h)
    · rcases h2 with h2 | ⟨y, hy, hv⟩
      · exact absurd h (not_lt.2 h2)
      · exact h' y hy hv)
  have : read v = x := by unfold read; rw [e]
  rw [this]
  exact ⟨e, hx⟩

/-- C96: training on texts that denote numbers ends with a transformer whose replacement value for each series and column of a
floating point type is a number with six decimals, at most half a millionth and the rounding errors away from the mean of what
the training texts of the series and column denote. -/
theorem C96_training_partial [LinearOrder K]
    (X : Xf (TsConfig K (List UInt8)) (TsIn K (List UInt8)) (TsIn K (List UInt8))) (den : List UInt8 → ℚ)
    (types : List UInt32) (strategy : TsStrategy) (suppress : Bool) (space : Nat)
    (maps : AnnotationMaps (TsAnnotation K F64)) (batches : List (List (TsIn K (List UInt8))))
    (hcol : 0 < maps.length) (hne : batches ≠ []) (hb : NoEmptyBatch batches)
    (hf : getAnnotation (fun _ => true) maps 0 "TimeSeriesFrequencyEstimator" = .ok none)
    (hm : getAnnotation (fun _ => true) maps 0 "TimeSeriesMedianEstimator" = .ok none)
    (hnew : strategy = .median → suppress = false → ∀ ty ∈ types, supportsMedian ty = true)
    (hw : WellFormedRows types batches.flatten) (hd : Decimals den types batches.flatten)
    (ht : Trainable den types batches.flatten)
    (hsum : ∀ x ∈ batches.flatten, ∀ i, Averaged types i →
      4 * ((keyValues den x.key i batches.flatten).map abs).sum < tooLarge F64)
    (hlen : batches.flatten.length ≤ 2 ^ 51) :
    ∃ c, TsYields X TextTraits.fromText (TextTraits.toText : F64 → List UInt8) types strategy suppress space maps batches
        (.ok c) ∧ c.strategy = strategy ∧ TrainedOn read TextTraits.toText types batches.flatten c ∧
      ∀ x ∈ batches.flatten, ∀ i, i < x.cells.length → Averaged types i →
        ∃ (l : List (List UInt8)) (neg : Bool) (k : Nat), c.medians.find? x.key = some l ∧ l[i]? = some (sixDecimals neg k) ∧
          |(if neg then -1 else 1) * ((k : ℚ) / 1000000) - Feat.mean (keyValues den x.key i batches.flatten)| ≤
            1 / 2000000 +
              (((keyValues den x.key i batches.flatten).length + 2) / 2 ^ 52) *
                Feat.mean ((keyValues den x.key i batches.flatten).map abs) + 3 / 2 ^ 1075 := by
  have hr : ReadableRows TextTraits.fromText read types batches.flatten :=
    ⟨hw, fun x hx i v h1 h2 => (read_spec (hd x hx i v h1 h2).1 (hd x hx i v h1 h2).2.1 (hd x hx i v h1 h2).2.2).1⟩
  have hkv : ∀ k i, keyValues read k i batches.flatten ≠ [] ↔ keyValues den k i batches.flatten ≠ [] := by
    intro k i
    unfold keyValues
    simp only [ne_eq, List.map_eq_nil_iff]
  have ht' : Trainable read types batches.flatten :=
    ⟨ht.columns, ht.increasing, ht.twoRows, fun x hx i hi ha => (hkv _ _).2 (ht.values x hx i hi ha)⟩
  obtain ⟨c, h1, h2, -, -, h5⟩ := (C63_training X TextTraits.fromText read TextTraits.toText types strategy suppress space maps
    batches hcol hne hb hf hm hnew hr).1 ht'
  refine ⟨c, h5, h2, h1, fun x hx i hi ha => ?_⟩
  obtain ⟨l, g1, -, g3⟩ := h1.known x hx
  have g4 := (g3 i hi).1 ha
  have hF : List.Forall₂ (fun (x : F64) (q : ℚ) => IsNearest q x ∧ |q| < tooLarge F64)
      (keyValues read x.key i batches.flatten) (keyValues den x.key i batches.flatten) := by
    unfold keyValues
    rw [List.forall₂_map_left_iff, List.forall₂_map_right_iff]
    rw [List.forall₂_same]
    intro v hv
    obtain ⟨r, hr1, hr2⟩ := List.mem_filterMap.1 hv
    have hr3 : r ∈ batches.flatten := (List.mem_filter.1 hr1).1
    have hr4 : r.cells[i]? = some (some v) := by
      rcases hc : r.cells[i]? with _ | c
      · rw [hc] at hr2; simp at hr2
      · rw [hc] at hr2; simp at hr2; rw [hr2]
    obtain ⟨d1, d2, d3⟩ := hd r hr3 i v hr4 ha
    exact ⟨(read_spec d1 d2 d3).2, d2⟩
  have hlen' : (keyValues read x.key i batches.flatten).length ≤ 2 ^ 51 := by
    refine le_trans ?_ hlen
    unfold keyValues
    rw [List.length_map]
    exact (List.length_filterMap_le _ _).trans (List.length_filter_le _ _)
  obtain ⟨neg, k, t1, t2⟩ := C96_text _ _ (ht'.values x hx i hi ha) hF (hsum x hx i ha) hlen'
  refine ⟨l, neg, k, g1, g4.trans (congrArg some t1), ?_⟩
  unfold Feat.mean
  rw [List.length_map]
  exact t2

/-- A training value that is not a number makes every replacement value of its series and column "NaN". -/
theorem C96_nan (l : List F64) (x : F64) (hx : x ∈ l) (hn : isNaN x = true) :
    TextTraits.toText (average l) = [78, 97, 78] := by
  have h1 : isNaN (l.foldl add (zero false)) = true := sum_nan l _ (.inr ⟨x, hx, hn⟩)
  have h2 : isNaN (average l) = true := by
    rw [average_eq]
    simp [div, h1]
    decide +kernel
  exact (C67_nan.2 (average l) ((isNaN_iff _).1 h2)).1

/-- "4e-7" -/
def fourE7 : List UInt8 := [52, 101, 45, 55]

/-- "1e308" -/
def e308 : List UInt8 := [49, 101, 51, 48, 56]

/-- A mean need not be written with six decimals' precision of its own size: trained on "4e-7" only, null cells become
"0.000000". -/
theorem C96_small_refuted : TextTraits.toText (average [read fourE7, read fourE7]) = [48, 46, 48, 48, 48, 48, 48, 48] := by
  decide +kernel

/-- The sum can overflow although the mean would not: trained on "1e308" twice, null cells become "inf". -/
theorem C96_overflow_refuted : TextTraits.toText (average [read e308, read e308]) = [105, 110, 102] := by
  decide +kernel

/-- "1.5" and "2" give "1.750000". -/
example : TextTraits.toText (average [read [49, 46, 53], read [50]]) = [49, 46, 55, 53, 48, 48, 48, 48] := by
  decide +kernel

/-! ### The hypotheses can be met -/

/-- "1.500000" and "2.000000", and nothing at the third time. -/
def sampleRows : List (TsIn Bool (List UInt8)) :=
  [⟨0, true, [some (sixDecimals false 1500000)]⟩, ⟨5, true, [some (sixDecimals false 2000000)]⟩, ⟨10, true, [none]⟩]

def sampleDen (v : List UInt8) : ℚ := if v = sixDecimals false 1500000 then 3 / 2 else 2

example : WellFormedRows [12] sampleRows ∧ Decimals sampleDen [12] sampleRows ∧ Trainable sampleDen [12] sampleRows ∧
    ∀ x ∈ sampleRows, ∀ i, Averaged [12] i → 4 * ((keyValues sampleDen x.key i sampleRows).map abs).sum < tooLarge F64 := by
  have hne : sixDecimals false 2000000 ≠ sixDecimals false 1500000 := by decide +kernel
  have hd : ∀ v, v = sixDecimals false 1500000 ∨ v = sixDecimals false 2000000 →
      (∃ neg, Numeral v neg (sampleDen v)) ∧ 1 ≤ |sampleDen v| ∧ |sampleDen v| < 16 := by
    rintro v (rfl | rfl)
    · refine ⟨⟨false, ?_⟩, ?_⟩
      · have := C67_text_denotes false 1500000
        convert this using 1
        norm_num [sampleDen]
      · norm_num [sampleDen]
    · refine ⟨⟨false, ?_⟩, ?_⟩
      · have := C67_text_denotes false 2000000
        convert this using 1
        rw [sampleDen, if_neg hne]
        norm_num
      · rw [sampleDen, if_neg hne]
        norm_num
  have hi : ∀ i, Averaged [12] i → i = 0 := by
    rintro i ⟨ty, h, -⟩
    by_contra h0
    rw [List.getElem?_eq_none (by simp; omega)] at h
    cases h
  have hk : ∀ x ∈ sampleRows, x.key = true := by decide
  have hv : keyValues sampleDen true 0 sampleRows = [3 / 2, 2] := by
    show [sampleDen (sixDecimals false 1500000), sampleDen (sixDecimals false 2000000)] = _
    rw [sampleDen, if_pos rfl, sampleDen, if_neg hne]
  refine ⟨⟨by decide, by decide, by decide⟩, ?_, ⟨by decide, ?_, ⟨true, by decide⟩, ?_⟩, ?_⟩
  · intro x hx i v h1 h2
    have hiz := hi i h2
    subst hiz
    have hmem : v = sixDecimals false 1500000 ∨ v = sixDecimals false 2000000 := by
      simp only [sampleRows, List.mem_cons, List.not_mem_nil, or_false] at hx
      rcases hx with rfl | rfl | rfl
      · simp at h1; exact .inl h1.symm
      · simp at h1; exact .inr h1.symm
      · simp at h1
    obtain ⟨d1, d2, d3⟩ := hd v hmem
    exact ⟨d1, lt_of_lt_of_le d3 sixteen_le, .inl (small_le.trans d2)⟩
  · intro k
    cases k <;> decide
  · intro x hx i hi' ha
    have hiz := hi i ha
    subst hiz
    rw [hk x hx, hv]
    simp
  · intro x hx i ha
    have hiz := hi i ha
    subst hiz
    rw [hk x hx, hv]
    refine lt_of_lt_of_le ?_ sixteen_le
    norm_num [abs_of_nonneg]

end Feat.FloatTimeSeries
