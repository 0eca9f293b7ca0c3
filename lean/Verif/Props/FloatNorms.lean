import Verif.Proofs.FloatNormsTrain
import Verif.Proofs.FloatInf
/-
C70: row normalization in floating point arithmetic.
-/
namespace Feat.FloatNorms
open FloatText FloatArith
variable {V α : Type}

/-- The element types of rows: how the code treats them, the elements that are allowed, and the numbers they are. -/
inductive Elements : (V : Type) → NormInput V → (V → Prop) → Reading V → Prop
  | float : Elements F32 (floNorm F32) (fun x => ¬ IsInf x) floNumber
  | double : Elements F64 (floNorm F64) (fun x => ¬ IsInf x) floNumber
  | int (V : Type) [CInt V] (hlo : -2 ^ 64 ≤ CInt.lo V) (hhi : CInt.hi V ≤ 2 ^ 64) :
    Elements V (intNorm V) (fun _ => True) (fun x => some (CInt.toInt x : ℚ))

theorem Elements.lawful {k : NormInput V} {ok : V → Prop} {val : Reading V} (h : Elements V k ok val) : NormLawful k ok val := by
  cases h with
  | float => exact float_lawful
  | double => exact double_lawful
  | int _ hlo hhi =>
    refine int_lawful fun x => ?_
    have := CInt.range x
    omega

/-- The outcome of normalizing with the norm `S`: as `Normalized` says, and, unless the norm is extremely small or large, nearly the
exact quotients. -/
def Accurate (val : Reading V) (S : List ℚ → ℝ) (row : List V) (out : List F64) : Prop :=
  Normalized val row out ∧ (1 / 2 ^ 1000 ≤ S (numbers val row) → S (numbers val row) ≤ 2 ^ 1023 →
    Near (S (numbers val row)) ((numbers val row).length / 2 ^ 62 + 1 / 2 ^ 49) val row out)

theorem numbers_ne {T : Type} [FloType T] [Lawful T] {row : List T} (h : ∃ x ∈ row, ¬ IsNaN x) :
    numbers floNumber row ≠ [] := by
  obtain ⟨x, hx, hn⟩ := h
  cases hv : (floNumber x : Option ℚ) with
  | none =>
    rw [floNumber_none, isNaN_iff] at hv
    exact absurd hv hn
  | some q => exact List.ne_nil_of_mem (List.mem_filterMap.2 ⟨x, hx, hv⟩)

/-- L1 normalization. -/
theorem C70_l1_partial {k : NormInput V} {ok : V → Prop} {val : Reading V} (hk : Elements V k ok val)
    (col cap : Nat) (hcap : 0 < cap) (batches : List (List (List V))) (hne : batches ≠ []) (hb : NoEmptyBatch batches)
    (maps : AnnotationMaps (NumAnnot V F64)) (hcol : col < maps.length)
    (hnone : getAnnotation NumAnnot.isNorms maps col "VectorNormsEstimator" = .ok none)
    (hrows : ∀ row ∈ batches.flatten.take cap, (∀ x ∈ row, ok x) ∧ numbers val row ≠ [] ∧
      (NoneNegligible ((numbers val row).map fun q => |q|) ∨ SmallNaturals ((numbers val row).map fun q => |q|))) :
    ∃ t : Normalizer F64,
      (∀ X : Xf (Normalizer F64) (List V) (List V),
        FeaturizerYields X (fun _ => normsComponent k l1 col cap) 1 (makeNormalizer col) batches maps (.ok t)) ∧
      Normalizes (normalizeXf k) (Accurate val fun l => (sumAbs l : ℚ)) (batches.flatten.take cap) t := by
  refine normalize_trained k l1 _ col cap hcap batches hne hb maps hcol hnone ?_
  intro row hr
  obtain ⟨h1, h2, h3⟩ := hrows row hr
  obtain ⟨a, e1, e2, e3, e4⟩ := l1_row hk.lawful h1 h2 (h3.imp_right .inl)
  exact ⟨a, e1, e2, e3, e4⟩

/-- L2 normalization. -/
theorem C70_l2_partial {k : NormInput V} {ok : V → Prop} {val : Reading V} (hk : Elements V k ok val)
    (col cap : Nat) (hcap : 0 < cap) (batches : List (List (List V))) (hne : batches ≠ []) (hb : NoEmptyBatch batches)
    (maps : AnnotationMaps (NumAnnot V F64)) (hcol : col < maps.length)
    (hnone : getAnnotation NumAnnot.isNorms maps col "VectorNormsEstimator" = .ok none)
    (hrows : ∀ row ∈ batches.flatten.take cap, (∀ x ∈ row, ok x) ∧ numbers val row ≠ [] ∧
      (NoneNegligible ((numbers val row).map fun q => q ^ 2) ∨ SmallNaturals ((numbers val row).map fun q => q ^ 2))) :
    ∃ t : Normalizer F64,
      (∀ X : Xf (Normalizer F64) (List V) (List V),
        FeaturizerYields X (fun _ => normsComponent k l2 col cap) 1 (makeNormalizer col) batches maps (.ok t)) ∧
      Normalizes (normalizeXf k) (Accurate val fun l => Real.sqrt (sumSq l : ℚ)) (batches.flatten.take cap) t := by
  refine normalize_trained k l2 _ col cap hcap batches hne hb maps hcol hnone ?_
  intro row hr
  obtain ⟨h1, h2, h3⟩ := hrows row hr
  obtain ⟨a, e1, e2, e3, e4⟩ := l2_row hk.lawful h1 h2 (h3.imp_right .inl)
  exact ⟨a, e1, e2, e3, e4⟩

theorem sum_trained {k : NormInput V} {ok : V → Prop} {val : Reading V} (L : NormLawful k ok val) (g c : F80 → F80)
    (S : List ℚ → ℝ) (col cap : Nat) (hcap : 0 < cap) (batches : List (List (List V))) (hne : batches ≠ []) (hb : NoEmptyBatch batches)
    (maps : AnnotationMaps (NumAnnot V F64)) (hcol : col < maps.length)
    (hnone : getAnnotation NumAnnot.isNorms maps col "VectorNormsEstimator" = .ok none)
    (hrow : ∀ row ∈ batches.flatten.take cap, numbers val row ≠ [] → Accepted k ⟨fun a x => accumulate a (g x), c⟩ row →
      RowNorm k ⟨fun a x => accumulate a (g x), c⟩ val row (S (numbers val row))) :
    ∃ r : Except Err (Normalizer F64),
      (∀ X : Xf (Normalizer F64) (List V) (List V),
        FeaturizerYields X (fun _ => normsComponent k ⟨fun a x => accumulate a (g x), c⟩ col cap) 1 (makeNormalizer col) batches maps r) ∧
      (r = .error .runtimeError ∨ ∃ t, r = .ok t ∧ (∀ row ∈ batches.flatten.take cap, numbers val row ≠ []) ∧
        Normalizes (normalizeXf k) (Accurate val S) (batches.flatten.take cap) t) := by
  rcases norms_total L g c (NumAnnot.norms (V := V)) (batches.flatten.take cap) with h | h
  · obtain ⟨t, h1, h2⟩ := normalize_trained k ⟨fun a x => accumulate a (g x), c⟩ (Accurate val S) col cap hcap batches hne hb maps hcol hnone
      (fun row hr => by
        obtain ⟨a, e1, e2, e3, e4⟩ := hrow row hr (h row hr).1 (h row hr).2
        exact ⟨a, e1, e2, e3, e4⟩)
    exact ⟨.ok t, h1, .inr ⟨t, rfl, fun row hr => (h row hr).1, h2⟩⟩
  · refine ⟨.error .runtimeError, fun X => ?_, .inl rfl⟩
    have ht := trainEstimator_run (normsPolicy k ⟨fun a x => accumulate a (g x), c⟩ (NumAnnot.norms (V := V))) (fun _ _ => rfl)
      (normsConfig col NumAnnot.isNorms) cap hcap ([], Acc.start) _ hb maps hcol rfl hnone
    obtain ⟨s, hs⟩ := h []
    rw [hs] at ht
    exact featurizer_one X (normsComponent k ⟨fun a x => accumulate a (g x), c⟩ col cap) (makeNormalizer col) _ hne hb maps hcol _ _ ht

/-- L1 normalization of any rows: the training throws `runtime_error`, or the outcome is accurate for all rows. -/
theorem C70_l1 {k : NormInput V} {ok : V → Prop} {val : Reading V} (hk : Elements V k ok val)
    (col cap : Nat) (hcap : 0 < cap) (batches : List (List (List V))) (hne : batches ≠ []) (hb : NoEmptyBatch batches)
    (maps : AnnotationMaps (NumAnnot V F64)) (hcol : col < maps.length)
    (hnone : getAnnotation NumAnnot.isNorms maps col "VectorNormsEstimator" = .ok none)
    (hrows : ∀ row ∈ batches.flatten.take cap, (∀ x ∈ row, ok x) ∧ (numbers val row).length ≤ 2 ^ 60) :
    ∃ r : Except Err (Normalizer F64),
      (∀ X : Xf (Normalizer F64) (List V) (List V),
        FeaturizerYields X (fun _ => normsComponent k l1 col cap) 1 (makeNormalizer col) batches maps r) ∧
      (r = .error .runtimeError ∨ ∃ t, r = .ok t ∧ (∀ row ∈ batches.flatten.take cap, numbers val row ≠ []) ∧
        Normalizes (normalizeXf k) (Accurate val fun l => (sumAbs l : ℚ)) (batches.flatten.take cap) t) :=
  sum_trained hk.lawful absolute id _ col cap hcap batches hne hb maps hcol hnone fun row hr hn ha =>
    l1_row hk.lawful (hrows row hr).1 hn (.inr (.inr ⟨by rw [List.length_map]; exact (hrows row hr).2, ha⟩))

/-- The same for L2. -/
theorem C70_l2 {k : NormInput V} {ok : V → Prop} {val : Reading V} (hk : Elements V k ok val)
    (col cap : Nat) (hcap : 0 < cap) (batches : List (List (List V))) (hne : batches ≠ []) (hb : NoEmptyBatch batches)
    (maps : AnnotationMaps (NumAnnot V F64)) (hcol : col < maps.length)
    (hnone : getAnnotation NumAnnot.isNorms maps col "VectorNormsEstimator" = .ok none)
    (hrows : ∀ row ∈ batches.flatten.take cap, (∀ x ∈ row, ok x) ∧ (numbers val row).length ≤ 2 ^ 60) :
    ∃ r : Except Err (Normalizer F64),
      (∀ X : Xf (Normalizer F64) (List V) (List V),
        FeaturizerYields X (fun _ => normsComponent k l2 col cap) 1 (makeNormalizer col) batches maps r) ∧
      (r = .error .runtimeError ∨ ∃ t, r = .ok t ∧ (∀ row ∈ batches.flatten.take cap, numbers val row ≠ []) ∧
        Normalizes (normalizeXf k) (Accurate val fun l => Real.sqrt (sumSq l : ℚ)) (batches.flatten.take cap) t) :=
  sum_trained hk.lawful (fun x => mul (absolute x) (absolute x)) sqrt _ col cap hcap batches hne hb maps hcol hnone fun row hr hn ha =>
    l2_row hk.lawful (hrows row hr).1 hn (.inr (.inr ⟨by rw [List.length_map]; exact (hrows row hr).2, ha⟩))

/-- What max normalization does to a row: as above, and the extremes become exactly 1 or -1. -/
def MaxAccurate (val : Reading V) (row : List V) (out : List F64) : Prop :=
  Accurate val (fun l => (maxAbs l : ℚ)) row out ∧
  ∀ (i : Nat) x y q, row[i]? = some x → out[i]? = some y → val x = some q → q ≠ 0 →
    |q| = maxAbs (numbers val row) → |value y| = 1

/-- The outcome for a row whose largest absolute value is the `long double` `a`: an element of this size becomes 1 or -1 if it is
representable as a `double`. -/
theorem max_accurate {k : NormInput V} {ok : V → Prop} {val : Reading V} (L : NormLawful k ok val) {row : List V}
    (h1 : ∀ x ∈ row, ok x) {a : F80} (e5 : Finite a) (e6 : value a = maxAbs (numbers val row)) :
    Accurate val (fun l => (maxAbs l : ℚ)) row (row.map (quotient k (FloatArith.cast a))) ∧
    ∀ (i : Nat) x y q, row[i]? = some x → (row.map (quotient k (FloatArith.cast a)))[i]? = some y → val x = some q → q ≠ 0 →
      |q| = maxAbs (numbers val row) → (∃ z : F64, Finite z ∧ value z = q) → |value y| = 1 := by
  obtain ⟨-, e3, e4⟩ := max_commit L h1 e5 e6
  refine ⟨⟨e3, ?_⟩, ?_⟩
  · intro hS1 hS2
    have hb1 : 1 / 2 ^ 1000 ≤ maxAbs (numbers val row) := by
      refine (Rat.cast_le (K := ℝ)).1 ?_
      push_cast
      exact hS1
    have hb2 : maxAbs (numbers val row) ≤ 2 ^ 1023 := by
      refine (Rat.cast_le (K := ℝ)).1 ?_
      push_cast
      exact hS2
    refine (e4 hb1 hb2).mono ?_
    have : (0 : ℝ) ≤ (numbers val row).length / 2 ^ 62 := by positivity
    refine le_trans (by norm_num) (le_add_of_nonneg_left this)
  · intro i x y q hx hy hv hq hm hrep
    rw [List.getElem?_map, hx] at hy
    simp only [Option.map_some, Option.some.injEq] at hy
    subst hy
    have hok := h1 x (List.mem_of_getElem? hx)
    obtain ⟨z, hz, hzv⟩ := hrep
    have hkz : key (FloatArith.cast a : F64) = |key z| := by
      rw [key_cast e5, e6, ← hm, ← hzv, FloatScalers.rnd_abs, rnd_value hz]
    have hfn : Finite (FloatArith.cast a : F64) := by
      rw [finite_key, hkz, Int.natAbs_abs, ← finite_key]
      exact hz
    have hvn : value (FloatArith.cast a : F64) = |q| := by
      rw [value_key, hkz, FloatScalers.fval_abs, ← value_key, hzv]
    have hpos : 0 < value (FloatArith.cast a : F64) := by rw [hvn]; exact abs_pos.2 hq
    have hone : |q / value (FloatArith.cast a : F64)| = 1 := by
      rw [hvn, abs_div, abs_abs, div_self (abs_pos.2 hq).ne']
    obtain ⟨_, hk⟩ := quotient_key L hfn hpos hok hv (by rw [hone]; norm_num)
    show |value (quotient k (FloatArith.cast a) x)| = 1
    rw [value_key, ← FloatScalers.fval_abs, hk, ← FloatScalers.rnd_abs, ← FloatScalers.fval_abs, ← FloatScalers.rnd_abs, hone]
    have hl := FloatScalers.value_ofInt_one (T := F80)
    have hd := FloatScalers.value_ofInt_one (T := F64)
    rw [← hl.2, rnd_value hl.1, ← value_key, hl.2, ← hd.2, rnd_value hd.1, ← value_key, hd.2]

theorem max_trained {k : NormInput V} {ok : V → Prop} {val : Reading V} (L : NormLawful k ok val)
    (hrep : ∀ x q, ok x → val x = some q → ∃ z : F64, Finite z ∧ value z = q)
    (col cap : Nat) (hcap : 0 < cap) (batches : List (List (List V))) (hne : batches ≠ []) (hb : NoEmptyBatch batches)
    (maps : AnnotationMaps (NumAnnot V F64)) (hcol : col < maps.length)
    (hnone : getAnnotation NumAnnot.isNorms maps col "VectorNormsEstimator" = .ok none)
    (hrows : ∀ row ∈ batches.flatten.take cap, (∀ x ∈ row, ok x) ∧ numbers val row ≠ []) :
    ∃ t : Normalizer F64,
      (∀ X : Xf (Normalizer F64) (List V) (List V),
        FeaturizerYields X (fun _ => normsComponent k maxNorm col cap) 1 (makeNormalizer col) batches maps (.ok t)) ∧
      Normalizes (normalizeXf k) (MaxAccurate val) (batches.flatten.take cap) t := by
  refine normalize_trained k maxNorm _ col cap hcap batches hne hb maps hcol hnone ?_
  intro row hr
  obtain ⟨h1, h2⟩ := hrows row hr
  obtain ⟨a, e1, e5, e6⟩ := max_row L h1 h2
  obtain ⟨g1, g2⟩ := max_accurate L h1 e5 e6
  exact ⟨a, e1, (max_commit L h1 e5 e6).1, g1, fun i x y q hx hy hv hq hm =>
    g2 i x y q hx hy hv hq hm (hrep x q (h1 x (List.mem_of_getElem? hx)) hv)⟩

/-- The same for integers; an element of the largest size becomes 1 or -1 if it is at most 2^53. -/
def IntMaxAccurate [CInt V] (row : List V) (out : List F64) : Prop :=
  Accurate (fun x => some (CInt.toInt x : ℚ)) (fun l => (maxAbs l : ℚ)) row out ∧
  ∀ (i : Nat) x y, row[i]? = some x → out[i]? = some y → CInt.toInt x ≠ 0 → (∀ z ∈ row, (CInt.toInt z).natAbs ≤ (CInt.toInt x).natAbs) →
    (CInt.toInt x).natAbs ≤ 2 ^ 53 → |value y| = 1

theorem maxAbs_le {l : List ℚ} {m : ℚ} (h0 : 0 ≤ m) (h : ∀ q ∈ l, |q| ≤ m) : maxAbs l ≤ m := by
  induction l with
  | nil => exact h0
  | cons a l ih => exact max_le (h a (by simp)) (ih fun q hq => h q (List.mem_cons_of_mem _ hq))

/-- Max normalization of integers: every row is accepted that is not empty, unless it has the smallest number of a signed type. -/
theorem C70_max_integers [CInt V] (hhi : CInt.hi V < 2 ^ 64) (hlo : CInt.lo V ≤ 0) (hlo' : -2 ^ 64 ≤ CInt.lo V)
    (col cap : Nat) (hcap : 0 < cap) (batches : List (List (List V))) (hne : batches ≠ [])
    (hb : NoEmptyBatch batches) (maps : AnnotationMaps (NumAnnot V F64)) (hcol : col < maps.length)
    (hnone : getAnnotation NumAnnot.isNorms maps col "VectorNormsEstimator" = .ok none)
    (hrows : ∀ row ∈ batches.flatten.take cap, row ≠ [] ∧ ∀ x ∈ row, -CInt.toInt x ≤ CInt.hi V) :
    ∃ t : Normalizer F64,
      (∀ X : Xf (Normalizer F64) (List V) (List V),
        FeaturizerYields X (fun _ => intMaxComponent col cap) 1 (makeNormalizer col) batches maps (.ok t)) ∧
      Normalizes (normalizeXf (intNorm V)) IntMaxAccurate (batches.flatten.take cap) t := by
  have hfit : ∀ x : V, (CInt.toInt x).natAbs ≤ 2 ^ 64 := by
    intro x
    have := CInt.range x
    omega
  have L := int_lawful hfit
  refine policy_trained (intNorm V) (intMaxPolicy .norms) (0, false) (0, false) IntMaxAccurate _ col cap hcap batches hne hb maps
    hcol hnone (fun _ _ => rfl) (fun _ _ => rfl) (by
      rw [intMax_run hhi hlo _ _ hrows []]
      rfl) ?_
  intro row hr
  have hn : topMagnitude row 0 ≤ 2 ^ 64 := by
    have h : (topMagnitude row 0 : ℚ) ≤ ((2 ^ 64 : Nat) : ℚ) := by
      rw [topMagnitude_zero]
      refine maxAbs_le (by positivity) ?_
      intro q hq
      obtain ⟨x, -, hx⟩ := List.mem_filterMap.1 hq
      simp only [Option.some.injEq] at hx
      rw [← hx, ← Int.cast_abs, ← Nat.cast_natAbs]
      exact_mod_cast hfit x
    exact_mod_cast h
  have hex := ofInt_exact (T := F80) (z := (topMagnitude row 0 : Int)) (by
    rw [show 2 * 2 ^ (fmt F80).frac = 2 ^ 64 from rfl]; simpa using hn)
  have e6 : value (ofInt (topMagnitude row 0 : Int) : F80) = maxAbs (numbers (fun x : V => some (CInt.toInt x : ℚ)) row) := by
    rw [hex.2, Int.cast_natCast, topMagnitude_zero]
  obtain ⟨g1, g2⟩ := max_accurate L (fun _ _ => trivial) hex.1 e6
  have hc := (max_commit L (row := row) (fun _ _ => trivial) hex.1 e6).1
  rw [cast_ofInt hn] at g1 g2 hc
  refine ⟨hc, g1, ?_⟩
  intro i x y hx hy h0 htop h53
  have hz := ofInt_exact (T := F64) (z := CInt.toInt x) (by
    rw [show 2 * 2 ^ (fmt F64).frac = 2 ^ 53 from rfl]; exact h53)
  refine g2 i x y _ hx hy rfl (by exact_mod_cast h0) (le_antisymm (le_maxAbs ?_) ?_) ⟨_, hz.1, hz.2⟩
  · exact List.mem_filterMap.2 ⟨x, List.mem_of_getElem? hx, rfl⟩
  · refine maxAbs_le (abs_nonneg _) ?_
    intro q hq
    obtain ⟨z, hz, hz2⟩ := List.mem_filterMap.1 hq
    simp only [Option.some.injEq] at hz2
    rw [← hz2, ← Int.cast_abs, ← Int.cast_abs, ← Nat.cast_natAbs, ← Nat.cast_natAbs]
    exact_mod_cast htop z hz

/-- Rows of `int16_t`. -/
example : ∃ t : Normalizer F64,
    (∀ X : Xf (Normalizer F64) (List Int16) (List Int16),
      FeaturizerYields X (fun _ => intMaxComponent 0 9) 1 (makeNormalizer 0) [[[3, -32767], [0]], [[5]]] [[]] (.ok t)) ∧
    Normalizes (normalizeXf (intNorm Int16)) IntMaxAccurate [[3, -32767], [0], [5]] t :=
  C70_max_integers (by decide) (by decide) (by decide) 0 9 (by decide) _ (by simp) (by intro b hb; simp at hb; rcases hb with rfl | rfl <;> simp)
    [[]] (by simp) rfl (by
      intro row hr
      simp only [List.flatten_cons, List.flatten_nil, List.append_nil, List.cons_append, List.nil_append, List.take_succ_cons, List.take_nil,
        List.mem_cons, List.not_mem_nil, or_false] at hr
      rcases hr with rfl | rfl | rfl <;> decide)

/-- Beyond 2^53 the largest element need not become 1: the only element of the row, 2^62 + 513, becomes 1 - 2^-53. -/
theorem C70_max_large_refuted :
    ∃ t : Normalizer F64,
      (∀ X : Xf (Normalizer F64) (List Int64) (List Int64),
        FeaturizerYields X (fun _ => intMaxComponent 0 9) 1 (makeNormalizer 0) [[[4611686018427388417]]] [[]] (.ok t)) ∧
      ∃ y, ((normalizeXf (intNorm Int64)).execAll t [[4611686018427388417]]).outs = [[y]] ∧ FloatArith.lt y (ofInt 1) = true := by
  obtain ⟨t, h1, h2, h3, h4, h5⟩ := policy_trained (intNorm Int64) (intMaxPolicy .norms) (0, false) (0, false)
    (fun row out => row = [4611686018427388417] → ∃ y, out = [y] ∧ FloatArith.lt y (ofInt 1) = true) (fun _ => ofInt 4611686018427388417) 0 9
    (by decide) [[[4611686018427388417]]] (by simp) (by intro b hb; simp at hb; simp [hb]) [[]] (by simp) rfl
    (fun _ _ => rfl) (fun _ _ => rfl) (by rfl) (by
      intro row _
      refine ⟨by decide +kernel, ?_⟩
      rintro rfl
      exact ⟨_, rfl, by decide +kernel⟩)
  refine ⟨t, h1, ?_⟩
  have e : (([[[4611686018427388417]]] : List (List (List Int64))).flatten.take 9) = [[4611686018427388417]] := rfl
  rw [e] at h3 h4
  match ho : ((normalizeXf (intNorm Int64)).execAll t [[4611686018427388417]]).outs with
  | [] => rw [ho] at h3; simp at h3
  | [out] =>
    obtain ⟨y, hy, hl⟩ := h4 0 _ out rfl (by rw [ho]; rfl) rfl
    exact ⟨y, by rw [hy], hl⟩
  | _ :: _ :: _ => rw [ho] at h3; simp at h3

/-- The smallest `int8_t` is taken for a huge number: beside it everything becomes nearly 0, and so does it itself. -/
theorem C70_max_int8_refuted : (intMaxPolicy (V := Int8) (α := Unit) fun _ => ()).fit [-128, 100] ([], (0, false))
    = (.ok (), ([ofInt 18446744073709551488], (0, false))) ∧
    FloatArith.lt (quotient (intNorm Int8) (ofInt 18446744073709551488) 100) (FloatArith.cast (⟨0x3C000000⟩ : F32)) = true := by
  exact ⟨by decide +kernel, by decide +kernel⟩

/-- Max normalization of `double`: every row is accepted that has a number and no infinity. -/
theorem C70_max_double (col cap : Nat) (hcap : 0 < cap) (batches : List (List (List F64))) (hne : batches ≠ [])
    (hb : NoEmptyBatch batches) (maps : AnnotationMaps (NumAnnot F64 F64)) (hcol : col < maps.length)
    (hnone : getAnnotation NumAnnot.isNorms maps col "VectorNormsEstimator" = .ok none)
    (hrows : ∀ row ∈ batches.flatten.take cap, (∀ x ∈ row, ¬ IsInf x) ∧ ∃ x ∈ row, ¬ IsNaN x) :
    ∃ t : Normalizer F64,
      (∀ X : Xf (Normalizer F64) (List F64) (List F64),
        FeaturizerYields X (fun _ => normsComponent (floNorm F64) maxNorm col cap) 1 (makeNormalizer col) batches maps (.ok t)) ∧
      Normalizes (normalizeXf (floNorm F64)) (MaxAccurate floNumber) (batches.flatten.take cap) t :=
  max_trained double_lawful (fun x _ ho hv => ⟨x, floNumber_some hv ho⟩) col cap hcap batches hne hb maps hcol hnone
    (fun row hr => ⟨(hrows row hr).1, numbers_ne (hrows row hr).2⟩)

/-- Max normalization of `float`. -/
theorem C70_max_float (col cap : Nat) (hcap : 0 < cap) (batches : List (List (List F32))) (hne : batches ≠ [])
    (hb : NoEmptyBatch batches) (maps : AnnotationMaps (NumAnnot F32 F64)) (hcol : col < maps.length)
    (hnone : getAnnotation NumAnnot.isNorms maps col "VectorNormsEstimator" = .ok none)
    (hrows : ∀ row ∈ batches.flatten.take cap, (∀ x ∈ row, ¬ IsInf x) ∧ ∃ x ∈ row, ¬ IsNaN x) :
    ∃ t : Normalizer F64,
      (∀ X : Xf (Normalizer F64) (List F32) (List F32),
        FeaturizerYields X (fun _ => normsComponent (floNorm F32) maxNorm col cap) 1 (makeNormalizer col) batches maps (.ok t)) ∧
      Normalizes (normalizeXf (floNorm F32)) (MaxAccurate floNumber) (batches.flatten.take cap) t :=
  max_trained float_lawful (fun x q ho hv => by
      obtain ⟨h1, h2⟩ := floNumber_some hv ho
      obtain ⟨h3, h4⟩ := cast_exact (T := F64) h1
      exact ⟨_, h3, h4.trans h2⟩) col cap hcap batches hne hb maps hcol hnone
    (fun row hr => ⟨(hrows row hr).1, numbers_ne (hrows row hr).2⟩)

/-! ### Rows that are refused -/

/-- A sum that a number is too small to change. -/
theorem add_absorbs {T : Type} [FloType T] [Lawful T] {a d : T} (ha : Finite a) (hd : Finite d) (hd0 : 0 ≤ value d)
    (h : value d ≤ value a / 2 ^ ((fmt T).frac + 2)) : key (add a d) = key a := by
  have hP : (0 : ℚ) < 2 ^ ((fmt T).frac + 2) := by positivity
  have ha0 : 0 ≤ value a := by
    by_contra hlt
    have := div_neg_of_neg_of_pos (not_le.1 hlt) hP
    linarith
  have hk0 : 0 ≤ key a := by
    rw [value_key] at ha0
    by_contra hlt
    have := fval_lt (F := fmt T) (a := key a) (b := 0) |>.2 (by omega)
    rw [fval_zero] at this
    linarith
  obtain ⟨m, hm⟩ : ∃ m : Nat, key a = m := ⟨(key a).toNat, by omega⟩
  have hmf : m < (fmt T).inf := by
    rw [finite_key, hm] at ha
    simpa using ha
  rw [key_add ha hd]
  have hmono := rnd_mono (Lawful.good (T := T)) (show value a ≤ value a + value d by linarith)
  rw [rnd_value ha] at hmono
  by_contra hne
  have hgt : ((m + 1 : Nat) : Int) ≤ rnd (fmt T) (value a + value d) := by
    rw [hm] at hmono hne
    push_cast
    omega
  -- half the gap above `a`
  have hS : (0 : ℚ) < 2 ^ (fmt T).scale := by positivity
  have hva : value a = ((fmt T).mag m : ℚ) / 2 ^ (fmt T).scale := by rw [value_key, hm, fval_nat]
  have hg := mag_gap (fmt T) m
  rw [(fmt T).mag_succ] at hg
  obtain ⟨g, hgdef⟩ : ∃ g, 2 ^ (m / 2 ^ (fmt T).frac - 1) = g := ⟨_, rfl⟩
  have hg0 : 0 < g := by rw [← hgdef]; positivity
  have hsucc := (fmt T).mag_succ m
  rw [hgdef] at hg hsucc
  have hgq : ((fmt T).mag m : ℚ) + g ≤ 2 ^ ((fmt T).frac + 1) * g := by exact_mod_cast hg
  have hgq0 : (0 : ℚ) < g := by exact_mod_cast hg0
  have hvm : fval (fmt T) ((m + 1 : Nat) : Int) = value a + g / 2 ^ (fmt T).scale := by
    rw [fval_nat, hsucc, hva]
    push_cast
    ring
  have hdlt : value d < g / 2 ^ (fmt T).scale / 2 := by
    refine lt_of_le_of_lt h ?_
    rw [hva, pow_succ (2 : ℚ) ((fmt T).frac + 1), div_div, div_div, div_lt_div_iff₀ (by positivity) (by positivity)]
    have hlt : ((fmt T).mag m : ℚ) < g * 2 ^ ((fmt T).frac + 1) := by linarith
    have := mul_lt_mul_of_pos_right hlt (show (0 : ℚ) < 2 ^ (fmt T).scale * 2 by positivity)
    nlinarith [this]
  have hle : rnd (fmt T) (value a + value d) ≤ (m : Int) := by
    obtain ⟨m', hn, e⟩ := rnd_near (Lawful.good (T := T)) (show 0 ≤ value a + value d by linarith)
    rw [e]
    by_contra hlt
    have hm' : m + 1 ≤ m' := by omega
    have hmag : (fmt T).mag m + g ≤ (fmt T).mag m' := by
      rw [← hsucc]
      exact (fmt T).mag_mono.monotone hm'
    have hmagq : ((fmt T).mag m : ℚ) + g ≤ (fmt T).mag m' := by exact_mod_cast hmag
    have h1 := (hn m).1
    have e1 : (value a + value d) * 2 ^ (fmt T).scale = (fmt T).mag m + value d * 2 ^ (fmt T).scale := by
      rw [hva, add_mul, div_mul_cancel₀ _ hS.ne']
    have h2 : value d * 2 ^ (fmt T).scale < g / 2 := by
      have := mul_lt_mul_of_pos_right hdlt hS
      rwa [div_right_comm, div_mul_cancel₀ _ hS.ne'] at this
    rw [e1] at h1
    have h3 : (0 : ℚ) ≤ value d * 2 ^ (fmt T).scale := by positivity
    generalize value d * 2 ^ (fmt T).scale = u at *
    rw [abs_of_nonneg (show 0 ≤ ((fmt T).mag m' : ℚ) - ((fmt T).mag m + u) by linarith),
      show ((fmt T).mag m : ℚ) - ((fmt T).mag m + u) = -u by ring, abs_neg, abs_of_nonneg h3] at h1
    linarith
  push_cast at hgt
  omega

theorem accumulate_absorbs {a d : F80} (ha : Finite a) (hd : Finite d) (hd0 : 0 < value d) (h : value d ≤ value a / 2 ^ 65) :
    accumulate a d = (.error .runtimeError, a) := by
  have hk := add_absorbs ha hd hd0.le (by rw [show (fmt F80).frac + 2 = 65 from rfl]; exact h)
  have hf : Finite (add a d) := by rw [finite_key, hk, ← finite_key]; exact ha
  unfold accumulate
  have h1 : eq (add a d) a = true := by rw [eq_iff hf ha, value_key, hk, ← value_key]
  have h2 : eq d (zero false) = false := by
    rw [← Bool.not_eq_true, eq_iff hd (finite_zero _), value_zero]
    exact hd0.ne'
  rw [h1, h2]
  simp

/-- The first row of those seen is refused. -/
theorem refused {k : NormInput V} {u : Updater} {row : List V} {s : Acc} {e : Err}
    (h : updateAll k u row Acc.start = (.error e, s))
    (col cap : Nat) (hcap : 0 < cap) (batch : List (List V)) (batches : List (List (List V))) (hb : NoEmptyBatch batches)
    (maps : AnnotationMaps (NumAnnot V F64)) (hcol : col < maps.length)
    (hnone : getAnnotation NumAnnot.isNorms maps col "VectorNormsEstimator" = .ok none)
    (X : Xf (Normalizer F64) (List V) (List V)) :
    FeaturizerYields X (fun _ => normsComponent k u col cap) 1 (makeNormalizer col) ((row :: batch) :: batches) maps (.error e) := by
  have hb' : NoEmptyBatch ((row :: batch) :: batches) := by
    intro b hb1
    rcases List.mem_cons.1 hb1 with rfl | hb1
    · simp
    · exact hb b hb1
  have ht := trainEstimator_run (normsPolicy k u (NumAnnot.norms (V := V))) (fun _ _ => rfl)
    (normsConfig col NumAnnot.isNorms) cap hcap ([], Acc.start) _ hb' maps hcol rfl hnone
  obtain ⟨c, rfl⟩ : ∃ c, cap = c + 1 := ⟨cap - 1, by omega⟩
  have hf : (normsPolicy k u (NumAnnot.norms (V := V))).fit row ([], Acc.start) = (.error e, ([], s)) := by
    simp only [normsPolicy, h]
  rw [List.flatten_cons, List.cons_append, List.take_succ_cons] at ht
  simp only [Policy.fitAll, hf] at ht
  exact featurizer_one X (normsComponent k u col (c + 1)) (makeNormalizer col) _ (by simp) hb' maps hcol _ _ ht

/-- The second number of a row is absorbed by the first. -/
theorem two_absorbed {k : NormInput V} {g c : F80 → F80} {x y : V} {row : List V} (hx : ¬ k.null x = true) (hy : ¬ k.null y = true)
    (hf : Finite (g (k.toL x))) (hg : Finite (g (k.toL y))) (h0 : 0 ≤ value (g (k.toL x))) (h1 : 0 < value (g (k.toL y)))
    (h : value (g (k.toL y)) ≤ value (g (k.toL x)) / 2 ^ 65) :
    updateAll k ⟨fun a x => accumulate a (g x), c⟩ (x :: y :: row) Acc.start
      = (.error .runtimeError, ⟨add (zero false) (g (k.toL x)), true⟩) := by
  have hz : value (zero false : F80) = 0 := value_zero _
  have hlt : |value (g (k.toL x))| < tooLarge F80 := by
    rw [← rnd_finite_iff, rnd_value hf, ← finite_key]
    exact hf
  rw [abs_of_nonneg h0] at hlt
  obtain ⟨e1, e2, _⟩ := accumulate_ok (finite_zero false) hf (by rw [hz]) h0 (by
    rw [hz]
    rcases h0.eq_or_lt with h | h
    · exact .inl h.symm
    · exact .inr (by positivity)) (by rw [hz, zero_add]; exact hlt)
  have hk : key (add (zero false) (g (k.toL x))) = key (g (k.toL x)) := by
    rw [key_add (finite_zero _) hf, hz, zero_add, rnd_value hf]
  have hv : value (add (zero false) (g (k.toL x))) = value (g (k.toL x)) := by rw [value_key, hk, ← value_key]
  have e3 := accumulate_absorbs e2 hg h1 (by rw [hv]; exact h)
  simp only [updateAll, if_neg hx, if_neg hy, Acc.start, e1, e3]

/-- What is wanted is that every row of finite numbers is accepted. Instead the training throws whenever a row begins with two
numbers the second of which is not zero but at most `2^-65` times the first, for L1. -/
theorem C70_l1_refuted {k : NormInput V} {ok : V → Prop} {val : Reading V} (hk : Elements V k ok val) {x y : V} {p q : ℚ}
    (hx : ok x) (hy : ok y) (hxv : val x = some p) (hyv : val y = some q) (hq : q ≠ 0) (hle : |q| ≤ |p| / 2 ^ 65) (row : List V)
    (col cap : Nat) (hcap : 0 < cap) (batch : List (List V)) (batches : List (List (List V))) (hb : NoEmptyBatch batches)
    (maps : AnnotationMaps (NumAnnot V F64)) (hcol : col < maps.length)
    (hnone : getAnnotation NumAnnot.isNorms maps col "VectorNormsEstimator" = .ok none)
    (X : Xf (Normalizer F64) (List V) (List V)) :
    FeaturizerYields X (fun _ => normsComponent k l1 col cap) 1 (makeNormalizer col) (((x :: y :: row) :: batch) :: batches) maps
      (.error .runtimeError) := by
  have L := hk.lawful
  refine refused (s := ⟨add (zero false) (absolute (k.toL x)), true⟩) ?_ col cap hcap batch batches hb maps hcol hnone X
  have hterm : ∀ z r, ok z → val z = some r → Finite (absolute (k.toL z)) ∧ value (absolute (k.toL z)) = |r| := by
    intro z r ho hv
    obtain ⟨hf, he⟩ := L.exact z r ho hv
    have hk := key_absolute (k.toL z)
    refine ⟨by rw [finite_key, hk, Int.natAbs_abs, ← finite_key]; exact hf, ?_⟩
    rw [value_key, hk, ← he, value_key]
    exact FloatScalers.fval_abs _
  obtain ⟨h1, h2⟩ := hterm x p hx hxv
  obtain ⟨h3, h4⟩ := hterm y q hy hyv
  have hn1 : ¬ k.null x = true := by rw [L.null, hxv]; simp
  have hn2 : ¬ k.null y = true := by rw [L.null, hyv]; simp
  exact two_absorbed (g := absolute) (c := id) hn1 hn2 h1 h3 (by rw [h2]; exact abs_nonneg p) (by rw [h4]; exact abs_pos.2 hq)
    (by rw [h2, h4]; exact hle)

/-- The same for L2, with `2^-33`. -/
theorem C70_l2_refuted {k : NormInput V} {ok : V → Prop} {val : Reading V} (hk : Elements V k ok val) {x y : V} {p q : ℚ}
    (hx : ok x) (hy : ok y) (hxv : val x = some p) (hyv : val y = some q) (hq : q ≠ 0) (hle : |q| ≤ |p| / 2 ^ 33) (row : List V)
    (col cap : Nat) (hcap : 0 < cap) (batch : List (List V)) (batches : List (List (List V))) (hb : NoEmptyBatch batches)
    (maps : AnnotationMaps (NumAnnot V F64)) (hcol : col < maps.length)
    (hnone : getAnnotation NumAnnot.isNorms maps col "VectorNormsEstimator" = .ok none)
    (X : Xf (Normalizer F64) (List V) (List V)) :
    FeaturizerYields X (fun _ => normsComponent k l2 col cap) 1 (makeNormalizer col) (((x :: y :: row) :: batch) :: batches) maps
      (.error .runtimeError) := by
  have L := hk.lawful
  refine refused (s := ⟨add (zero false) (mul (absolute (k.toL x)) (absolute (k.toL x))), true⟩) ?_ col cap hcap batch batches hb
    maps hcol hnone X
  obtain ⟨h1, h2, h3, -⟩ := square_term L hx hxv
  obtain ⟨h4, h5, h6, -⟩ := square_term L hy hyv
  have hn1 : ¬ k.null x = true := by rw [L.null, hxv]; simp
  have hn2 : ¬ k.null y = true := by rw [L.null, hyv]; simp
  rw [← h2] at h3
  rw [← h5] at h6
  have hp0 : 0 ≤ p ^ 2 := by positivity
  have hq0 : 0 < q ^ 2 := by positivity
  have hsq : q ^ 2 ≤ p ^ 2 / 2 ^ 66 := by
    have := pow_le_pow_left₀ (abs_nonneg q) hle 2
    rw [sq_abs, div_pow, sq_abs] at this
    norm_num at this ⊢
    exact this
  have a3 := abs_le.1 h3
  have a6 := abs_le.1 h6
  exact two_absorbed (g := fun x => mul (absolute x) (absolute x)) (c := sqrt) hn1 hn2 h1 h4 (by linarith) (by linarith)
    (by show value (mul _ _) ≤ value (mul _ _) / 2 ^ 65; linarith)

/-! ### Other surprises -/

theorem eq_ok {r : Except Err Unit × Acc} (h1 : r.1.toBool = true) (h2 : r.2.valid = true) : r = (.ok (), ⟨r.2.acc, true⟩) := by
  obtain ⟨_ | u, a, v⟩ := r
  · cases h1
  · cases h2
    rfl

theorem value_big : Finite (ofInt (2 ^ 65) : F64) ∧ value (ofInt (2 ^ 65) : F64) = 2 ^ 65 := by
  have h := of_exists (x := (ofInt (2 ^ 65) : F64)) (m := (fmt F64).nearest (2 ^ 65) 1) (key_ofInt _) (by decide +kernel) (by
    rw [show (fmt F64).mag ((fmt F64).nearest (2 ^ 65) 1) = 2 ^ 65 * 2 ^ 1074 by decide +kernel,
      show (fmt F64).scale = 1074 by decide +kernel]
    push_cast
    rw [mul_div_assoc, div_self (by positivity), mul_one, abs_of_pos (by positivity)])
  rw [show (((2 ^ 65 : Int) : ℚ)) = 2 ^ 65 by norm_num] at h
  exact h

/-- The order matters: 1 and 2^65 are accepted in this order (C70_l1_refuted says that they are not in the other one). -/
theorem C70_order_refuted : ∃ x y : F64, Finite x ∧ Finite y ∧ value x ≠ 0 ∧ |value x| ≤ |value y| / 2 ^ 65 ∧
    ∃ t : Normalizer F64, ∀ X : Xf (Normalizer F64) (List F64) (List F64),
      FeaturizerYields X (fun _ => normsComponent (floNorm F64) l1 0 1) 1 (makeNormalizer 0) [[[x, y]]] [[]] (.ok t) := by
  obtain ⟨t, ht, _⟩ := normalize_trained (floNorm F64) l1 (fun _ _ => True) 0 1 (by decide)
    [[[ofInt 1, ofInt (2 ^ 65)]]] (by simp) (by intro b hb; simp at hb; simp [hb]) [[]] (by simp) rfl (by
      intro row hr
      simp only [List.flatten_cons, List.flatten_nil, List.append_nil, List.take_succ_cons, List.take_zero, List.mem_singleton] at hr
      subst hr
      exact ⟨_, eq_ok (by decide +kernel) (by decide +kernel), by decide +kernel, trivial⟩)
  refine ⟨_, _, FloatScalers.value_one.1, value_big.1, ?_, ?_, t, ht⟩
  · rw [FloatScalers.value_one.2]; norm_num
  · rw [FloatScalers.value_one.2, value_big.2]; norm_num

/-- An overflow: all the quotients of two numbers are 0 although they are equal and not 0. -/
theorem C70_overflow_refuted : ∃ x : F64, Finite x ∧ value x ≠ 0 ∧ ∃ t : Normalizer F64,
    (∀ X : Xf (Normalizer F64) (List F64) (List F64),
      FeaturizerYields X (fun _ => normsComponent (floNorm F64) l1 0 1) 1 (makeNormalizer 0) [[[x, x]]] [[]] (.ok t)) ∧
    ((normalizeXf (floNorm F64)).execAll t [[x, x]]).outs = [[zero false, zero false]] := by
  obtain ⟨t, ht, h1, h2, h3, _⟩ := normalize_trained (floNorm F64) l1 (fun _ out => out = [zero false, zero false]) 0 1 (by decide)
    [[[largest, largest]]] (by simp) (by intro b hb; simp at hb; simp [hb]) [[]] (by simp) rfl (by
      intro row hr
      simp only [List.flatten_cons, List.flatten_nil, List.append_nil, List.take_succ_cons, List.take_zero, List.mem_singleton] at hr
      subst hr
      exact ⟨_, eq_ok (by decide +kernel) (by decide +kernel), by decide +kernel, by decide +kernel⟩)
  refine ⟨largest, finite_largest, ?_, t, ht, ?_⟩
  · have := value_le_largest FloatScalers.value_one.1
    rw [FloatScalers.value_one.2] at this
    linarith
  · have e : (([[[largest, largest]]] : List (List (List F64))).flatten.take 1) = [[largest, largest]] := rfl
    rw [e] at h2 h3
    obtain ⟨o, ho⟩ : ∃ o, ((normalizeXf (floNorm F64)).execAll t [[largest, largest]]).outs = [o] := List.length_eq_one_iff.1 h2
    rw [ho, h3 0 _ o rfl (by rw [ho]; rfl)]

theorem eq_pair {β : Type} {r : Except Err Unit × β} {b : β} (h : r.2 = b) :
    (r.1.toBool = true → r = (.ok (), b)) ∧ ((match r.1 with | .error e => e == .runtimeError | _ => false) = true →
      r = (.error .runtimeError, b)) := by
  subst h
  obtain ⟨e | u, b⟩ := r
  · refine ⟨fun h => by simp [Except.toBool] at h, fun h => ?_⟩
    simp only [beq_iff_eq] at h
    rw [h]
  · exact ⟨fun _ => rfl, fun h => by simp at h⟩

/-- `fit` of the component, as a user of the estimator calls it. -/
abbrev fitRow (row : List F64) (s : List F64 × Acc) : Except Err Unit × (List F64 × Acc) :=
  (normsComponent (floNorm F64) l1 0 9).policy.fit row s

/-- After a row was refused the sum so far goes into the next row's norm: that of the row 3 is not 3; and a row without any number,
which is otherwise refused, is accepted. -/
theorem C70_after_exception_refuted :
    (∃ s, fitRow [ofInt 3] ([], Acc.start) = (.ok (), ([ofInt 3], s))) ∧
    (∃ s, fitRow [nan] ([], Acc.start) = (.error .runtimeError, s)) ∧
    ∃ s, fitRow [ofInt (2 ^ 65), ofInt 1] ([], Acc.start) = (.error .runtimeError, s) ∧
      (∃ s', fitRow [ofInt 3] s = (.ok (), ([ofInt (2 ^ 65)], s'))) ∧
      ∃ norms s', fitRow [nan] s = (.ok (), (norms, s')) := by
  refine ⟨⟨Acc.start, (eq_pair (by decide +kernel)).1 (by decide +kernel)⟩, ⟨_, (eq_pair rfl).2 (by decide +kernel)⟩,
    ([], ⟨cast (ofInt (2 ^ 65) : F64), true⟩), (eq_pair (by decide +kernel)).2 (by decide +kernel),
    ⟨Acc.start, (eq_pair (by decide +kernel)).1 (by decide +kernel)⟩, ⟨[ofInt (2 ^ 65)], Acc.start, (eq_pair (by decide +kernel)).1 (by decide +kernel)⟩⟩

/-- Rows seen in training one of which has an infinity: the training throws, for L1. -/
theorem C70_l1_infinite {T : Type} [FloType T] [Lawful T] [Wider T F80]
    (col cap : Nat) (hcap : 0 < cap) (batches : List (List (List T))) (hne : batches ≠ []) (hb : NoEmptyBatch batches)
    (maps : AnnotationMaps (NumAnnot T F64)) (hcol : col < maps.length)
    (hnone : getAnnotation NumAnnot.isNorms maps col "VectorNormsEstimator" = .ok none)
    (hinf : ∃ row ∈ batches.flatten.take cap, ∃ x ∈ row, IsInf x) (X : Xf (Normalizer F64) (List T) (List T)) :
    FeaturizerYields X (fun _ => normsComponent (floNorm T) l1 col cap) 1 (makeNormalizer col) batches maps
      (.error .runtimeError) := by
  have ht := trainEstimator_run (normsPolicy (floNorm T) l1 (NumAnnot.norms (V := T))) (fun _ _ => rfl)
    (normsConfig col NumAnnot.isNorms) cap hcap ([], Acc.start) batches hb maps hcol rfl hnone
  obtain ⟨s, hs⟩ := fitAll_inf flo_abs_summand id (NumAnnot.norms (V := T)) (batches.flatten.take cap) hinf []
  rw [show l1 = ⟨fun a x => accumulate a (absolute x), id⟩ from rfl, hs] at ht
  exact featurizer_one X (normsComponent (floNorm T) l1 col cap) (makeNormalizer col) batches hne hb maps hcol _ _ ht

/-- The same for L2. -/
theorem C70_l2_infinite {T : Type} [FloType T] [Lawful T] [Wider T F80]
    (col cap : Nat) (hcap : 0 < cap) (batches : List (List (List T))) (hne : batches ≠ []) (hb : NoEmptyBatch batches)
    (maps : AnnotationMaps (NumAnnot T F64)) (hcol : col < maps.length)
    (hnone : getAnnotation NumAnnot.isNorms maps col "VectorNormsEstimator" = .ok none)
    (hinf : ∃ row ∈ batches.flatten.take cap, ∃ x ∈ row, IsInf x) (X : Xf (Normalizer F64) (List T) (List T)) :
    FeaturizerYields X (fun _ => normsComponent (floNorm T) l2 col cap) 1 (makeNormalizer col) batches maps
      (.error .runtimeError) := by
  have ht := trainEstimator_run (normsPolicy (floNorm T) l2 (NumAnnot.norms (V := T))) (fun _ _ => rfl)
    (normsConfig col NumAnnot.isNorms) cap hcap ([], Acc.start) batches hb maps hcol rfl hnone
  obtain ⟨s, hs⟩ := fitAll_inf flo_sq_summand sqrt (NumAnnot.norms (V := T)) (batches.flatten.take cap) hinf []
  rw [show l2 = ⟨fun a x => accumulate a ((fun x => mul (absolute x) (absolute x)) x), sqrt⟩ from rfl, hs] at ht
  exact featurizer_one X (normsComponent (floNorm T) l2 col cap) (makeNormalizer col) batches hne hb maps hcol _ _ ht

/-! Non-vacuity: the rows (3, NaN, -4) and (1, 2^-20) of `double`, and rows of `int64_t`. -/

example : ∃ t : Normalizer F64, Normalizes (normalizeXf (floNorm F64)) (Accurate floNumber fun l => (sumAbs l : ℚ))
    [[ofInt 3, nan, ofInt (-4)], [ofInt 5]] t := by
  have h3 := ofInt_exact (T := F64) (z := 3) (by decide +kernel)
  have h4 := ofInt_exact (T := F64) (z := -4) (by decide +kernel)
  have h5 := ofInt_exact (T := F64) (z := 5) (by decide +kernel)
  have hn : ∀ {x : F64}, Finite x → floNumber x = some (value x) := by
    intro x hx
    unfold floNumber
    rw [if_neg]
    intro h
    have : isNaN x = true := (isNaN_iff x).2 h
    rw [Finite.not_nan hx] at this
    cases this
  have hnan : floNumber (nan : F64) = none := floNumber_none.2 (by decide +kernel)
  have e1 : numbers floNumber [(ofInt 3 : F64), nan, ofInt (-4)] = [3, -4] := by
    simp [numbers, hn h3.1, hn h4.1, hnan, h3.2, h4.2]
  have e2 : numbers floNumber [(ofInt 5 : F64)] = [5] := by
    simp [numbers, hn h5.1, h5.2]
  obtain ⟨t, _, h⟩ := C70_l1_partial .double 0 9 (by decide) [[[ofInt 3, nan, ofInt (-4)], [ofInt 5]]] (by simp)
    (by intro b hb; simp at hb; simp [hb]) [[]] (by simp) rfl (by
      intro row hr
      simp only [List.flatten_cons, List.flatten_nil, List.append_nil, List.take_succ_cons, List.take_nil, List.mem_cons,
        List.not_mem_nil, or_false] at hr
      rcases hr with rfl | rfl
      · refine ⟨?_, by rw [e1]; simp, .inl ?_⟩
        · intro x hx
          rw [← isInf_iff]
          simp only [List.mem_cons, List.not_mem_nil, or_false] at hx
          rcases hx with rfl | rfl | rfl <;> decide +kernel
        · rw [e1]
          refine ⟨by norm_num, ?_⟩
          intro q hq
          simp at hq
          rcases hq with rfl | rfl <;> (right; norm_num)
      · refine ⟨?_, by rw [e2]; simp, .inl ?_⟩
        · intro x hx
          rw [← isInf_iff]
          simp only [List.mem_cons, List.not_mem_nil, or_false] at hx
          rcases hx with rfl; decide +kernel
        · rw [e2]
          refine ⟨by norm_num, ?_⟩
          intro q hq
          simp at hq
          subst hq; right; norm_num)
  exact ⟨t, h⟩

example : ∃ t : Normalizer F64, Normalizes (normalizeXf (intNorm Int32)) (Accurate (fun x => some (CInt.toInt x : ℚ))
    fun l => Real.sqrt (sumSq l : ℚ)) [[3, -4]] t := by
  obtain ⟨t, _, h⟩ := C70_l2_partial (.int Int32 (by decide) (by decide)) 0 9 (by decide) [[[3, -4]]] (by simp)
    (by intro b hb; simp at hb; simp [hb]) [[]] (by simp) rfl (by
      intro row hr
      simp only [List.flatten_cons, List.flatten_nil, List.append_nil, List.take_succ_cons, List.take_nil, List.mem_cons,
        List.not_mem_nil, or_false] at hr
      subst hr
      have e : numbers (fun x : Int32 => some (CInt.toInt x : ℚ)) [3, -4] = [3, -4] := by
        simp only [numbers, List.filterMap_cons, List.filterMap_nil]
        rw [show CInt.toInt (3 : Int32) = 3 by decide, show CInt.toInt (-4 : Int32) = -4 by decide]
        norm_num
      refine ⟨fun _ _ => trivial, by rw [e]; simp, .inr ?_⟩
      rw [e]
      refine ⟨by norm_num, by norm_num, ?_⟩
      intro q hq
      simp only [List.map_cons, List.map_nil, List.mem_cons, List.not_mem_nil, or_false] at hq
      rcases hq with rfl | rfl
      · exact ⟨9, by norm_num⟩
      · exact ⟨16, by norm_num⟩)
  exact ⟨t, h⟩

example : ∃ t : Normalizer F64, Normalizes (normalizeXf (floNorm F32)) (MaxAccurate floNumber) [[ofInt 3, nan]] t := by
  obtain ⟨t, _, h⟩ := C70_max_float 0 9 (by decide) [[[ofInt 3, nan]]] (by simp)
    (by intro b hb; simp at hb; simp [hb]) [[]] (by simp) rfl (by
      intro row hr
      simp only [List.flatten_cons, List.flatten_nil, List.append_nil, List.take_succ_cons, List.take_nil, List.mem_cons,
        List.not_mem_nil, or_false] at hr
      subst hr
      refine ⟨?_, ofInt 3, by simp, by rw [← isNaN_iff]; decide +kernel⟩
      intro x hx
      rw [← isInf_iff]
      simp only [List.mem_cons, List.not_mem_nil, or_false] at hx
      rcases hx with rfl | rfl <;> decide +kernel)
  exact ⟨t, h⟩

/-- 2^65 and 1 are refused by L1, and 2^33 and 1 by L2. -/
example (X : Xf (Normalizer F64) (List F64) (List F64)) : FeaturizerYields X (fun _ => normsComponent (floNorm F64) l1 0 9) 1
    (makeNormalizer 0) [[[ofInt (2 ^ 65), ofInt 1]]] [[]] (.error .runtimeError) := by
  have hn : ∀ {x : F64}, Finite x → floNumber x = some (value x) := by
    intro x hx
    unfold floNumber
    rw [if_neg]
    intro h
    have : isNaN x = true := (isNaN_iff x).2 h
    rw [Finite.not_nan hx] at this
    cases this
  exact C70_l1_refuted .double (by rw [← isInf_iff]; decide +kernel) (by rw [← isInf_iff]; decide +kernel) (hn value_big.1)
    (hn FloatScalers.value_one.1) (by rw [FloatScalers.value_one.2]; norm_num)
    (by rw [FloatScalers.value_one.2, value_big.2]; norm_num) [] 0 9 (by decide) [] [] (by intro b hb; simp at hb) [[]] (by simp) rfl X

example (X : Xf (Normalizer F64) (List Int64) (List Int64)) : FeaturizerYields X (fun _ => normsComponent (intNorm Int64) l2 0 9) 1
    (makeNormalizer 0) [[[8589934592, 1]]] [[]] (.error .runtimeError) :=
  C70_l2_refuted (.int Int64 (by decide) (by decide)) trivial trivial rfl rfl
    (by rw [show CInt.toInt (1 : Int64) = 1 by decide]; norm_num)
    (by rw [show CInt.toInt (1 : Int64) = 1 by decide, show CInt.toInt (8589934592 : Int64) = 8589934592 by decide]; norm_num)
    [] 0 9 (by decide) [] [] (by intro b hb; simp at hb) [[]] (by simp) rfl X

example (X : Xf (Normalizer F64) (List F64) (List F64)) : FeaturizerYields X (fun _ => normsComponent (floNorm F64) l2 0 9) 1
    (makeNormalizer 0) [[[ofInt 3], [nan, ofInt 1, infinity true]]] [[]] (.error .runtimeError) :=
  C70_l2_infinite 0 9 (by decide) _ (by simp) (by intro b hb; simp at hb; simp [hb]) [[]] (by simp) rfl
    ⟨[nan, ofInt 1, infinity true], by simp, infinity true, by simp, by rw [← isInf_iff]; decide +kernel⟩ X

end Feat.FloatNorms
