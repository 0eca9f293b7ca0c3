import Verif.Proofs.FloatNorms
/-
Training of the row normalizers in floating point arithmetic.
-/
namespace Feat.FloatNorms
open FloatText FloatArith
variable {V α : Type}

/-! ### The largest absolute value -/

section
variable {k : NormInput V} {ok : V → Prop} {val : Reading V} (L : NormLawful k ok val)

theorem le_maxAbs {l : List ℚ} {q : ℚ} (hq : q ∈ l) : |q| ≤ maxAbs l := by
  induction l with
  | nil => simp at hq
  | cons a l ih =>
    rcases List.mem_cons.1 hq with rfl | hq
    · exact le_max_left _ _
    · exact le_trans (ih hq) (le_max_right _ _)

theorem maxAbs_nonneg (l : List ℚ) : 0 ≤ maxAbs l := by
  cases l with
  | nil => simp [maxAbs]
  | cons a l => exact le_trans (abs_nonneg a) (le_max_left _ _)

include L

theorem max_run (row : List V) (hrow : ∀ x ∈ row, ok x) : ∀ s : Acc, Finite s.acc → 0 ≤ value s.acc →
    ∃ a, updateAll k maxNorm row s = (.ok (), ⟨a, s.valid || !(numbers val row).isEmpty⟩) ∧ Finite a ∧
      value a = max (value s.acc) (maxAbs (numbers val row)) := by
  induction row with
  | nil =>
    intro s hs h0
    refine ⟨s.acc, by simp [updateAll, numbers], hs, ?_⟩
    simp [numbers, maxAbs, h0]
  | cons x row ih =>
    intro s hs h0
    have ih := ih (fun y hy => hrow y (List.mem_cons_of_mem _ hy))
    cases hv : val x with
    | none =>
      have h1 : k.null x = true := by rw [L.null, hv]; rfl
      have e : numbers val (x :: row) = numbers val row := by simp [numbers, hv]
      unfold updateAll
      rw [if_pos h1, e]
      exact ih s hs h0
    | some q =>
      have h1 : ¬ k.null x = true := by rw [L.null, hv]; simp
      have e : numbers val (x :: row) = q :: numbers val row := by simp [numbers, hv]
      obtain ⟨hf, he⟩ := L.exact x q (hrow x (by simp)) hv
      have hk := key_absolute (k.toL x)
      have hfa : Finite (absolute (k.toL x)) := by rw [finite_key, hk, Int.natAbs_abs, ← finite_key]; exact hf
      have hva : value (absolute (k.toL x)) = |q| := by
        rw [value_key, hk, ← he, value_key]
        exact FloatScalers.fval_abs _
      have hnew : ∃ b, (if FloatArith.lt (absolute (k.toL x)) s.acc then s.acc else absolute (k.toL x)) = b ∧ Finite b ∧
          value b = max (value s.acc) |q| := by
        by_cases hl : FloatArith.lt (absolute (k.toL x)) s.acc = true
        · refine ⟨_, if_pos hl, hs, ?_⟩
          rw [lt_iff hfa hs, hva] at hl
          rw [max_eq_left hl.le]
        · refine ⟨_, if_neg hl, hfa, ?_⟩
          rw [lt_iff hfa hs, hva] at hl
          rw [hva, max_eq_right (not_lt.1 hl)]
      obtain ⟨b, e1, hb, hbv⟩ := hnew
      obtain ⟨a, h2, h3, h4⟩ := ih ⟨b, true⟩ hb (by rw [hbv]; exact le_trans h0 (le_max_left _ _))
      refine ⟨a, ?_, h3, ?_⟩
      · unfold updateAll
        rw [if_neg h1]
        simp only [maxNorm]
        rw [e1]
        have h5 : updateAll k maxNorm row ⟨b, true⟩ = (.ok (), ⟨a, true || !(numbers val row).isEmpty⟩) := h2
        unfold maxNorm at h5
        rw [h5, e]
        simp
      · rw [h4, hbv, e, max_assoc]
        rfl

/-- The outcome with the largest absolute value as the norm. -/
theorem max_commit {row : List V} (hrow : ∀ x ∈ row, ok x) {a : F80} (h2 : Finite a) (h3' : value a = maxAbs (numbers val row)) :
      FloatArith.lt (FloatArith.cast a : F64) (zero false) = false ∧
      Normalized val row (row.map (quotient k (FloatArith.cast a))) ∧
      (1 / 2 ^ 1000 ≤ maxAbs (numbers val row) → maxAbs (numbers val row) ≤ 2 ^ 1023 →
        Near (maxAbs (numbers val row) : ℚ) (1 / 2 ^ 50) val row (row.map (quotient k (FloatArith.cast a)))) := by
  obtain ⟨h4, h5, h6⟩ := row_of_commit L hrow h2 (by
      intro hall
      rw [h3']
      clear h3' hrow
      generalize numbers val row = l at *
      induction l with
      | nil => rfl
      | cons b l ih =>
        have := ih (fun q hq => hall q (List.mem_cons_of_mem _ hq))
        unfold maxAbs at this ⊢
        rw [List.foldr_cons, this, hall b (by simp)]
        simp) (by intro q hq; rw [h3']; exact le_maxAbs hq) (by rw [h3']; exact maxAbs_nonneg _)
  refine ⟨h4, h5, ?_⟩
  · intro hS1 hS2
    have hb1 : (1 : ℝ) / 2 ^ 1000 ≤ (maxAbs (numbers val row) : ℚ) := by
      have := (Rat.cast_le (K := ℝ)).2 hS1
      push_cast at this
      exact this
    have hb2 : ((maxAbs (numbers val row) : ℚ) : ℝ) ≤ 2 ^ 1023 := by
      have := (Rat.cast_le (K := ℝ)).2 hS2
      push_cast at this
      exact this
    refine (h6 (maxAbs (numbers val row) : ℚ) 0 hb1 hb2 (le_refl _) (by norm_num) (by rw [h3']; simp) ?_).mono (by norm_num)
    intro q hq
    exact_mod_cast le_maxAbs hq

/-- `MaxNormUpdater`. -/
theorem max_row {row : List V} (hrow : ∀ x ∈ row, ok x) (hne : numbers val row ≠ []) :
    ∃ a, updateAll k maxNorm row Acc.start = (.ok (), ⟨a, true⟩) ∧ Finite a ∧ value a = maxAbs (numbers val row) := by
  obtain ⟨a, h1, h2, h3⟩ := max_run L row hrow Acc.start (finite_zero _) (by simp [Acc.start, value_zero])
  refine ⟨a, ?_, h2, ?_⟩
  · rw [h1]
    cases hn : numbers val row with
    | nil => exact absurd hn hne
    | cons => simp [Acc.start]
  · rw [h3]
    simp only [Acc.start, value_zero]
    exact max_eq_right (maxAbs_nonneg _)

end

/-! ### Training -/

/-- The rows that were trained on, in the same order, are put out in order as `P` says; one more row throws `runtime_error`. -/
def Normalizes (X : Xf (Normalizer F64) (List V) (List F64)) (P : List V → List F64 → Prop) (rows : List (List V))
    (t : Normalizer F64) : Prop :=
  (X.execAll t rows).err = none ∧ (X.execAll t rows).outs.length = rows.length ∧
  (∀ (i : Nat) row out, rows[i]? = some row → (X.execAll t rows).outs[i]? = some out → P row out) ∧
  ∀ row, (X.exec (X.execAll t rows).next row).outs = [] ∧ (X.exec (X.execAll t rows).next row).err = some .runtimeError

theorem execAll_rows (k : NormInput V) (norm : List V → F64) (rows : List (List V)) : ∀ (pre post : List F64),
    (normalizeXf k).execAll ⟨pre ++ rows.map norm ++ post, pre.length⟩ rows
      = ⟨rows.map fun r => r.map (quotient k (norm r)), none, ⟨pre ++ rows.map norm ++ post, pre.length + rows.length⟩⟩ := by
  induction rows with
  | nil => intro pre post; rfl
  | cons r rows ih =>
    intro pre post
    have hget : (pre ++ (r :: rows).map norm ++ post)[pre.length]? = some (norm r) := by simp
    have hex : (normalizeXf k).exec ⟨pre ++ (r :: rows).map norm ++ post, pre.length⟩ r
        = ⟨[r.map (quotient k (norm r))], none, ⟨pre ++ (r :: rows).map norm ++ post, pre.length + 1⟩⟩ := by
      simp only [normalizeXf, execNormalizer, hget]
    have ih := ih (pre ++ [norm r]) post
    have hl : pre ++ [norm r] ++ rows.map norm ++ post = pre ++ (r :: rows).map norm ++ post := by simp
    rw [hl] at ih
    have hlen : (pre ++ [norm r]).length = pre.length + 1 := by simp
    rw [hlen] at ih
    simp only [Xf.execAll]
    rw [hex]
    simp only
    rw [ih]
    simp only [List.map_cons, List.singleton_append, List.length_cons, Run.mk.injEq, Normalizer.mk.injEq, true_and]
    omega

theorem norms_run (k : NormInput V) (u : Updater) (wrap : List F64 → α) (norm : List V → F64) (rows : List (List V))
    (hk : ∀ row ∈ rows, ∃ a, updateAll k u row Acc.start = (.ok (), ⟨a, true⟩) ∧ FloatArith.cast (u.commit a) = norm row) :
    ∀ l, (normsPolicy k u wrap).fitAll rows (l, Acc.start) = (.ok (), (l ++ rows.map norm, Acc.start)) := by
  induction rows with
  | nil => intro l; simp [Policy.fitAll]
  | cons r rows ih =>
    intro l
    obtain ⟨a, h1, h2⟩ := hk r (by simp)
    have hf : (normsPolicy k u wrap).fit r (l, Acc.start) = (.ok (), (l ++ [norm r], Acc.start)) := by
      simp only [normsPolicy, h1, if_true, h2]
    simp only [Policy.fitAll, hf]
    rw [ih (fun row h => hk row (List.mem_cons_of_mem _ h))]
    simp

/-- Training with a policy that computes the norms of all rows. -/
theorem policy_trained {σ : Type} (k : NormInput V) (Pol : Policy (List F64 × σ) (List V) (NumAnnot V F64)) (s0 s1 : σ)
    (P : List V → List F64 → Prop) (norm : List V → F64)
    (col cap : Nat) (hcap : 0 < cap) (batches : List (List (List V))) (hne : batches ≠ []) (hb : NoEmptyBatch batches)
    (maps : AnnotationMaps (NumAnnot V F64)) (hcol : col < maps.length)
    (hnone : getAnnotation NumAnnot.isNorms maps col "VectorNormsEstimator" = .ok none)
    (hbegin : ∀ m s, Pol.begin m s = (.ok true, s))
    (hcomplete : ∀ m s, Pol.complete m s = (if s.1 = [] then .error .invalidArgument
      else if s.1.any (fun n => FloatArith.lt n (zero false)) then .error .invalidArgument
      else .ok (NumAnnot.norms (V := V) s.1), ([], s.2)))
    (hfit : Pol.fitAll (batches.flatten.take cap) ([], s0) = (.ok (), ((batches.flatten.take cap).map norm, s1)))
    (hnorm : ∀ row ∈ batches.flatten.take cap, FloatArith.lt (norm row) (zero false) = false ∧
      P row (row.map (quotient k (norm row)))) :
    ∃ t : Normalizer F64,
      (∀ X : Xf (Normalizer F64) (List V) (List V),
        FeaturizerYields X (fun _ => ⟨Pol, normsConfig col NumAnnot.isNorms, cap, ([], s0)⟩) 1 (makeNormalizer col) batches maps
          (.ok t)) ∧
      Normalizes (normalizeXf k) P (batches.flatten.take cap) t := by
  have hrne : batches.flatten.take cap ≠ [] := by
    obtain ⟨b, bs, rfl⟩ := List.exists_cons_of_ne_nil hne
    obtain ⟨r, rs, rfl⟩ := List.exists_cons_of_ne_nil (hb b (by simp))
    cases cap with
    | zero => omega
    | succ c => simp
  generalize hrows : batches.flatten.take cap = rows at *
  have ht := trainEstimator_run Pol hbegin
    (normsConfig col NumAnnot.isNorms) cap hcap ([], s0) batches hb maps hcol rfl hnone
  rw [hrows, hfit] at ht
  simp only [hcomplete] at ht
  have hn0 : rows.map norm ≠ [] := by simpa using hrne
  have hpos : ¬ (rows.map norm).any (fun n => FloatArith.lt n (zero false)) = true := by
    simp only [List.any_eq_true, List.mem_map, not_exists, not_and]
    rintro x ⟨row, hr, rfl⟩
    rw [(hnorm row hr).1]
    simp
  rw [if_neg hn0, if_neg hpos] at ht
  simp only at ht
  refine ⟨⟨rows.map norm, 0⟩, fun X => ?_, ?_⟩
  · have hy := featurizer_one X (⟨Pol, normsConfig col NumAnnot.isNorms, cap, ([], s0)⟩ : Component (List F64 × σ) (List V)
      (NumAnnot V F64)) (makeNormalizer col) batches hne hb maps
      hcol _ _ (ht.trans (addAnnotation_ok maps _ col _ hcol).1)
    have hm : makeNormalizer col (addAnnotation (some (NumAnnot.norms (V := V)
        (rows.map norm))) col "VectorNormsEstimator" maps).2 = .ok ⟨rows.map norm, 0⟩ := by
      unfold makeNormalizer
      rw [getAnnotationData_of (getAnnotation_add_self maps _ col _ _ rfl hnone)]
      simp only [newNormalizer]
      rw [if_neg hn0, if_neg hpos]
    simp only [Except.bind, normsConfig] at hy
    rw [hm] at hy
    exact hy
  · have hx := execAll_rows k norm rows [] []
    simp only [List.nil_append, List.append_nil, List.length_nil, Nat.zero_add] at hx
    simp only [Normalizes, hx]
    refine ⟨trivial, by simp, ?_, ?_⟩
    · intro i row out hr ho
      rw [List.getElem?_map, hr] at ho
      simp only [Option.map_some, Option.some.injEq] at ho
      subst ho
      exact (hnorm row (List.mem_of_getElem? hr)).2
    · intro row
      have : (rows.map norm)[rows.length]? = none := by simp
      simp only [normalizeXf, execNormalizer, this, and_self]

/-- Training on rows whose norms are computed without an exception. -/
theorem normalize_trained (k : NormInput V) (u : Updater) (P : List V → List F64 → Prop)
    (col cap : Nat) (hcap : 0 < cap) (batches : List (List (List V))) (hne : batches ≠ []) (hb : NoEmptyBatch batches)
    (maps : AnnotationMaps (NumAnnot V F64)) (hcol : col < maps.length)
    (hnone : getAnnotation NumAnnot.isNorms maps col "VectorNormsEstimator" = .ok none)
    (hk : ∀ row ∈ batches.flatten.take cap, ∃ a, updateAll k u row Acc.start = (.ok (), ⟨a, true⟩) ∧
      FloatArith.lt (FloatArith.cast (u.commit a) : F64) (zero false) = false ∧
      P row (row.map (quotient k (FloatArith.cast (u.commit a))))) :
    ∃ t : Normalizer F64,
      (∀ X : Xf (Normalizer F64) (List V) (List V),
        FeaturizerYields X (fun _ => normsComponent k u col cap) 1 (makeNormalizer col) batches maps (.ok t)) ∧
      Normalizes (normalizeXf k) P (batches.flatten.take cap) t := by
  have hnorm : ∀ row ∈ batches.flatten.take cap, (∃ a, updateAll k u row Acc.start = (.ok (), ⟨a, true⟩) ∧
      FloatArith.cast (u.commit a) = (FloatArith.cast (u.commit (updateAll k u row Acc.start).2.acc) : F64)) ∧
      FloatArith.lt (FloatArith.cast (u.commit (updateAll k u row Acc.start).2.acc) : F64) (zero false) = false ∧
      P row (row.map (quotient k (FloatArith.cast (u.commit (updateAll k u row Acc.start).2.acc)))) := by
    intro row hr
    obtain ⟨a, h1, h2, h3⟩ := hk row hr
    simp only [h1]
    exact ⟨⟨a, rfl, rfl⟩, h2, h3⟩
  have hf := norms_run k u (NumAnnot.norms (V := V)) _ (batches.flatten.take cap) (fun row h => (hnorm row h).1) []
  exact policy_trained k (normsPolicy k u .norms) Acc.start Acc.start P _ col cap hcap batches hne hb maps hcol hnone
    (fun _ _ => rfl) (fun _ _ => rfl) hf (fun row h => (hnorm row h).2)

/-! ### The input types -/

theorem floNumber_none {T : Type} [FloType T] [Lawful T] {x : T} : floNumber x = none ↔ isNaN x = true := by
  rw [isNaN_iff]
  unfold floNumber IsNaN
  split_ifs with h <;> simp [h]

theorem floNumber_some {T : Type} [FloType T] [Lawful T] {x : T} {q : ℚ} (h : floNumber x = some q) (ho : ¬ IsInf x) :
    Finite x ∧ value x = q := by
  have hn : isNaN x = false := by
    cases hx : isNaN x
    · rfl
    · rw [← floNumber_none, h] at hx
      cases hx
  have hi : isInf x = false := by
    cases hx : isInf x
    · rfl
    · exact absurd ((isInf_iff x).1 hx) ho
  refine ⟨?_, ?_⟩
  · rw [finite_key]
    have h1 := isNaN_false.1 hn
    have h2 := isInf_false.1 hi
    omega
  · unfold floNumber at h
    split_ifs at h
    simpa using h

theorem double_bounds {x : F64} (hx : Finite x) : (∃ z : Int, value x = z / 2 ^ 1074) ∧ |value x| ≤ 2 ^ 1024 := by
  refine ⟨⟨signedUnits x, by rw [value_units, show (fmt F64).scale = 1074 by decide +kernel]⟩, ?_⟩
  have h := (rnd_finite_iff (T := F64) (q := value x)).1 (by rw [rnd_value hx, ← finite_key]; exact hx)
  refine le_trans h.le ?_
  unfold tooLarge
  rw [show Binary.frac F64 = 52 from rfl, show ((bias F64 : Nat) : Int) = 1023 by decide +kernel,
    show (2 : ℚ) ^ (1023 - ((52 : Nat) : Int) - 1 : Int) = 2 ^ 970 from by
      rw [show (1023 - ((52 : Nat) : Int) - 1 : Int) = ((970 : Nat) : Int) by norm_num, zpow_natCast],
    show (2 : ℚ) ^ 1024 = 2 ^ 54 * 2 ^ 970 by rw [← pow_add]]
  exact mul_le_mul_of_nonneg_right (by norm_num) (by positivity)

/-- `double` without infinities. -/
theorem double_lawful : NormLawful (floNorm F64) (fun x => ¬ IsInf x) floNumber where
  null x := by
    show isNaN x = _
    cases h : isNaN x
    · cases hv : (floNumber x : Option ℚ) with
      | none => rw [floNumber_none.1 hv] at h; cases h
      | some q => rfl
    · rw [floNumber_none.2 h]; rfl
  exact x q ho hv := by
    obtain ⟨h1, h2⟩ := floNumber_some hv ho
    rw [← h2]
    exact cast_exact h1
  grid x q ho hv := by
    obtain ⟨h1, h2⟩ := floNumber_some hv ho
    rw [← h2]
    exact (double_bounds h1).1
  small x q ho hv := by
    obtain ⟨h1, h2⟩ := floNumber_some hv ho
    rw [← h2]
    exact (double_bounds h1).2

/-- `float` without infinities. -/
theorem float_lawful : NormLawful (floNorm F32) (fun x => ¬ IsInf x) floNumber where
  null x := by
    show isNaN x = _
    cases h : isNaN x
    · cases hv : (floNumber x : Option ℚ) with
      | none => rw [floNumber_none.1 hv] at h; cases h
      | some q => rfl
    · rw [floNumber_none.2 h]; rfl
  exact x q ho hv := by
    obtain ⟨h1, h2⟩ := floNumber_some hv ho
    rw [← h2]
    exact cast_exact h1
  grid x q ho hv := by
    obtain ⟨h1, h2⟩ := floNumber_some hv ho
    obtain ⟨h3, h4⟩ := cast_exact (T := F64) h1
    rw [← h2, ← h4]
    exact (double_bounds h3).1
  small x q ho hv := by
    obtain ⟨h1, h2⟩ := floNumber_some hv ho
    obtain ⟨h3, h4⟩ := cast_exact (T := F64) h1
    rw [← h2, ← h4]
    exact (double_bounds h3).2

/-- The integer types. -/
theorem int_lawful [CInt V] (hfit : ∀ x : V, (CInt.toInt x).natAbs ≤ 2 ^ 64) :
    NormLawful (intNorm V) (fun _ => True) (fun x => some (CInt.toInt x : ℚ)) where
  null x := rfl
  exact x q _ hv := by
    cases hv
    exact ofInt_exact (by rw [show 2 * 2 ^ (fmt F80).frac = 2 ^ 64 from rfl]; exact hfit x)
  grid x q _ hv := by
    cases hv
    refine ⟨CInt.toInt x * 2 ^ 1074, ?_⟩
    push_cast
    rw [mul_div_assoc, div_self (by positivity), mul_one]
  small x q _ hv := by
    cases hv
    have h := hfit x
    have h1 : |(CInt.toInt x : ℚ)| ≤ 2 ^ 64 := by
      rw [← Int.cast_abs, Int.abs_eq_natAbs]
      exact_mod_cast h
    exact le_trans h1 (pow_le_pow_right₀ (by norm_num) (by norm_num))

/-! ### The largest absolute value of integers -/

theorem intNormAbs_eq [CInt V] (hhi : CInt.hi V < 2 ^ 64) (hlo : CInt.lo V ≤ 0) {x : V} (hx : -CInt.toInt x ≤ CInt.hi V) :
    intNormAbs x = .ok (CInt.toInt x).natAbs := by
  unfold intNormAbs
  by_cases h0 : CInt.toInt x < 0
  · rw [if_pos h0, if_neg (by rintro ⟨_, h⟩; omega), CInt.toInt_ofInt _ (by omega) hx]
    have h3 : (-CInt.toInt x) % 2 ^ 64 = -CInt.toInt x := Int.emod_eq_of_lt (by omega) (by omega)
    rw [h3]
    congr 1
    omega
  · rw [if_neg h0]
    congr 1
    omega

/-- The largest magnitude, starting from `m`. -/
def topMagnitude [CInt V] (row : List V) (m : Nat) : Nat := row.foldl (fun m x => max m (CInt.toInt x).natAbs) m

theorem intMaxAll_run [CInt V] (hhi : CInt.hi V < 2 ^ 64) (hlo : CInt.lo V ≤ 0) (row : List V)
    (hrow : ∀ x ∈ row, -CInt.toInt x ≤ CInt.hi V) : ∀ m b,
    intMaxAll row (m, b) = (.ok (), (topMagnitude row m, b || !row.isEmpty)) := by
  induction row with
  | nil => intro m b; simp [intMaxAll, topMagnitude]
  | cons x row ih =>
    intro m b
    simp only [intMaxAll, intNormAbs_eq hhi hlo (hrow x (by simp))]
    rw [ih (fun y hy => hrow y (List.mem_cons_of_mem _ hy))]
    have : (if (CInt.toInt x).natAbs < m then m else (CInt.toInt x).natAbs) = max m (CInt.toInt x).natAbs := by
      split_ifs <;> omega
    simp [topMagnitude, this]

theorem topMagnitude_eq [CInt V] (row : List V) : ∀ m : Nat,
    (topMagnitude row m : ℚ) = max (m : ℚ) (maxAbs (numbers (fun x : V => some (CInt.toInt x : ℚ)) row)) := by
  induction row with
  | nil => intro m; simp [topMagnitude, numbers, maxAbs]
  | cons x row ih =>
    intro m
    have h := ih (max m (CInt.toInt x).natAbs)
    have e : topMagnitude (x :: row) m = topMagnitude row (max m (CInt.toInt x).natAbs) := rfl
    rw [e, h]
    have e2 : numbers (fun x : V => some (CInt.toInt x : ℚ)) (x :: row)
        = (CInt.toInt x : ℚ) :: numbers (fun x : V => some (CInt.toInt x : ℚ)) row := by simp [numbers]
    rw [e2]
    unfold maxAbs
    rw [List.foldr_cons, Nat.cast_max, Nat.cast_natAbs, Int.cast_abs, max_assoc]

theorem topMagnitude_zero [CInt V] (row : List V) :
    (topMagnitude row 0 : ℚ) = maxAbs (numbers (fun x : V => some (CInt.toInt x : ℚ)) row) := by
  rw [topMagnitude_eq]
  simp only [Nat.cast_zero]
  exact max_eq_right (maxAbs_nonneg _)

/-- Converting a 64-bit integer to `double` by way of `long double` makes no difference. -/
theorem cast_ofInt {n : Nat} (hn : n ≤ 2 ^ 64) : (FloatArith.cast (ofInt (n : Int) : F80) : F64) = ofInt (n : Int) := by
  have hex := ofInt_exact (T := F80) (z := (n : Int)) (by
    rw [show 2 * 2 ^ (fmt F80).frac = 2 ^ 64 from rfl]; simpa using hn)
  have hk : key (FloatArith.cast (ofInt (n : Int) : F80) : F64) = key (ofInt (n : Int) : F64) := by
    rw [key_cast hex.1, hex.2, key_ofInt]
  rcases Nat.eq_zero_or_pos n with rfl | h0
  · decide +kernel
  · refine FloatScalers.eq_of_key hk ?_
    have hd := ofInt_exact (T := F64) (z := 1) (by decide)
    intro hz
    rw [hk] at hz
    rw [key_ofInt] at hz
    have hm : rnd (fmt F64) ((1 : Int) : ℚ) ≤ rnd (fmt F64) ((n : Int) : ℚ) :=
      rnd_mono Lawful.good (by exact_mod_cast h0)
    rw [hz, ← key_ofInt] at hm
    revert hm
    decide +kernel

theorem intMax_run [CInt V] (hhi : CInt.hi V < 2 ^ 64) (hlo : CInt.lo V ≤ 0) (wrap : List F64 → α) (rows : List (List V))
    (hrows : ∀ row ∈ rows, row ≠ [] ∧ ∀ x ∈ row, -CInt.toInt x ≤ CInt.hi V) :
    ∀ l, (intMaxPolicy wrap).fitAll rows (l, (0, false))
      = (.ok (), (l ++ rows.map fun row => ofInt (topMagnitude row 0 : Int), (0, false))) := by
  induction rows with
  | nil => intro l; simp [Policy.fitAll]
  | cons r rows ih =>
    intro l
    obtain ⟨h1, h2⟩ := hrows r (by simp)
    have hf : (intMaxPolicy wrap).fit r (l, (0, false)) = (.ok (), (l ++ [ofInt (topMagnitude r 0 : Int)], (0, false))) := by
      have hv : (false || !r.isEmpty) = true := by cases r <;> simp at h1 ⊢
      simp only [intMaxPolicy, intMaxAll_run hhi hlo r h2, hv, if_true]
    simp only [Policy.fitAll, hf]
    rw [ih (fun row h => hrows row (List.mem_cons_of_mem _ h))]
    simp

/-! ### Training that may throw -/

theorem accumulate_error {a d b : F80} {e : Err} (h : accumulate a d = (.error e, b)) : e = .runtimeError := by
  unfold accumulate at h
  split_ifs at h <;> simp only [Prod.mk.injEq, reduceCtorEq, Except.error.injEq, false_and] at h
  all_goals exact h.1.symm

theorem updateAll_error {k : NormInput V} {g c : F80 → F80} (row : List V) : ∀ {s s' : Acc} {e : Err},
    updateAll k ⟨fun a x => accumulate a (g x), c⟩ row s = (.error e, s') → e = .runtimeError := by
  induction row with
  | nil => intro s s' e h; simp [updateAll] at h
  | cons x row ih =>
    intro s s' e h
    unfold updateAll at h
    split_ifs at h
    · exact ih h
    · simp only at h
      rcases hacc : accumulate s.acc (g (k.toL x)) with ⟨r, a⟩
      rw [hacc] at h
      cases r with
      | error e' =>
        simp only [Prod.mk.injEq, Except.error.injEq] at h
        rw [← h.1]
        exact accumulate_error hacc
      | ok u =>
        cases u
        exact ih h

theorem updateAll_valid {k : NormInput V} {ok : V → Prop} {val : Reading V} (L : NormLawful k ok val) {g c : F80 → F80}
    (row : List V) : ∀ {s s' : Acc}, updateAll k ⟨fun a x => accumulate a (g x), c⟩ row s = (.ok (), s') →
    s'.valid = (s.valid || !(numbers val row).isEmpty) := by
  induction row with
  | nil =>
    intro s s' h
    simp only [updateAll, Prod.mk.injEq, true_and] at h
    simp [h, numbers]
  | cons x row ih =>
    intro s s' h
    unfold updateAll at h
    split_ifs at h with hn
    · have : val x = none := by rw [L.null] at hn; simpa using hn
      rw [ih h]
      simp [numbers, this]
    · obtain ⟨q, hq⟩ : ∃ q, val x = some q := by
        rw [L.null] at hn
        cases hv : val x with
        | none => simp [hv] at hn
        | some q => exact ⟨q, rfl⟩
      simp only at h
      rcases hacc : accumulate s.acc (g (k.toL x)) with ⟨r, a⟩
      rw [hacc] at h
      cases r with
      | error e' => simp at h
      | ok u =>
        cases u
        rw [ih h]
        simp [numbers, hq]

/-- Training on any rows: either it throws `runtime_error`, or every row has a number and is accepted. -/
theorem norms_total {k : NormInput V} {ok : V → Prop} {val : Reading V} (L : NormLawful k ok val) (g c : F80 → F80)
    (wrap : List F64 → α) (rows : List (List V)) :
    (∀ row ∈ rows, numbers val row ≠ [] ∧ Accepted k ⟨fun a x => accumulate a (g x), c⟩ row) ∨
    ∀ l, ∃ s, (normsPolicy k ⟨fun a x => accumulate a (g x), c⟩ wrap).fitAll rows (l, Acc.start) = (.error .runtimeError, s) := by
  induction rows with
  | nil => left; simp
  | cons r rows ih =>
    rcases hu : updateAll k ⟨fun a x => accumulate a (g x), c⟩ r Acc.start with ⟨res, s⟩
    cases res with
    | error e =>
      right
      intro l
      refine ⟨(l, s), ?_⟩
      simp only [Policy.fitAll, normsPolicy, hu, updateAll_error r hu]
    | ok u =>
      cases u
      have hv := updateAll_valid L r hu
      by_cases hne : numbers val r = []
      · right
        intro l
        refine ⟨(l, s), ?_⟩
        have hf : s.valid = false := by rw [hv, hne]; rfl
        simp only [Policy.fitAll, normsPolicy, hu, hf, Bool.false_eq_true, if_false]
      · have ht : s.valid = true := by
          rw [hv]
          cases hn : numbers val r with
          | nil => exact absurd hn hne
          | cons => simp
        rcases ih with ih | ih
        · left
          intro row hr
          rcases List.mem_cons.1 hr with rfl | hr
          · exact ⟨hne, by unfold Accepted; rw [hu]⟩
          · exact ih row hr
        · right
          intro l
          obtain ⟨s', hs⟩ := ih (l ++ [FloatArith.cast (c s.acc)])
          refine ⟨s', ?_⟩
          have hf : (normsPolicy k ⟨fun a x => accumulate a (g x), c⟩ wrap).fit r (l, Acc.start)
              = (.ok (), (l ++ [FloatArith.cast (c s.acc)], Acc.start)) := by
            simp only [normsPolicy, hu, ht, if_true]
          simp only [Policy.fitAll, hf]
          exact hs

end Feat.FloatNorms
