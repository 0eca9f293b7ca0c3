import Verif.Spec.Constructors
import Verif.Props.Transformers
import Verif.Proofs.FloatArith
/-
**C102** What the constructors of transformers accept.
-/
namespace Feat
open FloatArith

/-- The sign test of the model is the comparison with zero of doubles. -/
theorem isNegative_lt (x : F64) : F64.isNegative x = lt x (zero false) := by
  have hz : isNaN (zero false : F64) = false := isNaN_false.2 (by rw [key_zero]; simp)
  have hs : (fmt F64).signBit = 0x8000000000000000 := by decide +kernel
  have hi : (fmt F64).inf = 0x7FF0000000000000 := by decide +kernel
  have hb : x.bits.toNat < 2 ^ 64 := x.bits.toNat_lt
  have hbits : FloatText.Binary.bits x = x.bits.toNat := rfl
  unfold F64.isNegative lt
  rw [hz, key_zero, Bool.eq_iff_iff]
  unfold isNaN key neg? pat
  rw [hs, hi, hbits]
  simp only [Bool.and_eq_true, decide_eq_true_eq, Bool.not_eq_true', decide_eq_false_iff_not, Bool.not_false, and_true]
  norm_num only [] at hb
  split_ifs <;> omega

variable {K T : Type}

/-- **C102** Constructors that accept everything. -/
theorem C102_total [DecidableEq K] [Traits K] [Fits K] [Scalar T] [Traits T] [Fits T] :
    (∀ p, (labelEncoder K).make p = .ok p) ∧ (∀ p, (numericalize K).make p = .ok p) ∧
    (∀ p, sampleAdd.make p = .ok p) ∧ (∀ p, (maxAbsScaler T).make p = .ok p) ∧ (∀ p, (robustScaler T).make p = .ok p) ∧
    (∀ p, (imputer T).make p = .ok p) ∧ (∀ p, shortGrainDropper.make p = .ok p) ∧
    (∀ p, ∃ t, (forwardFill T).make p = .ok t) ∧ (∀ p, ∃ t, (backwardFill T).make p = .ok t) ∧
    (∀ p, inferenceOnly.make p = .ok p) :=
  ⟨fun _ => rfl, fun _ => rfl, fun _ => rfl, fun _ => rfl, fun _ => rfl, fun _ => rfl, fun _ => rfl, fun _ => ⟨_, rfl⟩,
    fun _ => ⟨_, rfl⟩, fun _ => rfl⟩

/-- **C102** The one-hot encoder wants at least one category. -/
theorem C102_one_hot [DecidableEq K] [Traits K] [Fits K] :
    Checks (oneHot K) (fun p : UMap K UInt32 × Bool => p.1.entries ≠ []) .invalidArgument := by
  intro p
  simp only [oneHot, List.length_eq_zero_iff]
  constructor
  · intro h; rw [if_neg h]; exact ⟨_, rfl⟩
  · intro h; rw [if_pos (not_not.1 h)]

/-- **C102** The hash one-hot vectorizer wants at least one column. -/
theorem C102_hash_one_hot : Checks hashOneHot (fun p : UInt32 × UInt32 => 0 < p.2.toNat) .runtimeError := by
  intro p
  simp only [hashOneHot]
  constructor
  · intro h; rw [if_neg (by omega)]; exact ⟨_, rfl⟩
  · intro h; rw [if_pos (by omega)]

/-- **C102** The min-max scaler over integers wants the minimum not above the maximum; the distance must fit the type
(whose smallest number is not positive: so for every integer type of C++). -/
theorem C102_min_max [CInt T] [Scalar T] (hT : CInt.lo T ≤ 0) (lo hi : T) :
    (CInt.toInt hi < CInt.toInt lo → (minMaxScaler T).make (lo, hi) = .error .invalidArgument) ∧
    (CInt.toInt lo ≤ CInt.toInt hi → CInt.toInt hi - CInt.toInt lo ≤ CInt.hi T →
      ∃ span : T, CInt.toInt span = CInt.toInt hi - CInt.toInt lo ∧ (minMaxScaler T).make (lo, hi) = .ok ⟨lo, span⟩) := by
  simp only [minMaxScaler]
  constructor
  · intro h; rw [if_pos (by omega)]
  · intro h h'
    rw [if_neg (by omega)]
    have h0 : CInt.lo T ≤ CInt.toInt hi - CInt.toInt lo := by
      omega
    refine ⟨CInt.ofInt (CInt.toInt hi - CInt.toInt lo), CInt.toInt_ofInt _ h0 h', ?_⟩
    unfold CInt.arith
    rw [if_neg]
    omega

/-- **C102** The standard scaler refuses negative deviations, and only those (a NaN is accepted). -/
theorem C102_standard :
    Checks standardScaler (fun p : F64 × F64 => lt p.2 (zero false) = false) .invalidArgument := by
  intro p
  simp only [standardScaler, isNegative_lt]
  constructor
  · intro h; rw [h]; exact ⟨_, rfl⟩
  · intro h; rw [Bool.not_eq_false] at h; rw [h]; rfl

/-- **C102** The normalizers want at least one norm and refuse negative ones, and only those (a NaN is accepted). -/
theorem C102_normalizer :
    Checks normalizer (fun p : List F64 => p ≠ [] ∧ ∀ x ∈ p, lt x (zero false) = false) .invalidArgument := by
  intro (p : List F64)
  have he : p.any F64.isNegative = true ↔ ¬ ∀ x ∈ p, lt x (zero false) = false := by
    simp [isNegative_lt]
  simp only [normalizer]
  constructor
  · intro ⟨h1, h2⟩
    rw [if_neg h1, if_neg (by rw [he]; exact not_not.2 h2)]
    exact ⟨_, rfl⟩
  · intro h
    by_cases h1 : p = []
    · rw [if_pos h1]
    · rw [if_neg h1, if_pos (he.2 fun h2 => h ⟨h1, h2⟩)]

/-- **C102** Principal components and singular vectors: the matrix must have a row and a column. -/
theorem C102_projection [Traits T] [Fits T] (c : Bool) :
    Checks (projection T c) (fun p : Mat T c => 0 < p.inner ∧ p.outer ≠ []) .invalidArgument := by
  intro p
  have he : p.inner * p.outer.length = 0 ↔ ¬ (0 < p.inner ∧ p.outer ≠ []) := by
    rw [Nat.mul_eq_zero, List.length_eq_zero_iff, Nat.pos_iff_ne_zero]; tauto
  simp only [projection]
  constructor
  · intro h; rw [if_neg (by rw [he]; exact not_not.2 h)]; exact ⟨_, rfl⟩
  · intro h; rw [if_pos (he.2 h)]

/-- **C102** Lag/lead operators want a positive horizon and at least one offset. -/
theorem C102_lag_lead (H : UInt32) (deltas : List Int64) :
    ((0 < H.toNat ∧ deltas ≠ []) → (∀ δ ∈ deltas, -2 ^ 63 < δ.toInt) → ∃ t, lagLead.make (H, deltas) = .ok t) ∧
    (¬ (0 < H.toNat ∧ deltas ≠ []) → lagLead.make (H, deltas) = .error .invalidArgument) := by
  simp only [lagLead]
  constructor
  · intro ⟨h1, h2⟩ hd
    rw [if_neg (by omega)]
    rcases deltas with _ | ⟨d, ds⟩
    · exact absurd rfl h2
    · have hm : ∀ (l : List Int) (x : Int), -2 ^ 63 < x → (∀ y ∈ l, -2 ^ 63 < y) → -2 ^ 63 < minElem x l := by
        intro l
        induction l with
        | nil => intro x hx _; exact hx
        | cons y l ih =>
          intro x hx hl
          rw [minElem]
          refine ih _ ?_ fun z hz => hl z (by simp [hz])
          split
          · exact hl y (by simp)
          · exact hx
      have := hm (ds.map Int64.toInt) d.toInt (hd d (by simp)) (by
        intro y hy
        obtain ⟨δ, h, rfl⟩ := List.mem_map.1 hy
        exact hd δ (by simp [h]))
      simp only [List.map_cons]
      rw [if_neg (by omega)]
      exact ⟨_, rfl⟩
  · intro h
    by_cases h1 : H.toNat = 0
    · rw [if_pos h1]
    · rw [if_neg h1]
      have : deltas = [] := by
        by_contra h2
        exact h ⟨by omega, h2⟩
      rw [this]
      rfl

/-- **C102** Rolling windows want a positive horizon, a positive minimum not above the maximum, and a buffer (horizon plus
maximum, modulo 2^32) that is not empty. -/
theorem C102_rolling : Checks rollingWindow (fun p : UInt8 × UInt32 × UInt32 × UInt32 =>
    0 < p.2.1.toNat ∧ 0 < p.2.2.2.toNat ∧ p.2.2.2.toNat ≤ p.2.2.1.toNat ∧ p.2.1.toNat + p.2.2.1.toNat ≠ 2 ^ 32)
    .invalidArgument := by
  intro ⟨c, H, W, m⟩
  have hz : (H + W).toNat = (H.toNat + W.toNat) % 2 ^ 32 := UInt32.toNat_add H W
  have hH := H.toNat_lt
  have hW := W.toNat_lt
  simp only [rollingWindow]
  constructor
  · intro ⟨h1, h2, h3, h4⟩
    rw [if_neg (by omega), if_neg (by omega), if_neg (by omega), if_neg (by omega), if_neg (by omega)]
    exact ⟨_, rfl⟩
  · intro h
    split_ifs <;> first | rfl | (exfalso; omega)

/-- **C102** The conversions from and to text accept the flag only for types with a null value. -/
theorem C102_strings (nullable : Bool) :
    Checks (stringConversion nullable) (fun p : Bool => p = true → nullable = true) .invalidArgument := by
  intro p
  revert p
  cases nullable <;> intro p <;> cases p <;> simp [stringConversion]

/-- **C102** The vectorizers want at least one label and one document frequency. -/
theorem C102_tfidf : Checks tfidf (fun p : TfidfParams => p.1.entries ≠ [] ∧ p.2.1.entries ≠ []) .invalidArgument := by
  intro p
  simp only [tfidf, List.length_eq_zero_iff]
  constructor
  · intro ⟨h1, h2⟩; rw [if_neg h1, if_neg h2]; exact ⟨_, rfl⟩
  · intro h
    by_cases h1 : p.1.entries = []
    · rw [if_pos h1]
    · rw [if_neg h1, if_pos (by by_contra h2; exact h ⟨h1, h2⟩)]

private theorem validTypeId_iff (i : UInt32) : validTypeId i = true ↔ i.toNat ∈ typeIds := by
  unfold validTypeId typeIds
  simp only [Bool.or_eq_true, Bool.and_eq_true, decide_eq_true_eq, beq_iff_eq, List.mem_cons, List.not_mem_nil, or_false]
  omega

/-- **C102** The time series imputer wants at least one column, types and a strategy that exist, and a frequency other than
the largest duration. -/
theorem C102_time_series (q : Nat) :
    Checks (timeSeriesImputer q) (fun p : Duration q × List UInt32 × UInt8 × OMap (List Str) (List F64) × Bool =>
      p.2.1 ≠ [] ∧ (∀ i ∈ p.2.1, i.toNat ∈ typeIds) ∧ p.2.2.1.toNat ∈ [1, 2, 3, 4] ∧ p.1.ticks.toInt ≠ 2 ^ 63 - 1)
      .runtimeError := by
  intro p
  have he : p.2.1.any (fun i => !validTypeId i) = true ↔ ¬ ∀ i ∈ p.2.1, i.toNat ∈ typeIds := by
    simp [← validTypeId_iff]
  have hs : p.2.2.1.toNat ∈ [1, 2, 3, 4] ↔ (1 ≤ p.2.2.1.toNat ∧ p.2.2.1.toNat ≤ 4) := by
    simp only [List.mem_cons, List.not_mem_nil, or_false]; omega
  simp only [timeSeriesImputer, List.length_eq_zero_iff]
  rw [hs]
  constructor
  · intro ⟨h1, h2, h3, h4⟩
    rw [if_neg (by rw [he]; exact not_not.2 h2), if_neg (not_not.2 h3), if_neg h1, if_neg h4]
    exact ⟨_, rfl⟩
  · intro h
    by_cases h2 : ∀ i ∈ p.2.1, i.toNat ∈ typeIds
    · rw [if_neg (by rw [he]; exact not_not.2 h2)]
      by_cases h3 : 1 ≤ p.2.2.1.toNat ∧ p.2.2.1.toNat ≤ 4
      · rw [if_neg (not_not.2 h3)]
        by_cases h1 : p.2.1 = []
        · rw [if_pos h1]
        · rw [if_neg h1, if_pos (by by_contra h4; exact h ⟨h1, h2, h3, h4⟩)]
      · rw [if_pos h3]
    · rw [if_pos (he.2 h2)]

/-- **C102** The date-time transformer wants no country, or one whose holidays can be found; otherwise it throws what the
lookup threw. -/
theorem C102_date_time (lookup : Str → Except Err (List (Int × Str))) (country : Str) :
    (country.chars = [] → (dateTime lookup).make country = .ok (country, [])) ∧
    (country.chars ≠ [] → ∀ h, lookup country = .ok h → (dateTime lookup).make country = .ok (country, h)) ∧
    (country.chars ≠ [] → ∀ e, lookup country = .error e → (dateTime lookup).make country = .error e) := by
  simp only [dateTime]
  refine ⟨fun h => by rw [if_pos h], fun h x hx => ?_, fun h x hx => ?_⟩ <;> rw [if_neg h, hx]

/-! ### Concrete cases -/

example : ¬ (fun p : UInt8 × UInt32 × UInt32 × UInt32 => 0 < p.2.1.toNat ∧ 0 < p.2.2.2.toNat ∧
    p.2.2.2.toNat ≤ p.2.2.1.toNat ∧ p.2.1.toNat + p.2.2.1.toNat ≠ 2 ^ 32) (1, 1, 0xFFFFFFFF, 1) := by decide

example : (normalizer.make [⟨0x8000000000000000⟩, ⟨0x7FF8000000000000⟩]).toOption.isSome = true ∧
    (normalizer.make [⟨0x8000000000000001⟩]).toOption.isSome = false := by decide +kernel

end Feat
