import Verif.Props.Categorical
import Verif.Proofs.ComponentPipeline
import Verif.Model.Encoders
import Verif.Model.Hash
/-
C20 encoders, C46 sparse vectors, C47 hash encoding.
-/
namespace Feat
variable {K : Type}

/-! ### C46 -/

/-- What a user expects of a sparse vector. -/
structure WellFormed {T : Type} (v : SparseVector T) : Prop where
  positive : 0 < v.numElements.toNat
  nonEmpty : v.values ≠ []
  increasing : v.values.Pairwise (fun a b => a.index < b.index)
  inRange : ∀ x ∈ v.values, x.index < v.numElements

private theorem orderedFrom_iff {T : Type} (p : UInt64) (vs : List (ValueEncoding T)) :
    orderedFrom p vs = true ↔
      (∀ v ∈ vs, p < v.index) ∧ vs.Pairwise (fun a b => a.index < b.index) := by
  induction vs generalizing p with
  | nil => simp [orderedFrom]
  | cons v vs ih =>
    simp only [orderedFrom, List.mem_cons, forall_eq_or_imp, List.pairwise_cons]
    by_cases h : v.index ≤ p
    · simp only [h, if_true, Bool.false_eq_true, false_iff]
      rintro ⟨⟨h1, _⟩, _⟩
      exact absurd h (UInt64.not_le.2 h1)
    · simp only [h, if_false, ih]
      have hlt := UInt64.not_le.1 h
      constructor
      · rintro ⟨h1, h2⟩
        exact ⟨⟨hlt, fun w hw => UInt64.lt_trans hlt (h1 w hw)⟩, h1, h2⟩
      · rintro ⟨_, h2, h3⟩
        exact ⟨h2, h3⟩

/-- **C46** (partial) Whatever the arguments, a constructed sparse vector has a positive size, at least one
and at most `size` entries, and strictly increasing indexes; every argument list with these properties is
accepted and kept as it is, all others are rejected with `invalid_argument`.  Missing from the full claim:
that all indexes are smaller than the size, which is false (`C46_index_out_of_range`). -/
theorem C46_sparse_partial {T : Type} (n : UInt64) (values : List (ValueEncoding T)) :
    mkSparse n values =
      if 0 < n.toNat ∧ values ≠ [] ∧ values.length ≤ n.toNat ∧
        values.Pairwise (fun a b => a.index < b.index)
      then .ok ⟨n, values⟩ else .error .invalidArgument := by
  unfold mkSparse
  by_cases h0 : n = 0
  · subst h0; simp
  · have hpos : 0 < n.toNat := by
      rcases Nat.eq_zero_or_pos n.toNat with h | h
      · exact absurd (UInt64.toNat_inj.1 h) h0
      · exact h
    simp only [h0, if_false, hpos, true_and]
    by_cases h1 : n.toNat < values.length
    · have : ¬ values.length ≤ n.toNat := by omega
      simp [h1, this]
    · simp only [h1, if_false, Nat.not_lt.1 h1, true_and]
      cases values with
      | nil => simp
      | cons v vs =>
        simp only [ne_eq, reduceCtorEq, not_false_eq_true, true_and, List.pairwise_cons]
        by_cases ho : orderedFrom v.index vs = true
        · rw [if_pos ho, if_pos ((orderedFrom_iff v.index vs).1 ho)]
        · simp only [ho]
          have := mt (orderedFrom_iff v.index vs).2 ho
          rw [if_neg this]; simp

/-- **C46** (single values) A single-value vector is constructed exactly when its index is smaller than
its size. -/
theorem C46_single {T : Type} (n : UInt64) (v : T) (i : UInt64) :
    mkSingle n v i = if i < n then .ok ⟨n, v, i⟩ else .error .invalidArgument := by
  unfold mkSingle
  by_cases h0 : n = 0
  · subst h0; simp
  · simp only [h0, if_false, ge_iff_le]
    by_cases h : i < n
    · simp [h, UInt64.not_le.2 h]
    · simp [h, UInt64.not_lt.1 h]

/-- **C46** (refutation of the full claim) A sparse vector of size 1 with its entry at index 5. -/
theorem C46_index_out_of_range :
    ∃ v, mkSparse 1 [⟨(7 : UInt8), 5⟩] = .ok v ∧ ¬ WellFormed v :=
  ⟨⟨1, [⟨7, 5⟩]⟩, rfl, fun h => absurd (h.inRange ⟨7, 5⟩ (by simp)) (by decide)⟩

example : mkSparse 9 [⟨(7 : UInt8), 0⟩, ⟨1, 5⟩, ⟨2, 8⟩] = .ok ⟨9, [⟨7, 0⟩, ⟨1, 5⟩, ⟨2, 8⟩]⟩ ∧
    mkSparse 9 [⟨(7 : UInt8), 5⟩, ⟨1, 5⟩] = .error .invalidArgument := ⟨rfl, rfl⟩

/-! ### C47 -/

private theorem byteAt_ok (key : List UInt8) (i : Int) (h0 : 0 ≤ i) (h1 : i < key.length) :
    ∃ b, byteAt key i = .ok b := by
  unfold byteAt
  rw [if_neg (by omega)]
  have : i.toNat < key.length := by omega
  rw [List.getElem?_eq_getElem this]
  exact ⟨_, rfl⟩

private theorem wordAt_ok (key : List UInt8) (i : Int) (h0 : 0 ≤ i) (h1 : i + 3 < key.length) :
    ∃ b, wordAt key i = .ok b := by
  unfold wordAt
  obtain ⟨a, ha⟩ := byteAt_ok key i h0 (by omega)
  obtain ⟨b, hb⟩ := byteAt_ok key (i + 1) (by omega) (by omega)
  obtain ⟨c, hc⟩ := byteAt_ok key (i + 2) (by omega) (by omega)
  obtain ⟨d, hd⟩ := byteAt_ok key (i + 3) (by omega) (by omega)
  rw [ha, hb, hc, hd]
  exact ⟨_, rfl⟩

private theorem murmurBody_ok (key : List UInt8) (nb : Int) (h1 : nb * 4 ≤ key.length) (n : Nat)
    (hn : (n : Int) ≤ nb) (h : UInt32) : ∃ r, murmurBody key nb n h = .ok r := by
  induction n generalizing h with
  | zero => exact ⟨h, rfl⟩
  | succ n ih =>
    obtain ⟨k, hk⟩ := wordAt_ok key (nb * 4 + -(n + 1 : Int) * 4) (by omega) (by omega)
    simp only [murmurBody, hk]
    exact ih (by omega) _

private theorem murmurTail_ok (key : List UInt8) (nb len : Int) (h0 : 0 ≤ nb)
    (h1 : nb * 4 + len % 4 ≤ key.length) (h : UInt32) : ∃ r, murmurTail key nb len h = .ok r := by
  unfold murmurTail
  simp only
  split
  · exact ⟨h, rfl⟩
  · rename_i hr
    have hr0 : 0 ≤ len % 4 := Int.emod_nonneg _ (by decide)
    have hr4 : len % 4 < 4 := Int.emod_lt_of_pos _ (by decide)
    obtain ⟨k1, hk1⟩ := byteAt_ok key (nb * 4) (by omega) (by omega)
    by_cases h3 : len % 4 = 3
    · obtain ⟨k3, hk3⟩ := byteAt_ok key (nb * 4 + 2) (by omega) (by omega)
      obtain ⟨k2, hk2⟩ := byteAt_ok key (nb * 4 + 1) (by omega) (by omega)
      have : len % 4 ≥ 2 := by omega
      simp only [if_pos h3, if_pos this, hk3, hk2, hk1, bind, Except.bind]
      exact ⟨_, rfl⟩
    · by_cases h2 : len % 4 ≥ 2
      · obtain ⟨k2, hk2⟩ := byteAt_ok key (nb * 4 + 1) (by omega) (by omega)
        simp only [if_neg h3, if_pos h2, hk2, hk1, bind, Except.bind]
        exact ⟨_, rfl⟩
      · simp only [if_neg h3, if_neg h2, hk1, bind, Except.bind]
        exact ⟨_, rfl⟩

private theorem sizeToInt_small (n : Nat) (h : n < 2 ^ 31) : sizeToInt n = n := by
  unfold sizeToInt
  have hm : n % 2 ^ 32 = n := Nat.mod_eq_of_lt (by omega)
  rw [hm]
  simp only
  rw [if_pos (by omega)]

/-- The hash of a byte string shorter than 2³¹ reads only bytes of the string. -/
theorem murmurHash_ok (bytes : List UInt8) (h : bytes.length < 2 ^ 31) (seed : UInt32) :
    ∃ r, murmurHash bytes seed = .ok r := by
  unfold murmurHash
  rw [sizeToInt_small _ h]
  unfold murmur3
  rw [if_neg (by omega)]
  have hd : (bytes.length : Int).tdiv 4 = bytes.length / 4 := Int.tdiv_eq_ediv_of_nonneg (by omega)
  rw [hd]
  simp only
  obtain ⟨r1, h1⟩ := murmurBody_ok bytes ((bytes.length : Int) / 4) (by omega)
    ((bytes.length : Int) / 4).toNat (by omega) seed
  rw [h1]
  obtain ⟨r2, h2⟩ := murmurTail_ok bytes ((bytes.length : Int) / 4) bytes.length (by omega)
    (by omega) r1
  show ∃ r, (murmurTail bytes ((bytes.length : Int) / 4) bytes.length r1 >>= _) = .ok r
  rw [h2]
  exact ⟨_, rfl⟩

/-- **C47** (partial: inputs shorter than 2³¹ bytes) For every input, seed and positive number of columns,
hash one-hot encoding yields exactly one value 1 at one index below the announced number of columns; zero
columns are rejected.  (The result is a function of the input bytes and the seed by construction: the
transformer has no state.)  For inputs of 2³¹ bytes or more see `C47_long_input`. -/
theorem C47_hash_partial (seed numCols : UInt32) :
    (numCols = 0 → HashOneHot.new seed numCols = .error .runtimeError) ∧
    (numCols ≠ 0 → HashOneHot.new seed numCols = .ok ⟨seed, numCols⟩ ∧
      ∀ input : List UInt8, input.length < 2 ^ 31 →
        ∃ v, HashOneHot.exec ⟨seed, numCols⟩ input = .ok v ∧ v.value = 1 ∧
          v.numElements.toNat = numCols.toNat ∧ v.index.toNat < numCols.toNat) := by
  constructor
  · rintro rfl; rfl
  · intro h0
    have hpos : 0 < numCols.toNat := by
      rcases Nat.eq_zero_or_pos numCols.toNat with h | h
      · exact absurd (UInt32.toNat_inj.1 h) h0
      · exact h
    constructor
    · unfold HashOneHot.new
      rw [if_neg]
      intro h
      have := UInt32.le_iff_toNat_le.1 h
      simp at this
      omega
    · intro input hin
      obtain ⟨r, hr⟩ := murmurHash_ok input hin seed
      have hlt : (r % numCols).toUInt64 < numCols.toUInt64 := by
        rw [UInt64.lt_iff_toNat_lt]
        simp only [UInt32.toNat_toUInt64, UInt32.toNat_mod]
        exact Nat.mod_lt _ hpos
      refine ⟨⟨numCols.toUInt64, 1, (r % numCols).toUInt64⟩, ?_, rfl, ?_, ?_⟩
      · unfold HashOneHot.exec
        simp only [hr]
        show mkSingle _ _ _ = _
        rw [C46_single, if_pos hlt]
      · simp
      · have := UInt64.lt_iff_toNat_lt.1 hlt
        simpa using this

/-- **C47** (refutation for very long inputs) The length is passed as an `int`: a string of 2³¹ bytes makes
the hash read out of bounds. -/
theorem C47_long_input (bytes : List UInt8) (h : bytes.length = 2 ^ 31) (seed : UInt32) :
    murmurHash bytes seed = .error .ub := by
  unfold murmurHash
  have : sizeToInt bytes.length = -2147483648 := by rw [h]; decide
  rw [this]
  unfold murmur3
  rw [if_pos (by decide)]

/-- Known values: the hash of the empty string with seed 0 is 0, of "test" with seed 0x9747b28c is
0x704b81dc (published MurmurHash3 test vectors). -/
example : murmurHash [] 0 = .ok 0 ∧ murmurHash [0x74, 0x65, 0x73, 0x74] 0x9747b28c = .ok 0x704b81dc ∧
    murmurHash [0x61, 0x61, 0x61] 0x9747b28c = .ok 0x283e0130 := by decide +kernel

/-! ### C20 -/

/-- The number of labels of the published map. -/
theorem indexMap_size [LinearOrder K] (data ks : List K) (m : UMap K UInt32)
    (h : IndexMapSpec data UMap.empty m ks) : m.size = ks.length := by
  have hnd : ks.Nodup := h.increasing.imp (fun h => ne_of_lt h)
  have hiff : ∀ k, k ∈ m.entries.map (·.1) ↔ k ∈ ks := by
    intro k
    rw [← not_iff_not, ← UMap.find?_eq_none]
    constructor
    · intro hk hmem
      obtain ⟨i, hi, rfl⟩ := List.getElem_of_mem hmem
      rw [h.numbered i hi] at hk; cases hk
    · intro hk
      rw [h.nothingElse k hk, UMap.find?_empty]
  have h1 := (List.subperm_of_subset hnd (fun k hk => (hiff k).2 hk)).length_le
  have h2 := (List.subperm_of_subset m.nodup (fun k hk => (hiff k).1 hk)).length_le
  rw [List.length_map] at h1 h2
  exact Nat.le_antisymm h2 h1

/-- Training an encoder on any batches: the transformer is created from a label map that satisfies the
specification of the index map. -/
private theorem encoder_trained [LinearOrder K] {T : Type} (X : Xf T K K)
    (it : IterOrder K UInt32) (col cap : Nat) (hcap : 0 < cap)
    (batches : List (List K)) (hne : batches ≠ []) (hb : NoEmptyBatch batches)
    (existing : UMap K UInt32) (maps : AnnotationMaps (CatAnnot K)) (hcol : col < maps.length)
    (hnone : getAnnotation CatAnnot.isHistogram maps col "HistogramEstimator" = .ok none)
    (hnone' : getAnnotation CatAnnot.isIndexMap maps col "IndexMapEstimator" = .ok none) :
    ∃ m ks, IndexMapSpec (batches.flatten.take cap) existing m ks ∧
      ∀ (mk : AnnotationMaps (CatAnnot K) → Except Err T) (f : UMap K UInt32 → Except Err T),
        (∀ maps m, trainedLabels col maps = .ok m → mk maps = f m) →
        FeaturizerYields X (encoderComponents it col cap existing) 2 mk batches maps (f m) := by
  obtain ⟨m, ks, maps₁, maps₂, t₁, t₂, hget, hspec⟩ := C19_index_map it col cap cap hcap hcap batches
    batches hb hb existing maps hcol hnone hnone'
  refine ⟨m, ks, hspec, ?_⟩
  intro mk f hmk
  have hy := featurizer_yields X (encoderComponents it col cap existing) 2 mk batches hne hb maps (by
    intro i hi
    match i, hi with
    | 0, _ => exact hcol
    | 1, _ => exact hcol)
  have htr : trainedFeaturizer (encoderComponents it col cap existing) 2 mk batches maps = f m := by
    have hr : List.range 2 = [0, 1] := rfl
    unfold trainedFeaturizer
    rw [hr]
    simp only [trainComponents, encoderComponents, t₁, t₂]
    apply hmk
    simp only [trainedLabels, getAnnotationData, hget]
  rw [htr] at hy
  exact hy

/-- The trained label encoder, and the values it knows. -/
theorem label_encoder_trained [LinearOrder K] (X : Xf (Encoder K) K K)
    (it : IterOrder K UInt32) (col cap : Nat) (hcap : 0 < cap) (allow : Bool)
    (batches : List (List K)) (hne : batches ≠ []) (hb : NoEmptyBatch batches)
    (maps : AnnotationMaps (CatAnnot K)) (hcol : col < maps.length)
    (hnone : getAnnotation CatAnnot.isHistogram maps col "HistogramEstimator" = .ok none)
    (hnone' : getAnnotation CatAnnot.isIndexMap maps col "IndexMapEstimator" = .ok none)
    (hlen : (batches.flatten.take cap).length + 1 < 2 ^ 32) :
    ∃ (ks : List K) (t : Encoder K),
      ks.Pairwise (· < ·) ∧ (∀ k, k ∈ ks ↔ k ∈ batches.flatten.take cap) ∧
      FeaturizerYields X (encoderComponents it col cap UMap.empty) 2 (makeLabelEncoder col allow)
        batches maps (.ok t) ∧
      (∀ i (hi : i < ks.length), ∃ c, labelEncode t ks[i] = .ok c ∧
        c.toNat = i + if allow then 1 else 0) ∧
      (∀ k, k ∉ batches.flatten.take cap →
        (labelEncode t k = if allow then .ok 0 else .error .invalidArgument)) ∧
      t.allowMissing = allow ∧ ∀ k, (t.labels.find? k).isSome = true ↔ k ∈ batches.flatten.take cap := by
  obtain ⟨m, ks, hspec, hy⟩ := encoder_trained X it col cap hcap batches hne hb UMap.empty maps hcol
    hnone hnone'
  generalize batches.flatten.take cap = data at *
  have hmem : ∀ k, k ∈ ks ↔ k ∈ data := by
    intro k; rw [hspec.newValues]; simp [UMap.find?_empty]
  have hnd : ks.Nodup := hspec.increasing.imp (fun h => ne_of_lt h)
  have hkl := (List.subperm_of_subset hnd (fun k hk => (hmem k).1 hk)).length_le
  refine ⟨ks, ⟨m, allow⟩, hspec.increasing, hmem,
    hy (makeLabelEncoder col allow) (fun m => .ok ⟨m, allow⟩) (fun maps m hm => by
      simp only [makeLabelEncoder, hm]), ?_, ?_, rfl, ?_⟩
  · intro i hi
    have hn := hspec.numbered i hi
    simp only [UMap.empty, UMap.size, List.length_nil, Nat.zero_add] at hn
    simp only [labelEncode, hn]
    have hi0 : (UInt32.ofNat i).toNat = i := UInt32.toNat_ofNat_of_lt' (by
      show i < 2 ^ 32
      omega)
    refine ⟨_, rfl, ?_⟩
    cases allow
    · simpa using hi0
    · simp only [if_true]
      rw [UInt32.toNat_add, hi0]
      exact Nat.mod_eq_of_lt (by show i + 1 < 2 ^ 32; omega)
  · intro k hk
    have : m.find? k = none := by
      rw [hspec.nothingElse k (fun h => hk ((hmem k).1 h)), UMap.find?_empty]
    simp only [labelEncode, this]
  · intro k
    constructor
    · intro hk
      by_contra hn
      rw [hspec.nothingElse k (fun h => hn ((hmem k).1 h)), UMap.find?_empty] at hk
      cases hk
    · intro hk
      obtain ⟨i, hi, rfl⟩ := List.getElem_of_mem ((hmem k).2 hk)
      rw [hspec.numbered i hi]
      rfl

/-- **C20** (label encoder) Training a label encoder pipeline on any batches yields a transformer for which,
with `ks` the different training values in increasing order: the i-th value is encoded as `i` (`i+1` when
missing values are allowed) — so different training values have different codes — and every other value as
0 when missing values are allowed, and rejected otherwise. -/
theorem C20_label_encoder [LinearOrder K] (X : Xf (Encoder K) K K)
    (it : IterOrder K UInt32) (col cap : Nat) (hcap : 0 < cap) (allow : Bool)
    (batches : List (List K)) (hne : batches ≠ []) (hb : NoEmptyBatch batches)
    (maps : AnnotationMaps (CatAnnot K)) (hcol : col < maps.length)
    (hnone : getAnnotation CatAnnot.isHistogram maps col "HistogramEstimator" = .ok none)
    (hnone' : getAnnotation CatAnnot.isIndexMap maps col "IndexMapEstimator" = .ok none)
    (hlen : (batches.flatten.take cap).length + 1 < 2 ^ 32) :
    ∃ (ks : List K) (t : Encoder K),
      ks.Pairwise (· < ·) ∧ (∀ k, k ∈ ks ↔ k ∈ batches.flatten.take cap) ∧
      FeaturizerYields X (encoderComponents it col cap UMap.empty) 2 (makeLabelEncoder col allow)
        batches maps (.ok t) ∧
      (∀ i (hi : i < ks.length), ∃ c, labelEncode t ks[i] = .ok c ∧
        c.toNat = i + if allow then 1 else 0) ∧
      ∀ k, k ∉ batches.flatten.take cap →
        labelEncode t k = if allow then .ok 0 else .error .invalidArgument := by
  obtain ⟨ks, t, h1, h2, h3, h4, h5, _⟩ := label_encoder_trained X it col cap hcap allow batches hne hb maps hcol hnone hnone' hlen
  exact ⟨ks, t, h1, h2, h3, h4, h5⟩

/-- The trained one-hot encoder, and the values it knows. -/
theorem one_hot_trained [LinearOrder K] (X : Xf (Encoder K) K K)
    (it : IterOrder K UInt32) (col cap : Nat) (hcap : 0 < cap) (allow : Bool)
    (batches : List (List K)) (hne : batches ≠ []) (hb : NoEmptyBatch batches)
    (hdata : batches.flatten.take cap ≠ [])
    (maps : AnnotationMaps (CatAnnot K)) (hcol : col < maps.length)
    (hnone : getAnnotation CatAnnot.isHistogram maps col "HistogramEstimator" = .ok none)
    (hnone' : getAnnotation CatAnnot.isIndexMap maps col "IndexMapEstimator" = .ok none)
    (hlen : (batches.flatten.take cap).length + 1 < 2 ^ 32) :
    ∃ (ks : List K) (t : Encoder K),
      ks.Pairwise (· < ·) ∧ (∀ k, k ∈ ks ↔ k ∈ batches.flatten.take cap) ∧
      FeaturizerYields X (encoderComponents it col cap UMap.empty) 2 (makeOneHot col allow)
        batches maps (.ok t) ∧
      (∀ i (hi : i < ks.length), ∃ v, oneHotEncode t ks[i] = .ok v ∧ v.value = 1 ∧
        v.numElements.toNat = ks.length + (if allow then 1 else 0) ∧
        v.index.toNat = i + if allow then 1 else 0) ∧
      (∀ k, k ∉ batches.flatten.take cap →
        if allow then ∃ v, oneHotEncode t k = .ok v ∧ v.value = 1 ∧
          v.numElements.toNat = ks.length + 1 ∧ v.index.toNat = 0
        else oneHotEncode t k = .error .invalidArgument) ∧
      (∀ k, (t.labels.find? k).isSome = true ↔ k ∈ batches.flatten.take cap) ∧ t.labels.size ≠ 0 := by
  obtain ⟨m, ks, hspec, hy⟩ := encoder_trained X it col cap hcap batches hne hb UMap.empty maps hcol
    hnone hnone'
  have hsize := indexMap_size _ _ _ hspec
  generalize batches.flatten.take cap = data at *
  have hmem : ∀ k, k ∈ ks ↔ k ∈ data := by
    intro k; rw [hspec.newValues]; simp [UMap.find?_empty]
  have hnd : ks.Nodup := hspec.increasing.imp (fun h => ne_of_lt h)
  have hkl := (List.subperm_of_subset hnd (fun k hk => (hmem k).1 hk)).length_le
  have hpos : ¬ m.size = 0 := by
    rw [hsize]
    intro h0
    obtain ⟨x, xs, hx⟩ := List.exists_cons_of_ne_nil hdata
    have := (hmem x).2 (by simp [hx])
    rw [List.length_eq_zero_iff.1 h0] at this
    simp at this
  have hn64 : (UInt64.ofNat m.size).toNat = ks.length := by
    rw [hsize]
    exact UInt64.toNat_ofNat_of_lt' (by show ks.length < 2 ^ 64; omega)
  have hnum : (UInt64.ofNat m.size + if allow then 1 else 0).toNat
      = ks.length + if allow then 1 else 0 := by
    cases allow
    · simpa using hn64
    · simp only [if_true]
      rw [UInt64.toNat_add, hn64]
      exact Nat.mod_eq_of_lt (by show ks.length + 1 < 2 ^ 64; omega)
  refine ⟨ks, ⟨m, allow⟩, hspec.increasing, hmem,
    (by
      have h := hy (makeOneHot col allow) (fun m => newOneHot m allow) (fun maps m hm => by
        simp only [makeOneHot, hm])
      simp only [newOneHot, if_neg hpos] at h
      exact h), ?_, ?_, ?_, hpos⟩
  · intro i hi
    have hn := hspec.numbered i hi
    simp only [UMap.empty, UMap.size, List.length_nil, Nat.zero_add] at hn
    have hi0 : (UInt32.ofNat i).toNat = i := UInt32.toNat_ofNat_of_lt' (by
      show i < 2 ^ 32
      omega)
    have hidx : ((UInt32.ofNat i).toUInt64 + if allow then 1 else 0).toNat
        = i + if allow then 1 else 0 := by
      cases allow
      · simpa using hi0
      · simp only [if_true]
        rw [UInt64.toNat_add, UInt32.toNat_toUInt64, hi0]
        exact Nat.mod_eq_of_lt (by show i + 1 < 2 ^ 64; omega)
    refine ⟨⟨_, 1, _⟩, ?_, rfl, hnum, hidx⟩
    simp only [oneHotEncode, hn]
    rw [C46_single, if_pos]
    rw [UInt64.lt_iff_toNat_lt, hnum, hidx]
    omega
  · intro k hk
    have : m.find? k = none := by
      rw [hspec.nothingElse k (fun h => hk ((hmem k).1 h)), UMap.find?_empty]
    cases allow
    · simp only [Bool.false_eq_true, if_false, oneHotEncode, this, if_true]
    · simp only [if_true] at hnum ⊢
      refine ⟨⟨_, 1, 0⟩, ?_, rfl, hnum, rfl⟩
      simp only [oneHotEncode, this, Bool.true_eq_false, if_false, if_true]
      rw [C46_single, if_pos]
      rw [UInt64.lt_iff_toNat_lt, hnum]
      show 0 < _
      omega
  · intro k
    constructor
    · intro hk
      by_contra hn
      rw [hspec.nothingElse k (fun h => hn ((hmem k).1 h)), UMap.find?_empty] at hk
      cases hk
    · intro hk
      obtain ⟨i, hi, rfl⟩ := List.getElem_of_mem ((hmem k).2 hk)
      rw [hspec.numbered i hi]
      rfl

/-- **C20** (one-hot encoder) Training a one-hot encoder pipeline on any non-empty data yields a transformer
that encodes the i-th training value (in increasing order) as a vector with as many columns as there are
training values (one more when missing values are allowed), with one 1 at column `i` (`i+1`); any other value
has its 1 at the reserved column 0, or is rejected. -/
theorem C20_one_hot [LinearOrder K] (X : Xf (Encoder K) K K)
    (it : IterOrder K UInt32) (col cap : Nat) (hcap : 0 < cap) (allow : Bool)
    (batches : List (List K)) (hne : batches ≠ []) (hb : NoEmptyBatch batches)
    (hdata : batches.flatten.take cap ≠ [])
    (maps : AnnotationMaps (CatAnnot K)) (hcol : col < maps.length)
    (hnone : getAnnotation CatAnnot.isHistogram maps col "HistogramEstimator" = .ok none)
    (hnone' : getAnnotation CatAnnot.isIndexMap maps col "IndexMapEstimator" = .ok none)
    (hlen : (batches.flatten.take cap).length + 1 < 2 ^ 32) :
    ∃ (ks : List K) (t : Encoder K),
      ks.Pairwise (· < ·) ∧ (∀ k, k ∈ ks ↔ k ∈ batches.flatten.take cap) ∧
      FeaturizerYields X (encoderComponents it col cap UMap.empty) 2 (makeOneHot col allow)
        batches maps (.ok t) ∧
      (∀ i (hi : i < ks.length), ∃ v, oneHotEncode t ks[i] = .ok v ∧ v.value = 1 ∧
        v.numElements.toNat = ks.length + (if allow then 1 else 0) ∧
        v.index.toNat = i + if allow then 1 else 0) ∧
      ∀ k, k ∉ batches.flatten.take cap →
        if allow then ∃ v, oneHotEncode t k = .ok v ∧ v.value = 1 ∧
          v.numElements.toNat = ks.length + 1 ∧ v.index.toNat = 0
        else oneHotEncode t k = .error .invalidArgument := by
  obtain ⟨ks, t, h1, h2, h3, h4, h5, _⟩ := one_hot_trained X it col cap hcap allow batches hne hb hdata maps hcol hnone hnone' hlen
  exact ⟨ks, t, h1, h2, h3, h4, h5⟩

/-- **C20** (numericalize) Training a numericalize pipeline on any batches yields a transformer that maps
the i-th training value (in increasing order) to `i` and every other value to NaN. -/
theorem C20_numericalize [LinearOrder K] (X : Xf (UMap K UInt32) K K)
    (it : IterOrder K UInt32) (col cap : Nat) (hcap : 0 < cap)
    (batches : List (List K)) (hne : batches ≠ []) (hb : NoEmptyBatch batches)
    (maps : AnnotationMaps (CatAnnot K)) (hcol : col < maps.length)
    (hnone : getAnnotation CatAnnot.isHistogram maps col "HistogramEstimator" = .ok none)
    (hnone' : getAnnotation CatAnnot.isIndexMap maps col "IndexMapEstimator" = .ok none)
    (hlen : (batches.flatten.take cap).length < 2 ^ 32) :
    ∃ (ks : List K) (t : UMap K UInt32),
      ks.Pairwise (· < ·) ∧ (∀ k, k ∈ ks ↔ k ∈ batches.flatten.take cap) ∧
      FeaturizerYields X (encoderComponents it col cap UMap.empty) 2 (makeNumericalize col)
        batches maps (.ok t) ∧
      (∀ i (hi : i < ks.length), ∃ c, numericalizeOne t ks[i] = some c ∧ c.toNat = i) ∧
      ∀ k, k ∉ batches.flatten.take cap → numericalizeOne t k = none := by
  obtain ⟨m, ks, hspec, hy⟩ := encoder_trained X it col cap hcap batches hne hb UMap.empty maps hcol
    hnone hnone'
  generalize batches.flatten.take cap = data at *
  have hmem : ∀ k, k ∈ ks ↔ k ∈ data := by
    intro k; rw [hspec.newValues]; simp [UMap.find?_empty]
  have hnd : ks.Nodup := hspec.increasing.imp (fun h => ne_of_lt h)
  have hkl := (List.subperm_of_subset hnd (fun k hk => (hmem k).1 hk)).length_le
  refine ⟨ks, m, hspec.increasing, hmem,
    hy (makeNumericalize col) (fun m => .ok m) (fun maps m hm => hm), ?_, ?_⟩
  · intro i hi
    have hn := hspec.numbered i hi
    simp only [UMap.empty, UMap.size, List.length_nil, Nat.zero_add] at hn
    exact ⟨_, hn, UInt32.toNat_ofNat_of_lt' (by show i < 2 ^ 32; omega)⟩
  · intro k hk
    unfold numericalizeOne
    rw [hspec.nothingElse k (fun h => hk ((hmem k).1 h)), UMap.find?_empty]

/-- The number of labels in the presence of given labels. -/
theorem indexMap_size_existing [LinearOrder K] (data ks : List K) (existing m : UMap K UInt32)
    (h : IndexMapSpec data existing m ks) : m.size = existing.size + ks.length := by
  have hnd : ks.Nodup := h.increasing.imp (fun h => ne_of_lt h)
  have hnd2 : (existing.entries.map (·.1) ++ ks).Nodup := by
    rw [List.nodup_append]
    refine ⟨existing.nodup, hnd, ?_⟩
    intro a ha b hb hab
    subst hab
    exact ((UMap.find?_eq_none existing a).1 ((h.newValues a).1 hb).2) ha
  have hiff : ∀ k, k ∈ m.entries.map (·.1) ↔ k ∈ existing.entries.map (·.1) ++ ks := by
    intro k
    rw [← not_iff_not, ← UMap.find?_eq_none, List.mem_append, not_or, ← UMap.find?_eq_none]
    constructor
    · intro hk
      refine ⟨?_, ?_⟩
      · rcases he : existing.find? k with _ | v
        · rfl
        · rw [h.kept k v he] at hk; cases hk
      · intro hmem
        obtain ⟨i, hi, rfl⟩ := List.getElem_of_mem hmem
        rw [h.numbered i hi] at hk; cases hk
    · rintro ⟨h1, h2⟩
      rw [h.nothingElse k h2, h1]
  have h1 := (List.subperm_of_subset hnd2 (fun k hk => (hiff k).2 hk)).length_le
  have h2 := (List.subperm_of_subset m.nodup (fun k hk => (hiff k).1 hk)).length_le
  rw [List.length_map, List.length_append, List.length_map] at h1 h2
  exact Nat.le_antisymm h2 h1

/-- **C20** (partial: encoders constructed with given labels, whose indexes are assumed distinct and smaller
than their number) Different training values still have different label codes, and every training value is
one-hot encoded at a column within the announced number of columns.  For arbitrary given labels both are
false: `C19_collision`, `C20_given_labels_out_of_range`. -/
theorem C20_given_labels_partial [LinearOrder K] (X : Xf (Encoder K) K K)
    (it : IterOrder K UInt32) (col cap : Nat) (hcap : 0 < cap) (allow : Bool)
    (batches : List (List K)) (hne : batches ≠ []) (hb : NoEmptyBatch batches)
    (hdata : batches.flatten.take cap ≠ []) (existing : UMap K UInt32)
    (hinj : ∀ a b v, existing.find? a = some v → existing.find? b = some v → a = b)
    (hsmall : ∀ a v, existing.find? a = some v → v.toNat < existing.size)
    (maps : AnnotationMaps (CatAnnot K)) (hcol : col < maps.length)
    (hnone : getAnnotation CatAnnot.isHistogram maps col "HistogramEstimator" = .ok none)
    (hnone' : getAnnotation CatAnnot.isIndexMap maps col "IndexMapEstimator" = .ok none)
    (hlen : existing.size + (batches.flatten.take cap).length + 1 < 2 ^ 32) :
    ∃ (t : Encoder K),
      FeaturizerYields X (encoderComponents it col cap existing) 2 (makeLabelEncoder col allow)
        batches maps (.ok t) ∧
      FeaturizerYields X (encoderComponents it col cap existing) 2 (makeOneHot col allow)
        batches maps (.ok t) ∧
      (∀ a ∈ batches.flatten.take cap, ∃ c v, labelEncode t a = .ok c ∧ oneHotEncode t a = .ok v ∧
        v.value = 1 ∧ v.index.toNat = c.toNat ∧ v.index.toNat < v.numElements.toNat) ∧
      ∀ a ∈ batches.flatten.take cap, ∀ b ∈ batches.flatten.take cap, a ≠ b →
        labelEncode t a ≠ labelEncode t b := by
  obtain ⟨m, ks, hspec, hy⟩ := encoder_trained X it col cap hcap batches hne hb existing maps hcol
    hnone hnone'
  have hsize := indexMap_size_existing _ _ _ _ hspec
  generalize batches.flatten.take cap = data at *
  have hdis := C19_distinct_partial data ks existing m hspec (by omega) hinj hsmall
  have hnd : ks.Nodup := hspec.increasing.imp (fun h => ne_of_lt h)
  have hkl := (List.subperm_of_subset hnd (fun k hk => ((hspec.newValues k).1 hk).1)).length_le
  have hfind : ∀ a ∈ data, ∃ c, m.find? a = some c ∧ c.toNat < m.size := by
    intro a ha
    rcases he : existing.find? a with _ | v
    · obtain ⟨i, hi, rfl⟩ := List.getElem_of_mem ((hspec.newValues a).2 ⟨ha, he⟩)
      refine ⟨_, hspec.numbered i hi, ?_⟩
      rw [UInt32.toNat_ofNat_of_lt' (by show existing.size + i < 2 ^ 32; omega)]
      omega
    · exact ⟨v, hspec.kept a v he, by have := hsmall a v he; omega⟩
  have hpos : ¬ m.size = 0 := by
    obtain ⟨x, xs, hx⟩ := List.exists_cons_of_ne_nil hdata
    obtain ⟨c, _, h⟩ := hfind x (by simp [hx])
    omega
  have hoff : ∀ c : UInt32, c.toNat < m.size →
      (c + if allow then 1 else 0).toNat = c.toNat + if allow then 1 else 0 := by
    intro c hc
    cases allow
    · simp
    · simp only [if_true]
      rw [UInt32.toNat_add]
      exact Nat.mod_eq_of_lt (by show c.toNat + 1 < 2 ^ 32; omega)
  have hoff64 : ∀ c : UInt32, c.toNat < m.size →
      (c.toUInt64 + if allow then 1 else 0).toNat = c.toNat + if allow then 1 else 0 := by
    intro c hc
    cases allow
    · simp
    · simp only [if_true]
      rw [UInt64.toNat_add, UInt32.toNat_toUInt64]
      exact Nat.mod_eq_of_lt (by show c.toNat + 1 < 2 ^ 64; omega)
  have hnum : (UInt64.ofNat m.size + if allow then 1 else 0).toNat
      = m.size + if allow then 1 else 0 := by
    have hn64 : (UInt64.ofNat m.size).toNat = m.size :=
      UInt64.toNat_ofNat_of_lt' (by show m.size < 2 ^ 64; omega)
    cases allow
    · simpa using hn64
    · simp only [if_true]
      rw [UInt64.toNat_add, hn64]
      exact Nat.mod_eq_of_lt (by show m.size + 1 < 2 ^ 64; omega)
  refine ⟨⟨m, allow⟩,
    hy (makeLabelEncoder col allow) (fun m => .ok ⟨m, allow⟩) (fun maps m hm => by
      simp only [makeLabelEncoder, hm]),
    (by
      have h := hy (makeOneHot col allow) (fun m => newOneHot m allow) (fun maps m hm => by
        simp only [makeOneHot, hm])
      simp only [newOneHot, if_neg hpos] at h
      exact h), ?_, ?_⟩
  · intro a ha
    obtain ⟨c, hc, hlt⟩ := hfind a ha
    refine ⟨c + if allow then 1 else 0, ⟨UInt64.ofNat m.size + (if allow then 1 else 0), 1,
      c.toUInt64 + if allow then 1 else 0⟩, by simp only [labelEncode, hc], ?_, rfl, ?_, ?_⟩
    rotate_left
    · exact (hoff64 c hlt).trans (hoff c hlt).symm
    · show (c.toUInt64 + if allow then 1 else 0).toNat < (UInt64.ofNat m.size + if allow then 1 else 0).toNat
      rw [hoff64 c hlt, hnum]; omega
    · simp only [oneHotEncode, hc]
      rw [C46_single, if_pos]
      rw [UInt64.lt_iff_toNat_lt, hoff64 c hlt, hnum]; omega
  · intro a ha b hb hab heq
    obtain ⟨c, hc, hlt⟩ := hfind a ha
    obtain ⟨d, hd, hlt'⟩ := hfind b hb
    simp only [labelEncode, hc, hd, Except.ok.injEq] at heq
    have h1 := hoff c hlt
    have h2 := hoff d hlt'
    rw [heq, h2] at h1
    have : d = c := UInt32.toNat_inj.1 (by omega)
    subst this
    exact hab (hdis a b d hc hd)

/-- **C20** (refutation for arbitrary given labels) A one-hot encoder given the label 10 with index 5 and
trained on the single value 10 throws when asked to encode 10. -/
theorem C20_given_labels_out_of_range :
    ∃ (existing : UMap Nat UInt32) (t : Encoder Nat),
      trainedFeaturizer (encoderComponents .id 0 9 existing) 2 (makeOneHot 0 false) [[10]] [[]]
        = .ok t ∧
      oneHotEncode t 10 = .error .invalidArgument :=
  ⟨⟨[(10, 5)], by simp⟩, ⟨⟨[(10, 5)], by simp⟩, false⟩, rfl, rfl⟩

/-! Non-vacuity: three values trained in two batches. -/
example : ∃ t, trainedFeaturizer (encoderComponents .reverse 0 9 UMap.empty) 2 (makeOneHot 0 true)
      [[5, 2], [5, 9]] ([[]] : AnnotationMaps (CatAnnot Nat)) = .ok t ∧
    oneHotEncode t 9 = .ok ⟨4, 1, 3⟩ ∧ oneHotEncode t 7 = .ok ⟨4, 1, 0⟩ ∧ labelEncode t 2 = .ok 1 ∧
    numericalizeOne t.labels 5 = some 1 ∧ numericalizeOne t.labels 6 = none :=
  ⟨⟨⟨[(2, 0), (5, 1), (9, 2)], by simp⟩, true⟩, rfl, rfl, rfl, rfl, rfl, rfl⟩

end Feat
