import Verif.Proofs.FloatCategories
import Verif.Spec.FloatCategories
import Verif.Props.Categorical
import Verif.Props.Encoders
/-
C92: encoders and mode imputer on columns of floating point numbers.
-/
namespace Feat.FloatCategories
open Feat.FloatArith
variable {T : Type} [FloType T]

theorem histogram_trained (col cap : Nat) (hcap : 0 < cap) (batches : List (List T)) (hb : NoEmptyBatch batches)
    (maps : AnnotationMaps (Annot T)) (hcol : col < maps.length)
    (hnone : getAnnotation Annot.isHistogram maps col "HistogramEstimator" = .ok none) :
    trainEstimator histogramPolicy (histogramConfig col) cap [] batches maps
      = (.ok (), (addAnnotation (some (.histogram ((batches.flatten.take cap).foldl count []))) col
          "HistogramEstimator" maps).2) := by
  rw [trainEstimator_fold histogramPolicy (count (T := T)) (fun _ _ => rfl)
    (fun _ _ => rfl) (histogramConfig col) cap hcap [] batches hb maps hcol rfl hnone]
  exact (addAnnotation_ok maps _ col _ hcol).1

omit [FloType T] in
theorem getAnnotationData_of' {maps : AnnotationMaps (Annot T)} {kind : Annot T → Bool} {col : Nat} {name : String} {a : Annot T}
    (h : getAnnotation kind maps col name = .ok (some a)) : getAnnotationData kind maps col name = .ok a := by
  unfold getAnnotationData
  rw [h]

/-- Training histogram and index map. -/
theorem encoder_trained {S : Type} (X : Xf S T T) (p : Probe T) (it : IterOrder T UInt32) (col cap : Nat) (hcap : 0 < cap)
    (batches : List (List T)) (hne : batches ≠ []) (hb : NoEmptyBatch batches)
    (maps : AnnotationMaps (Annot T)) (hcol : col < maps.length)
    (hnone : getAnnotation Annot.isHistogram maps col "HistogramEstimator" = .ok none)
    (hnone' : getAnnotation Annot.isIndexMap maps col "IndexMapEstimator" = .ok none)
    (mk : AnnotationMaps (Annot T) → Except Err S) (f : Entries T → Except Err S)
    (hmk : ∀ maps m, trainedLabels col maps = .ok m → mk maps = f m) :
    FeaturizerYields X (encoderComponents p it col cap) 2 mk batches maps
      ((createIndexMap p it ((batches.flatten.take cap).foldl count []) []).bind f) := by
  have t := histogram_trained col cap hcap batches hb maps hcol hnone
  have g := getAnnotation_add_self maps (.histogram ((batches.flatten.take cap).foldl count [])) col
    "HistogramEstimator" Annot.isHistogram rfl hnone
  have go := getAnnotation_add_other maps (.histogram ((batches.flatten.take cap).foldl count [])) col
    "HistogramEstimator" "IndexMapEstimator" Annot.isIndexMap (by decide)
  have hl := (addAnnotation_ok maps (.histogram ((batches.flatten.take cap).foldl count [])) col "HistogramEstimator" hcol).2
  generalize hm1 : (addAnnotation (some (.histogram ((batches.flatten.take cap).foldl count []))) col
    "HistogramEstimator" maps).2 = maps₁ at t g go hl
  rw [hnone'] at go
  have t2 := trainEstimator_noTraining (indexMapPolicy p it col) (indexMapConfig col) cap hcap [] batches hb maps₁ (by
    rw [hl]; exact hcol) rfl
  have hc : (indexMapPolicy p it col).complete maps₁ [] =
      match createIndexMap p it ((batches.flatten.take cap).foldl count []) [] with
      | .error e => (.error e, [])
      | .ok m => (.ok (.indexMap m), []) := by
    show (match getAnnotationData Annot.isHistogram maps₁ col "HistogramEstimator" with
      | .error e => _ | .ok (.histogram h) => _ | .ok _ => _) = _
    rw [getAnnotationData_of' g]
    rfl
  rw [hc] at t2
  rcases hcm : createIndexMap p it ((batches.flatten.take cap).foldl count []) [] with e | m
  · rw [hcm] at t2
    exact featurizer_two X ⟨histogramPolicy, histogramConfig col, cap, []⟩ ⟨indexMapPolicy p it col, indexMapConfig col, cap, []⟩
      mk batches hne hb maps hcol hcol _ _ t _ _ (fun _ => t2)
  · rw [hcm] at t2
    have t3 := (addAnnotation_ok maps₁ (.indexMap m) col "IndexMapEstimator" (by rw [hl]; exact hcol)).1
    have g3 := getAnnotation_add_self maps₁ (.indexMap m) col "IndexMapEstimator" Annot.isIndexMap rfl go
    have h := featurizer_two X ⟨histogramPolicy, histogramConfig col, cap, []⟩ ⟨indexMapPolicy p it col, indexMapConfig col, cap, []⟩
      mk batches hne hb maps hcol hcol _ _ t _ _ (fun _ => t2.trans t3)
    simp only [Except.bind] at h ⊢
    rw [hmk _ m (by unfold trainedLabels; rw [getAnnotationData_of' g3])] at h
    exact h

/-- The index map of data without NaN. -/
theorem indexMap_numbers (p : Probe T) (it : IterOrder T UInt32) (data : List T) (h : ∀ x ∈ data, isNaN x = false) :
    ∃ ks, Categories data ks ∧ ks.length ≤ data.length ∧ createIndexMap p it (data.foldl count []) [] =
      .ok (ks.zipIdx.map fun e => (e.1, UInt32.ofNat e.2)) := by
  obtain ⟨s1, s2, s3, _hc⟩ := firstSeen_spec data
  have hperm : ((it.order (data.foldl count [])).map (·.1)).Perm (firstSeen data) := by
    rw [← hist_keys]
    exact (it.perm _).map _
  obtain ⟨ks, hk, hkp, hks⟩ := sort_numbers ((it.order (data.foldl count [])).map (·.1)) (fun x hx =>
    h x (s2 x (hperm.mem_iff.1 hx))) (s1.perm hperm.symm)
  have hp := hkp.trans hperm
  have hsub : (firstSeen data).length ≤ data.length := by
    clear hkp hperm hks hk hp s1 s2 s3 h _hc
    induction data using List.reverseRecOn with
    | nil => simp [firstSeen]
    | append_singleton data x ih =>
      rw [firstSeen_append]
      split
      · rw [List.length_append]; exact Nat.le_trans ih (Nat.le_add_right _ _)
      · rw [List.length_append, List.length_append]; exact Nat.add_le_add_right ih _
  refine ⟨ks, ⟨hks, fun k hk => s2 k (hp.mem_iff.1 hk), ?_⟩, hp.length_eq ▸ hsub, ?_⟩
  · intro x hx hn
    obtain ⟨k, hk', he⟩ := s3 x hx hn
    exact ⟨k, hp.mem_iff.2 hk', he⟩
  · unfold createIndexMap
    rw [List.filter_eq_self.2 (by intro a _; rfl), hk]
    simp only
    rw [indexKeys_eq p ks [] (by simpa using s1.perm hp.symm) (fun k hk => h k (s2 k (hp.mem_iff.1 hk)))]
    rfl

theorem Categories.distinct {data ks : List T} (h : Categories data ks) : Distinct ks :=
  h.increasing.imp fun hab => by
    rename_i a b
    cases he : eq a b
    · rfl
    · have h1 := (lt_iff'.1 hab).2.2
      have h2 := (eq_iff'.1 he).2.2
      omega

theorem find_missing (p : Probe T) {data ks : List T} (hks : Categories data ks) (hnum : ∀ x ∈ data, isNaN x = false) (x : T)
    (hx : ∀ y ∈ data, eq y x = false) : find p (ks.zipIdx.map fun e => (e.1, UInt32.ofNat e.2)) x = none := by
  cases hxn : isNaN x
  · rw [find_number p _ x hxn]
    exact (find_numbered ks 0 x hks.distinct).2 fun k hk => hx k (hks.occur k hk)
  · refine find_nan p _ x hxn ?_
    intro e he
    obtain ⟨f, hf, rfl⟩ := List.mem_map.1 he
    exact hnum _ (hks.occur _ (List.fst_mem_of_mem_zipIdx hf))

/-- **C92** (label encoder) Trained on numbers: with `ks` the categories in increasing order, the numbers in category `i` are
encoded as `i` (`i+1` when missing values are allowed), and every other number and every NaN as 0 when missing values are
allowed, and rejected otherwise. -/
theorem C92_label_encoder (X : Xf (Encoder T) T T) (p : Probe T) (it : IterOrder T UInt32) (col cap : Nat) (hcap : 0 < cap) (allow : Bool)
    (batches : List (List T)) (hne : batches ≠ []) (hb : NoEmptyBatch batches)
    (hnum : ∀ x ∈ batches.flatten.take cap, isNaN x = false)
    (maps : AnnotationMaps (Annot T)) (hcol : col < maps.length)
    (hnone : getAnnotation Annot.isHistogram maps col "HistogramEstimator" = .ok none)
    (hnone' : getAnnotation Annot.isIndexMap maps col "IndexMapEstimator" = .ok none)
    (hlen : (batches.flatten.take cap).length + 1 < 2 ^ 32) :
    ∃ ks t, Categories (batches.flatten.take cap) ks ∧
      FeaturizerYields X (encoderComponents p it col cap) 2 (makeLabelEncoder col allow) batches maps (.ok t) ∧
      (∀ i (hi : i < ks.length) x, eq ks[i] x = true → ∃ c, labelEncode p t x = .ok c ∧ c.toNat = i + if allow then 1 else 0) ∧
      ∀ x, (∀ y ∈ batches.flatten.take cap, eq y x = false) →
        labelEncode p t x = if allow then .ok 0 else .error .invalidArgument := by
  obtain ⟨ks, hks, hkl, hm⟩ := indexMap_numbers p it _ hnum
  have hy := encoder_trained X p it col cap hcap batches hne hb maps hcol hnone hnone' (makeLabelEncoder col allow)
    (fun m => .ok ⟨m, allow⟩) (fun maps m hm => by unfold makeLabelEncoder; rw [hm])
  rw [hm] at hy
  refine ⟨ks, _, hks, hy, ?_, ?_⟩
  · intro i hi x hx
    have hf := (find_numbered ks 0 x hks.distinct).1 i hi hx
    rw [Nat.zero_add, ← find_number p _ x (eq_iff'.1 hx).2.1] at hf
    unfold labelEncode
    rw [hf]
    have hi0 : (UInt32.ofNat i).toNat = i := UInt32.toNat_ofNat_of_lt' (by
      show i < 2 ^ 32
      omega)
    refine ⟨_, rfl, ?_⟩
    cases allow
    · simpa using hi0
    · simp only [if_true]
      rw [UInt32.toNat_add, hi0]
      exact Nat.mod_eq_of_lt (by show i + 1 < 2 ^ 32; omega)
  · intro x hx
    have hf := find_missing p hks hnum x hx
    unfold labelEncode
    rw [hf]

/-- **C92** (one-hot encoder) As the label encoder: the number of columns is the number of categories, plus one when missing
values are allowed. -/
theorem C92_one_hot (X : Xf (Encoder T) T T) (p : Probe T) (it : IterOrder T UInt32) (col cap : Nat) (hcap : 0 < cap) (allow : Bool)
    (batches : List (List T)) (hne : batches ≠ []) (hb : NoEmptyBatch batches) (hdata : batches.flatten.take cap ≠ [])
    (hnum : ∀ x ∈ batches.flatten.take cap, isNaN x = false)
    (maps : AnnotationMaps (Annot T)) (hcol : col < maps.length)
    (hnone : getAnnotation Annot.isHistogram maps col "HistogramEstimator" = .ok none)
    (hnone' : getAnnotation Annot.isIndexMap maps col "IndexMapEstimator" = .ok none)
    (hlen : (batches.flatten.take cap).length + 1 < 2 ^ 32) :
    ∃ ks t, Categories (batches.flatten.take cap) ks ∧
      FeaturizerYields X (encoderComponents p it col cap) 2 (makeOneHot col allow) batches maps (.ok t) ∧
      (∀ i (hi : i < ks.length) x, eq ks[i] x = true → ∃ v, oneHotEncode p t x = .ok v ∧ v.value = 1 ∧
        v.numElements.toNat = ks.length + (if allow then 1 else 0) ∧ v.index.toNat = i + if allow then 1 else 0) ∧
      ∀ x, (∀ y ∈ batches.flatten.take cap, eq y x = false) →
        if allow then ∃ v, oneHotEncode p t x = .ok v ∧ v.value = 1 ∧ v.numElements.toNat = ks.length + 1 ∧ v.index = 0
        else oneHotEncode p t x = .error .invalidArgument := by
  obtain ⟨ks, hks, hkl, hm⟩ := indexMap_numbers p it _ hnum
  have hy := encoder_trained X p it col cap hcap batches hne hb maps hcol hnone hnone' (makeOneHot col allow)
    (fun m => if m.length = 0 then .error .invalidArgument else .ok ⟨m, allow⟩)
    (fun maps m hm => by unfold makeOneHot; rw [hm])
  have hsize : (ks.zipIdx.map fun e => (e.1, UInt32.ofNat e.2)).length = ks.length := by simp
  have hpos : ¬ ks.length = 0 := by
    intro h0
    obtain ⟨x, hx⟩ := List.exists_mem_of_ne_nil _ hdata
    obtain ⟨k, hk, _⟩ := hks.all x hx (hnum x hx)
    rw [List.length_eq_zero_iff.1 h0] at hk
    cases hk
  rw [hm] at hy
  simp only [Except.bind] at hy
  rw [hsize, if_neg hpos] at hy
  have hn64 : (UInt64.ofNat ks.length).toNat = ks.length :=
    UInt64.toNat_ofNat_of_lt' (by show ks.length < 2 ^ 64; omega)
  have hnum' : (UInt64.ofNat ks.length + if allow then 1 else 0).toNat = ks.length + if allow then 1 else 0 := by
    cases allow
    · simpa using hn64
    · simp only [if_true]
      rw [UInt64.toNat_add, hn64]
      exact Nat.mod_eq_of_lt (by show ks.length + 1 < 2 ^ 64; omega)
  refine ⟨ks, _, hks, hy, ?_, ?_⟩
  · intro i hi x hx
    have hf := (find_numbered ks 0 x hks.distinct).1 i hi hx
    rw [Nat.zero_add, ← find_number p _ x (eq_iff'.1 hx).2.1] at hf
    have hi0 : (UInt32.ofNat i).toNat = i := UInt32.toNat_ofNat_of_lt' (by
      show i < 2 ^ 32
      omega)
    have hidx : ((UInt32.ofNat i).toUInt64 + if allow then 1 else 0).toNat = i + if allow then 1 else 0 := by
      cases allow
      · simpa using hi0
      · simp only [if_true]
        rw [UInt64.toNat_add, UInt32.toNat_toUInt64, hi0]
        exact Nat.mod_eq_of_lt (by show i + 1 < 2 ^ 64; omega)
    refine ⟨⟨UInt64.ofNat ks.length + if allow then 1 else 0, 1, (UInt32.ofNat i).toUInt64 + if allow then 1 else 0⟩, ?_, rfl, hnum', hidx⟩
    unfold oneHotEncode
    simp only [hf, hsize]
    rw [C46_single, if_pos]
    rw [UInt64.lt_iff_toNat_lt, hnum', hidx]
    omega
  · intro x hx
    have hf := find_missing p hks hnum x hx
    unfold oneHotEncode
    simp only [hf, hsize]
    cases allow
    · rfl
    · simp only [if_true] at hnum' ⊢
      refine ⟨⟨_, 1, 0⟩, ?_, rfl, hnum', rfl⟩
      simp only [Bool.true_eq_false, if_false]
      rw [C46_single, if_pos]
      rw [UInt64.lt_iff_toNat_lt, hnum']
      exact Nat.succ_pos _

/-- **C92** (numericalize) Trained on numbers: the numbers in category `i` become `i`, everything else NaN. -/
theorem C92_numericalize (X : Xf (Entries T) T T) (p : Probe T) (it : IterOrder T UInt32) (col cap : Nat) (hcap : 0 < cap)
    (batches : List (List T)) (hne : batches ≠ []) (hb : NoEmptyBatch batches)
    (hnum : ∀ x ∈ batches.flatten.take cap, isNaN x = false)
    (maps : AnnotationMaps (Annot T)) (hcol : col < maps.length)
    (hnone : getAnnotation Annot.isHistogram maps col "HistogramEstimator" = .ok none)
    (hnone' : getAnnotation Annot.isIndexMap maps col "IndexMapEstimator" = .ok none)
    (hlen : (batches.flatten.take cap).length < 2 ^ 32) :
    ∃ ks t, Categories (batches.flatten.take cap) ks ∧
      FeaturizerYields X (encoderComponents p it col cap) 2 (makeNumericalize col) batches maps (.ok t) ∧
      (∀ i (hi : i < ks.length) x, eq ks[i] x = true → ∃ c, numericalizeOne p t x = some c ∧ c.toNat = i) ∧
      ∀ x, (∀ y ∈ batches.flatten.take cap, eq y x = false) → numericalizeOne p t x = none := by
  obtain ⟨ks, hks, hkl, hm⟩ := indexMap_numbers p it _ hnum
  have hy := encoder_trained X p it col cap hcap batches hne hb maps hcol hnone hnone' (makeNumericalize col)
    (fun m => .ok m) (fun maps m hm => hm)
  rw [hm] at hy
  refine ⟨ks, _, hks, hy, ?_, fun x hx => find_missing p hks hnum x hx⟩
  intro i hi x hx
  have hf := (find_numbered ks 0 x hks.distinct).1 i hi hx
  rw [Nat.zero_add, ← find_number p _ x (eq_iff'.1 hx).2.1] at hf
  exact ⟨_, hf, UInt32.toNat_ofNat_of_lt' (show i < 2 ^ 32 by omega)⟩

theorem nan_first {data : List T} {n : T} (hn : n ∈ data) (hnan : isNaN n = true) : ∃ k ∈ firstSeen data, isNaN k = true := by
  have h := (firstSeen_spec data).2.2.2
  have hpos : 0 < (firstSeen data).countP isNaN := by rw [h]; exact List.countP_pos_iff.2 ⟨n, hn, hnan⟩
  exact List.countP_pos_iff.1 hpos

theorem indexMap_undefined (p : Probe T) (it : IterOrder T UInt32) (data : List T) {n a b : T} (hn : n ∈ data) (ha : a ∈ data) (hb : b ∈ data)
    (hnan : isNaN n = true) (hab : lt a b = true) : createIndexMap p it (data.foldl count []) [] = .error .ub := by
  obtain ⟨_, _, s3, _⟩ := firstSeen_spec data
  have hperm : ((it.order (data.foldl count [])).map (·.1)).Perm (firstSeen data) := by
    rw [← hist_keys]
    exact (it.perm _).map _
  obtain ⟨n', hn', hnan'⟩ := nan_first hn hnan
  obtain ⟨ha1, hb1, hk⟩ := lt_iff'.1 hab
  obtain ⟨a', ha', hea⟩ := s3 a ha ha1
  obtain ⟨b', hb', heb⟩ := s3 b hb hb1
  have hab' : lt a' b' = true := by
    rw [eq_iff'] at hea heb
    rw [lt_iff']
    exact ⟨hea.1, heb.1, by omega⟩
  unfold createIndexMap sortKeys
  rw [List.filter_eq_self.2 (by intro a _; rfl), not_sortable _ (hperm.mem_iff.2 hn') (hperm.mem_iff.2 ha') (hperm.mem_iff.2 hb')
    hnan' hab']
  rfl

/-- **C92, refuted for missing values:** training either encoder on a NaN and two different numbers is undefined behaviour. -/
theorem C92_nan_undefined (X : Xf (Encoder T) T T) (p : Probe T) (it : IterOrder T UInt32) (col cap : Nat) (hcap : 0 < cap) (allow : Bool)
    (batches : List (List T)) (hne : batches ≠ []) (hb : NoEmptyBatch batches)
    (maps : AnnotationMaps (Annot T)) (hcol : col < maps.length)
    (hnone : getAnnotation Annot.isHistogram maps col "HistogramEstimator" = .ok none)
    (hnone' : getAnnotation Annot.isIndexMap maps col "IndexMapEstimator" = .ok none)
    (n a b : T) (hn : n ∈ batches.flatten.take cap) (ha : a ∈ batches.flatten.take cap) (hb' : b ∈ batches.flatten.take cap)
    (hnan : isNaN n = true) (hab : lt a b = true) :
    FeaturizerYields X (encoderComponents p it col cap) 2 (makeLabelEncoder col allow) batches maps (.error .ub) ∧
    FeaturizerYields X (encoderComponents p it col cap) 2 (makeOneHot col allow) batches maps (.error .ub) := by
  have hm := indexMap_undefined p it _ hn ha hb' hnan hab
  have h1 := encoder_trained X p it col cap hcap batches hne hb maps hcol hnone hnone' (makeLabelEncoder col allow)
    (fun m => .ok ⟨m, allow⟩) (fun maps m hm => by unfold makeLabelEncoder; rw [hm])
  have h2 := encoder_trained X p it col cap hcap batches hne hb maps hcol hnone hnone' (makeOneHot col allow)
    (fun m => if m.length = 0 then .error .invalidArgument else .ok ⟨m, allow⟩)
    (fun maps m hm => by unfold makeOneHot; rw [hm])
  rw [hm] at h1 h2
  exact ⟨h1, h2⟩

/-- **C92, refuted for missing values:** training an encoder on one number, possibly repeated, and NaNs (all with the same bits)
makes a category of NaN: it has a code of its own beside that of the number, and a column of its own beside that of the number and
the one for missing values. -/
theorem C92_nan_category (X : Xf (Encoder T) T T) (p : Probe T) (it : IterOrder T UInt32) (col cap : Nat) (hcap : 0 < cap) (allow : Bool)
    (batches : List (List T)) (hne : batches ≠ []) (hb : NoEmptyBatch batches)
    (maps : AnnotationMaps (Annot T)) (hcol : col < maps.length)
    (hnone : getAnnotation Annot.isHistogram maps col "HistogramEstimator" = .ok none)
    (hnone' : getAnnotation Annot.isIndexMap maps col "IndexMapEstimator" = .ok none)
    (x n : T) (hx : x ∈ batches.flatten.take cap) (hxn : isNaN x = false) (hn : n ∈ batches.flatten.take cap) (hnn : isNaN n = true)
    (hsame : ∀ y ∈ batches.flatten.take cap, y = n ∨ eq x y = true) :
    ∃ t, FeaturizerYields X (encoderComponents p it col cap) 2 (makeLabelEncoder col allow) batches maps (.ok t) ∧
      FeaturizerYields X (encoderComponents p it col cap) 2 (makeOneHot col allow) batches maps (.ok t) ∧
      ∃ i j, (i = 0 ∧ j = 1 ∨ i = 1 ∧ j = 0) ∧
        labelEncode p t x = .ok (i + if allow then 1 else 0) ∧ labelEncode p t n = .ok (j + if allow then 1 else 0) ∧
        oneHotEncode p t x = .ok ⟨2 + if allow then 1 else 0, 1, i.toUInt64 + if allow then 1 else 0⟩ ∧
        oneHotEncode p t n = .ok ⟨2 + if allow then 1 else 0, 1, j.toUInt64 + if allow then 1 else 0⟩ := by
  have hy := encoder_trained X p it col cap hcap batches hne hb maps hcol hnone hnone' (makeLabelEncoder col allow)
    (fun m => .ok ⟨m, allow⟩) (fun maps m hm => by unfold makeLabelEncoder; rw [hm])
  have hz := encoder_trained X p it col cap hcap batches hne hb maps hcol hnone hnone' (makeOneHot col allow)
    (fun m => if m.length = 0 then .error .invalidArgument else .ok ⟨m, allow⟩)
    (fun maps m hm => by unfold makeOneHot; rw [hm])
  generalize batches.flatten.take cap = data at hy hz hx hn hsame
  obtain ⟨s1, s2, s3, s4⟩ := firstSeen_spec data
  have hperm : ((it.order (data.foldl count [])).map (·.1)).Perm (firstSeen data) := by
    rw [← hist_keys]
    exact (it.perm _).map _
  have hsort : sortable ((it.order (data.foldl count [])).map (·.1)) = true := by
    refine sortable_one _ ?_
    intro a ha b hb
    have ha := hsame a (s2 a (hperm.mem_iff.1 ha))
    have hb := hsame b (s2 b (hperm.mem_iff.1 hb))
    rcases ha with rfl | ha
    · exact lt_nan_left hnn
    rcases hb with rfl | hb
    · exact lt_nan_right hnn
    cases h : lt a b
    · rfl
    · have h1 := (lt_iff'.1 h).2.2
      have h2 := (eq_iff'.1 ha).2.2
      have h3 := (eq_iff'.1 hb).2.2
      omega
  obtain ⟨l, hl, hlp⟩ : ∃ l, sortKeys ((it.order (data.foldl count [])).map (·.1)) = .ok l ∧ l.Perm (firstSeen data) := by
    unfold sortKeys
    rw [if_pos hsort]
    exact ⟨_, rfl, (List.perm_insertionSort _ _).trans hperm⟩
  have hlm : ∀ k ∈ l, k = n ∨ eq x k = true := fun k hk => hsame k (s2 k (hlp.mem_iff.1 hk))
  obtain ⟨ks, k1, k2, k3, k4, k5⟩ := numbered p l
  have hfold : ∀ (l : List T) (m : Entries T), indexKeys p l m = l.foldl (fun m x => emplace p m x (UInt32.ofNat m.length)) m := by
    intro l
    induction l with
    | nil => intro m; rfl
    | cons a l ih => intro m; exact ih _
  have hm : createIndexMap p it (data.foldl count []) [] = .ok (ks.zipIdx.map fun e => (e.1, UInt32.ofNat e.2)) := by
    unfold createIndexMap
    rw [List.filter_eq_self.2 (by intro a _; rfl), hl]
    simp only
    rw [hfold, k1]
  obtain ⟨l1, l2, l3, _⟩ := firstSeen_spec l
  have hks : ∀ k ∈ ks, k = n ∨ eq x k = true := fun k hk => hlm k (l2 k (k2.subset hk))
  have hkd : Distinct ks := l1.sublist k2
  -- the number and the NaN
  obtain ⟨a, ha, hax⟩ : ∃ k ∈ ks, eq k x = true := by
    obtain ⟨k, hk, hkx⟩ := s3 x hx hxn
    have hkn := (eq_iff'.1 hkx).1
    obtain ⟨k', hk', hkk⟩ := l3 k (hlp.mem_iff.2 hk) hkn
    exact ⟨k', k3 k' hk' (eq_iff'.1 hkk).1, eq_trans' hkk hkx⟩
  obtain ⟨b, hb', hbn⟩ : ∃ k ∈ ks, isNaN k = true := by
    refine k4 ?_
    obtain ⟨k, hk, hkn⟩ := nan_first hn hnn
    exact ⟨k, hlp.mem_iff.2 hk, hkn⟩
  have hnan1 : ks.countP isNaN ≤ 1 := k5 n fun y hy hyn => by
    rcases hlm y hy with h | h
    · exact h
    · rw [(eq_iff'.1 h).2.1] at hyn; cases hyn
  have hnum1 : ks.countP (fun k => !isNaN k) ≤ 1 := by
    rw [List.countP_eq_length_filter]
    have hp : Distinct (ks.filter fun k => !isNaN k) := hkd.filter _
    have hall : ∀ k ∈ ks.filter (fun k => !isNaN k), eq x k = true := by
      intro k hk
      obtain ⟨h1, h2⟩ := List.mem_filter.1 hk
      rcases hks k h1 with rfl | h
      · rw [hnn] at h2; cases h2
      · exact h
    match hl : ks.filter (fun k => !isNaN k) with
    | [] => simp
    | [_] => simp
    | u :: v :: r =>
      rw [hl] at hp hall
      have h3 := (List.pairwise_cons.1 hp).1 v (by simp)
      have h4 := hall u (by simp)
      rw [eq_comm'] at h4
      rw [eq_trans' h4 (hall v (by simp))] at h3
      cases h3
  have hlen2 : ks.length ≤ 2 := by
    have h := List.length_eq_countP_add_countP isNaN (l := ks)
    have h' : ks.countP (fun a => decide (¬ isNaN a = true)) = ks.countP (fun k => !isNaN k) := by
      congr 1
      funext k
      cases isNaN k <;> rfl
    omega
  have hab : a ≠ b := by
    rintro rfl
    rw [(eq_iff'.1 hax).1] at hbn; cases hbn
  have hb2 : b = n := by
    rcases hks b hb' with h | h
    · exact h
    · rw [(eq_iff'.1 h).2.1] at hbn; cases hbn
  subst hb2
  have hann := (eq_iff'.1 hax).1
  have hor : ks = [a, b] ∨ ks = [b, a] := by
    match ks, hlen2, ha, hb' with
    | [u], _, ha, hb' => exact absurd ((List.mem_singleton.1 ha).trans (List.mem_singleton.1 hb').symm) hab
    | [u, v], _, ha, hb' =>
      simp only [List.mem_cons, List.not_mem_nil, or_false] at ha hb'
      rcases ha with rfl | rfl <;> rcases hb' with rfl | rfl
      · exact absurd rfl hab
      · exact .inl rfl
      · exact .inr rfl
      · exact absurd rfl hab
  rw [hm] at hy hz
  -- searching
  have hkab : keyEqual a b = false := by unfold keyEqual; rw [eq_false_nan hbn, hann]; rfl
  have hkbb : keyEqual b b = true := by unfold keyEqual; rw [hbn]; rfl
  have key : ∀ m : Entries T, ∀ i j : UInt32, (m = [(a, i), (b, j)] ∨ m = [(b, j), (a, i)]) →
      find p m x = some i ∧ find p m b = some j := by
    intro m i j hm'
    have hbx : eq b x = false := by rw [eq_comm']; exact eq_false_nan hbn
    constructor
    · rw [find_number p _ x hxn]
      rcases hm' with rfl | rfl <;> simp [findEq, hax, hbx]
    · have hpres := p.present m b ⟨(b, j), by rcases hm' with rfl | rfl <;> simp, rfl, hkbb⟩
      obtain ⟨e, he, hl1, hl2⟩ := hpres
      have heb : e.1 = b := by
        rcases hm' with rfl | rfl <;> simp only [List.mem_cons, List.not_mem_nil, or_false] at he <;> rcases he with rfl | rfl
        · rw [hkab] at hl2; cases hl2
        · rfl
        · rfl
        · rw [hkab] at hl2; cases hl2
      rw [heb] at hl1
      unfold find
      rcases hm' with rfl | rfl <;> simp [hkab, hkbb, hl1]
  rcases hor with rfl | rfl
  · obtain ⟨f1, f2⟩ := key _ 0 1 (.inl rfl)
    refine ⟨⟨[(a, 0), (b, 1)], allow⟩, hy, hz, 0, 1, .inl ⟨rfl, rfl⟩, ?_, ?_, ?_, ?_⟩
    · unfold labelEncode; rw [f1]
    · unfold labelEncode; rw [f2]
    · unfold oneHotEncode; simp only [f1]; cases allow <;> rfl
    · unfold oneHotEncode; simp only [f2]; cases allow <;> rfl
  · obtain ⟨f1, f2⟩ := key _ 1 0 (.inr rfl)
    refine ⟨⟨[(b, 0), (a, 1)], allow⟩, hy, hz, 1, 0, .inr ⟨rfl, rfl⟩, ?_, ?_, ?_, ?_⟩
    · unfold labelEncode; rw [f1]
    · unfold labelEncode; rw [f2]
    · unfold oneHotEncode; simp only [f1]; cases allow <;> rfl
    · unfold oneHotEncode; simp only [f2]; cases allow <;> rfl

/-- What the mode estimator makes of the result of its loop. -/
def modeResult : Option ((T × UInt32) × UInt32) → Except Err (Annot T) × Unit
  | none => (.error .runtimeError, ())
  | some (b, _) => (.ok (.mode b.1), ())

/-- **C92** (mode imputer) With missing values (NaN) among the data or not: the imputed value is the number seen most often, the
first of these; without any number, creating the transformer throws. -/
theorem C92_mode (X : Xf T T T) (p : Probe T) (it : IterOrder T UInt32) (col cap : Nat) (hcap : 0 < cap)
    (batches : List (List T)) (hne : batches ≠ []) (hb : NoEmptyBatch batches)
    (hlen : (batches.flatten.take cap).length < 2 ^ 32)
    (maps : AnnotationMaps (Annot T)) (hcol : col < maps.length)
    (hn₁ : getAnnotation Annot.isHistogram maps col "HistogramEstimator" = .ok none)
    (hn₂ : getAnnotation Annot.isOrder maps col "OrderEstimator" = .ok none)
    (hn₃ : getAnnotation Annot.isMode maps col "ModeEstimator" = .ok none) :
    ((∀ x ∈ batches.flatten.take cap, isNaN x = true) →
      FeaturizerYields X (modeComponents p it col cap) 3 (makeModeImputer col) batches maps (.error .runtimeError)) ∧
    ((∃ x ∈ batches.flatten.take cap, isNaN x = false) → ∃ k, IsMode (batches.flatten.take cap) k ∧
      FeaturizerYields X (modeComponents p it col cap) 3 (makeModeImputer col) batches maps (.ok k)) := by
  have hne' : batches.flatten.take cap ≠ [] := by
    rcases batches with _ | ⟨b, bs⟩
    · exact absurd rfl hne
    · obtain ⟨x, xs, rfl⟩ := List.exists_cons_of_ne_nil (hb b (by simp))
      cases cap with
      | zero => omega
      | succ c => simp
  have t1 := histogram_trained col cap hcap batches hb maps hcol hn₁
  have g1 := getAnnotation_add_self maps (.histogram ((batches.flatten.take cap).foldl count [])) col
    "HistogramEstimator" Annot.isHistogram rfl hn₁
  have go2 := getAnnotation_add_other maps (.histogram ((batches.flatten.take cap).foldl count [])) col
    "HistogramEstimator" "OrderEstimator" Annot.isOrder (by decide)
  have go3 := getAnnotation_add_other maps (.histogram ((batches.flatten.take cap).foldl count [])) col
    "HistogramEstimator" "ModeEstimator" Annot.isMode (by decide)
  have hl := (addAnnotation_ok maps (.histogram ((batches.flatten.take cap).foldl count [])) col "HistogramEstimator" hcol).2
  generalize hm1 : (addAnnotation (some (.histogram ((batches.flatten.take cap).foldl count []))) col
    "HistogramEstimator" maps).2 = maps₁ at t1 g1 go2 go3 hl
  rw [hn₂] at go2
  rw [hn₃] at go3
  have hcol1 : col < maps₁.length := by rw [hl]; exact hcol
  have t2 := trainEstimator_fold (orderPolicy p) (fun (m : Entries T) x => emplace p m x (UInt32.ofNat m.length)) (fun _ _ => rfl)
    (fun _ _ => rfl) (orderConfig col) cap hcap [] batches hb maps₁ hcol1 rfl go2
  obtain ⟨ks, k1, k2, k3, k4, _⟩ := numbered p (batches.flatten.take cap)
  rw [k1] at t2
  generalize hdata : batches.flatten.take cap = data at *
  obtain ⟨s1, s2, s3, s4⟩ := firstSeen_spec data
  obtain ⟨p1, p2⟩ := firstSeen_order data
  have p1 := p1.sublist k2
  have hfs : ks.length ≠ 0 := by
    intro h0
    have h0 := List.length_eq_zero_iff.1 h0
    obtain ⟨x, hx⟩ := List.exists_mem_of_ne_nil _ hne'
    cases hxn : isNaN x
    · obtain ⟨k, hk, hkx⟩ := s3 x hx hxn
      have := k3 k hk (eq_iff'.1 hkx).1
      rw [h0] at this; cases this
    · obtain ⟨k, hk, _⟩ := k4 ⟨x, hx, hxn⟩
      rw [h0] at hk; cases hk
  have hfl : ks.length < 2 ^ 32 := by
    have := k2.length_le
    have : (firstSeen data).length ≤ data.length := by
      clear * -
      induction data using List.reverseRecOn with
      | nil => simp [firstSeen]
      | append_singleton data x ih =>
        rw [firstSeen_append]
        split
        · rw [List.length_append]; exact Nat.le_trans ih (Nat.le_add_right _ _)
        · rw [List.length_append, List.length_append]; exact Nat.add_le_add_right ih _
    omega
  have hsize : (ks.zipIdx.map fun e => (e.1, UInt32.ofNat e.2)).length = ks.length := by simp
  have hcomp : (orderPolicy p).complete maps₁ (ks.zipIdx.map fun e => (e.1, UInt32.ofNat e.2)) =
      (.ok (.order (ks.zipIdx.map fun e => (e.1, UInt32.ofNat e.2))), []) := by
    show (if _ then _ else _, _) = _
    rw [hsize, if_neg hfs]
  rw [hcomp] at t2
  simp only at t2
  have a2 := addAnnotation_ok maps₁ (.order (ks.zipIdx.map fun e => (e.1, UInt32.ofNat e.2))) col "OrderEstimator" hcol1
  have t2' := t2.trans a2.1
  have g2 := getAnnotation_add_self maps₁ (.order (ks.zipIdx.map fun e => (e.1, UInt32.ofNat e.2))) col
    "OrderEstimator" Annot.isOrder rfl go2
  have g1' := getAnnotation_add_other maps₁ (.order (ks.zipIdx.map fun e => (e.1, UInt32.ofNat e.2))) col
    "OrderEstimator" "HistogramEstimator" Annot.isHistogram (by decide)
  have go3' := getAnnotation_add_other maps₁ (.order (ks.zipIdx.map fun e => (e.1, UInt32.ofNat e.2))) col
    "OrderEstimator" "ModeEstimator" Annot.isMode (by decide)
  have hl2 := a2.2
  generalize hm2 : (addAnnotation (some (Annot.order (ks.zipIdx.map fun e => (e.1, UInt32.ofNat e.2)))) col
    "OrderEstimator" maps₁).2 = maps₂ at t2' g2 g1' go3' hl2
  rw [g1] at g1'
  rw [go3] at go3'
  have hcol2 : col < maps₂.length := by rw [hl2]; exact hcol1
  have t3 := trainEstimator_noTraining (modePolicy p it col) (modeConfig col) cap hcap () batches hb maps₂ hcol2 rfl
  -- the loop
  have hperm := it.perm (data.foldl count [])
  have hkeys : ((it.order (data.foldl count [])).map (·.1)).Perm (firstSeen data) := by
    rw [← hist_keys]
    exact hperm.map _
  obtain ⟨idx, hidx⟩ : ∃ idx : T → Nat, ∀ k ∈ firstSeen data, isNaN k = false → ∃ hi : idx k < ks.length, ks[idx k] = k := by
    classical
    have : ∀ k, ∃ i, k ∈ firstSeen data → isNaN k = false → ∃ hi : i < ks.length, ks[i] = k := by
      intro k
      by_cases hk : k ∈ ks
      · obtain ⟨i, hi, he⟩ := List.getElem_of_mem hk
        exact ⟨i, fun _ _ => ⟨hi, he⟩⟩
      · exact ⟨0, fun h h' => absurd (k3 k h h') hk⟩
    choose idx hidx using this
    exact ⟨idx, hidx⟩
  obtain ⟨best, hbest, hchosen⟩ := modeLoop_spec p (ks.zipIdx.map fun e => (e.1, UInt32.ofNat e.2))
    (fun k => UInt32.ofNat (idx k)) (it.order (data.foldl count [])) (by
      intro e he hn
      obtain ⟨hi, hk⟩ := hidx e.1 (hkeys.mem_iff.1 (List.mem_map_of_mem he)) hn
      have := (find_numbered ks 0 e.1 (s1.sublist k2)).1 (idx e.1) hi (by rw [hk]; exact eq_refl' hn)
      rw [Nat.zero_add, ← find_number p _ _ hn] at this
      exact this) [] none (by intro e he; cases he)
  rw [List.nil_append] at hchosen
  have hcomplete : (modePolicy p it col).complete maps₂ () =
      modeResult best := by
    show (match getAnnotationData Annot.isHistogram maps₂ col "HistogramEstimator" with
      | .error e => _ | .ok h => match getAnnotationData Annot.isOrder maps₂ col "OrderEstimator" with
        | .error e => _ | .ok o => _) = _
    rw [getAnnotationData_of' g1', getAnnotationData_of' g2]
    simp only
    rw [hsize, if_neg, hbest]
    · rcases best with _ | ⟨b, i⟩ <;> rfl
    · have : (data.foldl count []).length = (firstSeen data).length := by rw [← hist_keys, List.length_map]
      rw [this]
      rintro (h | h)
      · have := k2.length_le
        omega
      · exact hfs h
  rw [hcomplete] at t3
  rcases best with _ | ⟨b, i⟩
  · refine ⟨fun _ => ?_, ?_⟩
    · exact featurizer_three X ⟨histogramPolicy, histogramConfig col, cap, []⟩ ⟨orderPolicy p, orderConfig col, cap, []⟩
        ⟨modePolicy p it col, modeConfig col, cap, ()⟩ (makeModeImputer col) batches hne hb maps hcol hcol hcol maps₁ maps₂ maps₂ _
        t1 t2' t3
    · rintro ⟨x, hx, hxn⟩
      exfalso
      obtain ⟨k, hk, hkx⟩ := s3 x hx hxn
      obtain ⟨e, he, rfl⟩ := List.mem_map.1 (hkeys.mem_iff.2 hk)
      have := hchosen e he
      rw [(eq_iff'.1 hkx).1] at this
      cases this
  · obtain ⟨c1, c2, c3, c4⟩ := hchosen
    have hcounts := hist_counts data hlen
    have hbk := hkeys.mem_iff.1 (List.mem_map_of_mem c1)
    refine ⟨fun h => ?_, fun _ => ⟨b.1, ⟨c2, p2 _ hbk c2, ?_, ?_⟩, ?_⟩⟩
    · rw [h b.1 (s2 _ hbk)] at c2
      cases c2
    · intro y hy hyn
      obtain ⟨k, hk, hky⟩ := s3 y hy hyn
      obtain ⟨e, he, rfl⟩ := List.mem_map.1 (hkeys.mem_iff.2 hk)
      have hen := (eq_iff'.1 hky).1
      have := (c4 e he hen).1
      rw [hcounts e (hperm.mem_iff.1 he) hen, hcounts b (hperm.mem_iff.1 c1) c2, eq_congr_left hky] at this
      exact this
    · intro y hy hyn hcnt
      obtain ⟨k, hk, hky⟩ := s3 y hy hyn
      obtain ⟨e, he, rfl⟩ := List.mem_map.1 (hkeys.mem_iff.2 hk)
      have hen := (eq_iff'.1 hky).1
      have h5 := (c4 e he hen).2 (by
        rw [hcounts e (hperm.mem_iff.1 he) hen, hcounts b (hperm.mem_iff.1 c1) c2, eq_congr_left hky]
        exact hcnt)
      obtain ⟨hi, hie⟩ := hidx b.1 hbk c2
      obtain ⟨hj, hje⟩ := hidx e.1 hk hen
      rw [c3] at h5
      rw [UInt32.toNat_ofNat_of_lt' (show idx b.1 < 2 ^ 32 by omega),
        UInt32.toNat_ofNat_of_lt' (show idx e.1 < 2 ^ 32 by omega)] at h5
      rw [← eq_congr_left hky]
      rcases Nat.lt_or_eq_of_le h5 with h5 | h5
      · have := List.pairwise_iff_getElem.1 p1 _ _ hi hj h5
        rw [hie, hje] at this
        exact Nat.le_of_lt (this c2 hen)
      · have : b.1 = e.1 := by rw [← hie, ← hje]; congr 1
        rw [this]
    · have t3' := t3.trans (addAnnotation_ok maps₂ (.mode b.1) col "ModeEstimator" hcol2).1
      have g3 := getAnnotation_add_self maps₂ (.mode b.1) col "ModeEstimator" Annot.isMode rfl go3'
      have h := featurizer_three X ⟨histogramPolicy, histogramConfig col, cap, []⟩ ⟨orderPolicy p, orderConfig col, cap, []⟩
        ⟨modePolicy p it col, modeConfig col, cap, ()⟩ (makeModeImputer col) batches hne hb maps hcol hcol hcol maps₁ maps₂ _ _
        t1 t2' t3'
      simp only [Except.bind] at h
      unfold makeModeImputer at h
      rw [getAnnotationData_of' g3] at h
      simp only [c2] at h
      exact h

/-! ### The hypotheses are met -/

/-- 2, -0, 1, +0, 2 and a NaN, as `float`. -/
def f2 : F32 := ⟨0x40000000⟩
@[inherit_doc f2] def fm0 : F32 := ⟨0x80000000⟩
@[inherit_doc f2] def f1 : F32 := ⟨0x3f800000⟩
@[inherit_doc f2] def f0 : F32 := ⟨0⟩
@[inherit_doc f2] def fnan : F32 := ⟨0x7fc00000⟩

/-- A table in which only the bits decide (many buckets), and one with a single bucket. -/
def byBits : Probe F32 where
  looks _ k x := eq k x || k.bits == x.bits
  numbers _ _ _ h := by rw [h]; rfl
  present := by
    rintro m x ⟨e, he, rfl, h⟩
    exact ⟨e, he, by simp, h⟩

@[inherit_doc byBits] def oneBucket : Probe F32 where
  looks _ _ _ := true
  numbers _ _ _ _ := rfl
  present := by
    rintro m x ⟨e, he, rfl, h⟩
    exact ⟨e, he, rfl, h⟩

/-- Three categories; -0 and +0 have the same code; a NaN is missing. -/
example : trainedFeaturizer (encoderComponents byBits .reverse 0 9) 2 (makeLabelEncoder 0 true) [[f2, fm0], [f1, f0, f2]]
      ([[]] : AnnotationMaps (Annot F32)) = .ok ⟨[(fm0, 0), (f1, 1), (f2, 2)], true⟩ ∧
    labelEncode byBits ⟨[(fm0, 0), (f1, 1), (f2, 2)], true⟩ f0 = .ok 1 ∧
    labelEncode byBits ⟨[(fm0, 0), (f1, 1), (f2, 2)], true⟩ f2 = .ok 3 ∧
    labelEncode byBits ⟨[(fm0, 0), (f1, 1), (f2, 2)], true⟩ fnan = .ok 0 := ⟨rfl, rfl, rfl, rfl⟩

/-- A NaN and two numbers. -/
example : trainedFeaturizer (encoderComponents byBits .reverse 0 9) 2 (makeLabelEncoder 0 true) [[f2, fnan], [f1, f2]]
      ([[]] : AnnotationMaps (Annot F32)) = .error .ub := rfl

/-- A number and three NaNs: two columns, three with the one for missing values. -/
example : ∃ t, trainedFeaturizer (encoderComponents byBits .reverse 0 9) 2 (makeOneHot 0 true) [[fnan, f2], [fnan, f2, fnan]]
      ([[]] : AnnotationMaps (Annot F32)) = .ok t ∧ oneHotEncode byBits t f2 = .ok ⟨3, 1, 2⟩ ∧
      oneHotEncode byBits t fnan = .ok ⟨3, 1, 1⟩ := ⟨_, rfl, rfl, rfl⟩

/-- The mode: -0, seen twice and before 2; the NaNs, seen three times, do not count. -/
example : trainedFeaturizer (modeComponents oneBucket .reverse 0 9) 3 (makeModeImputer 0) [[fnan, f1, fm0], [f2, fnan, f0, fnan, f2]]
      ([[]] : AnnotationMaps (Annot F32)) = .ok fm0 := rfl

end Feat.FloatCategories
