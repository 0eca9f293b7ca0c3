import Verif.Proofs.Categorical
import Mathlib.Data.Nat.Basic
import Batteries.Data.List.Perm
/-
C18 histogram, C19 index map, C21 mode.
-/
namespace Feat
variable {K : Type}

/-! ### C18 -/

/-- **C18** (counts) A histogram estimator trained on any batches publishes a map that holds each value of
the (first `cap` items of the) data exactly once, with its number of occurrences, and nothing else; the
counts add up to the number of items.  (Counts are 32-bit: exact for fewer than 2³² items.) -/
theorem C18_counts [DecidableEq K] (col cap : Nat) (hcap : 0 < cap) (batches : List (List K))
    (hb : NoEmptyBatch batches) (maps : AnnotationMaps (CatAnnot K)) (hcol : col < maps.length)
    (hnone : getAnnotation CatAnnot.isHistogram maps col "HistogramEstimator" = .ok none)
    (hlen : (batches.flatten.take cap).length < 2 ^ 32) :
    ∃ m maps', trainEstimator histogramPolicy (histogramConfig col) cap UMap.empty batches maps
        = (.ok (), maps') ∧
      getAnnotation CatAnnot.isHistogram maps' col "HistogramEstimator"
        = .ok (some (.histogram m)) ∧
      (m.entries.map (·.1)).Nodup ∧
      (∀ k v, (k, v) ∈ m.entries ↔
        k ∈ batches.flatten.take cap ∧ v.toNat = (batches.flatten.take cap).count k) ∧
      (m.entries.map (·.2.toNat)).sum = (batches.flatten.take cap).length := by
  have htrain := histogram_trained col cap hcap batches hb maps hcol hnone
  have hget := getAnnotation_add_self maps
    (.histogram (histOf (batches.flatten.take cap))) col "HistogramEstimator"
    CatAnnot.isHistogram rfl hnone
  refine ⟨_, _, htrain, hget, UMap.nodup _, histOf_mem _ hlen, ?_⟩
  generalize batches.flatten.take cap = data at *
  have h1 : (histOf data).entries.map (·.2.toNat)
      = ((histOf data).entries.map (·.1)).map (fun k => data.count k) := by
    rw [List.map_map]
    apply List.map_congr_left
    intro e he
    exact ((histOf_mem data hlen e.1 e.2).1 he).2
  rw [h1]
  apply sum_count_eq _ _ (histOf data).nodup
  intro x hx
  exact List.mem_map.2 ⟨(x, UInt32.ofNat (data.count x)),
    (histOf_mem data hlen _ _).2 ⟨hx, UInt32.toNat_ofNat_of_lt'
      (Nat.lt_of_le_of_lt List.count_le_length hlen)⟩, rfl⟩

/-- **C18** (order independence) Training on permuted data, split in any way, publishes the same counts. -/
theorem C18_order_independence [DecidableEq K] (col cap : Nat) (hcap : 0 < cap)
    (bs₁ bs₂ : List (List K)) (h₁ : NoEmptyBatch bs₁) (h₂ : NoEmptyBatch bs₂)
    (hperm : bs₁.flatten.Perm bs₂.flatten) (hfit : bs₁.flatten.length ≤ cap)
    (maps : AnnotationMaps (CatAnnot K)) (hcol : col < maps.length)
    (hnone : getAnnotation CatAnnot.isHistogram maps col "HistogramEstimator" = .ok none) :
    ∃ m₁ m₂ maps₁ maps₂,
      trainEstimator histogramPolicy (histogramConfig col) cap UMap.empty bs₁ maps
        = (.ok (), maps₁) ∧
      trainEstimator histogramPolicy (histogramConfig col) cap UMap.empty bs₂ maps
        = (.ok (), maps₂) ∧
      getAnnotation CatAnnot.isHistogram maps₁ col "HistogramEstimator"
        = .ok (some (.histogram m₁)) ∧
      getAnnotation CatAnnot.isHistogram maps₂ col "HistogramEstimator"
        = .ok (some (.histogram m₂)) ∧
      ∀ k, m₁.find? k = m₂.find? k := by
  have t₁ := histogram_trained col cap hcap bs₁ h₁ maps hcol hnone
  have t₂ := histogram_trained col cap hcap bs₂ h₂ maps hcol hnone
  have g := fun m => getAnnotation_add_self maps (.histogram m) col "HistogramEstimator"
    CatAnnot.isHistogram rfl hnone
  refine ⟨_, _, _, _, t₁, t₂, g _, g _, ?_⟩
  intro k
  rw [List.take_of_length_le hfit, List.take_of_length_le (by rw [← hperm.length_eq]; exact hfit)]
  unfold histOf
  rw [hist_fold_find, hist_fold_find, hperm.count_eq]
  have : k ∈ bs₁.flatten ↔ k ∈ bs₂.flatten := hperm.mem_iff
  simp only [this]

example :
    (trainEstimator histogramPolicy (histogramConfig 0) 100 UMap.empty [[3, 1], [3], [2, 3]]
      ([[]] : AnnotationMaps (CatAnnot Nat))).1 = .ok () ∧
    (histOf [3, 1, 3, 2, 3]).entries = [(3, 3), (1, 1), (2, 1)] ∧
    getAnnotation CatAnnot.isHistogram ([[]] : AnnotationMaps (CatAnnot Nat)) 0 "HistogramEstimator"
      = .ok none :=
  ⟨rfl, rfl, rfl⟩

/-! ### C19 -/

/-- What index-map training has to produce: the existing labels unchanged, and the new values of the data,
in increasing order `ks`, numbered from the number of existing labels on. -/
structure IndexMapSpec [LinearOrder K] (data : List K) (existing m : UMap K UInt32) (ks : List K) :
    Prop where
  increasing : ks.Pairwise (· < ·)
  newValues : ∀ k, k ∈ ks ↔ k ∈ data ∧ existing.find? k = none
  kept : ∀ k v, existing.find? k = some v → m.find? k = some v
  numbered : ∀ i (h : i < ks.length), m.find? ks[i] = some (UInt32.ofNat (existing.size + i))
  nothingElse : ∀ k, k ∉ ks → m.find? k = existing.find? k

/-- The sorted new keys. -/
private def newKeys [LinearOrder K] (it : IterOrder K UInt32) (histogram existing : UMap K UInt32) :
    List K :=
  (((it.order histogram.entries).map (·.1)).filter (fun k => (existing.find? k).isNone)).insertionSort
    (· ≤ ·)

private theorem newKeys_props [LinearOrder K] (it : IterOrder K UInt32) (hist existing : UMap K UInt32) :
    (newKeys it hist existing).Pairwise (· < ·) ∧
    ∀ k, k ∈ newKeys it hist existing ↔ k ∈ hist.entries.map (·.1) ∧ existing.find? k = none := by
  have hperm := it.perm hist.entries
  have hn : ((it.order hist.entries).map (·.1)).Nodup :=
    ((hperm.map (·.1)).nodup_iff).2 hist.nodup
  constructor
  · have h1 : (newKeys it hist existing).Pairwise (· ≤ ·) :=
      List.pairwise_insertionSort (· ≤ ·) _
    have h2 : (newKeys it hist existing).Nodup :=
      ((List.perm_insertionSort _ _).nodup_iff).2 (List.Pairwise.filter _ hn)
    have h3 := List.Pairwise.and h1 h2
    refine h3.imp ?_
    rintro a b ⟨hle, hne⟩
    exact lt_of_le_of_ne hle hne
  · intro k
    unfold newKeys
    rw [(List.perm_insertionSort _ _).mem_iff, List.mem_filter, (hperm.map (·.1)).mem_iff,
      Option.isNone_iff_eq_none]

/-- `CreateIndexMap` on any frequency map. -/
theorem createIndexMap_keys [LinearOrder K] (it : IterOrder K UInt32) (hist existing : UMap K UInt32) :
    ∃ ks, IndexMapSpec (hist.entries.map (·.1)) existing (createIndexMap it hist existing) ks := by
  refine ⟨newKeys it hist existing, ?_⟩
  obtain ⟨hp, hm⟩ := newKeys_props it hist existing
  have he : createIndexMap it hist existing
      = (newKeys it hist existing).foldl orderStep existing := by
    unfold createIndexMap newKeys
    exact indexKeys_eq _ _
  have hnd : (newKeys it hist existing).Nodup := hp.imp (fun h => ne_of_lt h)
  generalize newKeys it hist existing = ks at *
  have hall := fun k => emplaceAll_find ks existing k
  refine ⟨hp, hm, ?_, ?_, ?_⟩
  · intro k v hv
    rw [he]; exact (hall k).1 v hv
  · intro i hi
    have hmem : ks[i] ∈ ks := List.getElem_mem hi
    rw [he, (hall ks[i]).2.2 ((hm _).1 hmem).2 hmem, firstSeen_nodup ks hnd]
    have hf : ks.filter (fun y => (existing.find? y).isNone) = ks := by
      rw [List.filter_eq_self]
      intro a ha
      simpa using ((hm a).1 ha).2
    rw [hf, hnd.idxOf_getElem i hi]
  · intro k hk
    rw [he]; exact (hall k).2.1 hk

private theorem createIndexMap_spec [LinearOrder K] (it : IterOrder K UInt32) (data : List K)
    (existing : UMap K UInt32) :
    ∃ ks, IndexMapSpec data existing (createIndexMap it (histOf data) existing) ks := by
  obtain ⟨ks, h⟩ := createIndexMap_keys it (histOf data) existing
  refine ⟨ks, h.increasing, ?_, h.kept, h.numbered, h.nothingElse⟩
  intro k
  have : k ∈ (histOf data).entries.map (·.1) ↔ k ∈ data := by
    rw [← not_iff_not, ← UMap.find?_eq_none, histOf, hist_fold_find]
    by_cases h : k ∈ data <;> simp [h, UMap.find?_empty]
  rw [h.newValues, this]

/-- **C19** (any pre-existing labels) After training the histogram on any batches, the index map estimator
publishes the map described by `IndexMapSpec`, whatever the iteration order of the histogram and whatever
it is offered itself. -/
theorem C19_index_map [LinearOrder K] (it : IterOrder K UInt32) (col cap cap' : Nat) (hcap : 0 < cap)
    (hcap' : 0 < cap') (batches batches' : List (List K)) (hb : NoEmptyBatch batches)
    (hb' : NoEmptyBatch batches') (existing : UMap K UInt32)
    (maps : AnnotationMaps (CatAnnot K)) (hcol : col < maps.length)
    (hnone : getAnnotation CatAnnot.isHistogram maps col "HistogramEstimator" = .ok none)
    (hnone' : getAnnotation CatAnnot.isIndexMap maps col "IndexMapEstimator" = .ok none) :
    ∃ m ks maps₁ maps₂,
      trainEstimator histogramPolicy (histogramConfig col) cap UMap.empty batches maps
        = (.ok (), maps₁) ∧
      trainEstimator (indexMapPolicy it col) (indexMapConfig col) cap' existing batches' maps₁
        = (.ok (), maps₂) ∧
      getAnnotation CatAnnot.isIndexMap maps₂ col "IndexMapEstimator" = .ok (some (.indexMap m)) ∧
      IndexMapSpec (batches.flatten.take cap) existing m ks := by
  have t := histogram_trained col cap hcap batches hb maps hcol hnone
  have g := getAnnotation_add_self maps (.histogram (histOf (batches.flatten.take cap))) col
    "HistogramEstimator" CatAnnot.isHistogram rfl hnone
  have go := getAnnotation_add_other maps (.histogram (histOf (batches.flatten.take cap))) col
    "HistogramEstimator" "IndexMapEstimator" CatAnnot.isIndexMap (by decide)
  have hl := (addAnnotation_ok maps (.histogram (histOf (batches.flatten.take cap))) col
    "HistogramEstimator" hcol).2
  generalize (addAnnotation (some (.histogram (histOf (batches.flatten.take cap)))) col
    "HistogramEstimator" maps).2 = maps₁ at *
  have t' : trainEstimator (indexMapPolicy it col) (indexMapConfig col) cap' existing batches' maps₁
      = (.ok (), (addAnnotation (some (.indexMap
          (createIndexMap it (histOf (batches.flatten.take cap)) existing))) col
          "IndexMapEstimator" maps₁).2) := by
    rw [trainEstimator_noTraining (indexMapPolicy it col) (indexMapConfig col) cap' hcap' existing
      batches' hb' maps₁ (by simp only [indexMapConfig]; omega) rfl]
    simp only [indexMapPolicy, getAnnotationData, g]
    exact (addAnnotation_ok maps₁ _ col _ (by omega)).1
  obtain ⟨ks, hks⟩ := createIndexMap_spec it (batches.flatten.take cap) existing
  exact ⟨createIndexMap it (histOf (batches.flatten.take cap)) existing, ks, maps₁, _, t, t',
    getAnnotation_add_self maps₁ _ col _ _ rfl (by rw [go]; exact hnone'), hks⟩

/-- **C19** (bijection) A map that satisfies `IndexMapSpec` without pre-existing labels, for fewer than 2³²
items: the values of the data correspond one-to-one to the indexes `0 … n−1`, where `n` is the number of
different values, in increasing order, and no other value has an index.  (By `C19_index_map` the published map
is such a map; the statement determines it from the set of values alone, so it does not depend on the order
of the data.) -/
theorem C19_bijection [LinearOrder K] (data ks : List K) (m : UMap K UInt32)
    (h : IndexMapSpec data UMap.empty m ks) (hlen : data.length < 2 ^ 32) :
    (∀ k, (m.find? k).isSome = true ↔ k ∈ data) ∧
    (∀ a b va vb, m.find? a = some va → m.find? b = some vb → (a < b ↔ va.toNat < vb.toNat)) ∧
    (∀ k v, m.find? k = some v → v.toNat < ks.length) ∧
    (∀ i, i < ks.length → ∃ k ∈ data, ∃ v, m.find? k = some v ∧ v.toNat = i) ∧
    ks.Nodup ∧ ∀ k, k ∈ ks ↔ k ∈ data := by
  have hmem : ∀ k, k ∈ ks ↔ k ∈ data := by
    intro k; rw [h.newValues]; simp [UMap.find?_empty]
  have hnd : ks.Nodup := h.increasing.imp (fun h => ne_of_lt h)
  have hkl : ks.length ≤ data.length := (List.subperm_of_subset hnd (fun k hk => (hmem k).1 hk)).length_le
  have hnat : ∀ i, i < ks.length → (UInt32.ofNat i).toNat = i := fun i hi =>
    UInt32.toNat_ofNat_of_lt' (Nat.lt_of_lt_of_le hi (Nat.le_of_lt (Nat.lt_of_le_of_lt hkl hlen)))
  have hnum : ∀ i (hi : i < ks.length), m.find? ks[i] = some (UInt32.ofNat i) := by
    intro i hi
    have := h.numbered i hi
    simpa [UMap.empty, UMap.size] using this
  have hinv : ∀ k v, m.find? k = some v → ∃ i, ∃ hi : i < ks.length, ks[i] = k ∧ v.toNat = i := by
    intro k v hv
    have hk : k ∈ ks := by
      apply Decidable.byContradiction
      intro hk
      rw [h.nothingElse k hk] at hv
      cases hv
    obtain ⟨i, hi, rfl⟩ := List.getElem_of_mem hk
    rw [hnum i hi] at hv
    cases hv
    exact ⟨i, hi, rfl, hnat i hi⟩
  refine ⟨?_, ?_, ?_, ?_, hnd, hmem⟩
  · intro k
    constructor
    · intro hs
      obtain ⟨v, hv⟩ := Option.isSome_iff_exists.1 hs
      obtain ⟨i, hi, rfl, _⟩ := hinv k v hv
      exact (hmem _).1 (List.getElem_mem hi)
    · intro hk
      obtain ⟨i, hi, rfl⟩ := List.getElem_of_mem ((hmem k).2 hk)
      rw [hnum i hi]; rfl
  · intro a b va vb ha hb
    obtain ⟨i, hi, rfl, hvi⟩ := hinv a va ha
    obtain ⟨j, hj, rfl, hvj⟩ := hinv b vb hb
    rw [hvi, hvj]
    have hp := List.pairwise_iff_getElem.1 h.increasing
    constructor
    · intro hlt
      rcases Nat.lt_trichotomy i j with h1 | h1 | h1
      · exact h1
      · subst h1; exact absurd hlt (lt_irrefl _)
      · exact absurd hlt (not_lt.2 (le_of_lt (hp j i hj hi h1)))
    · intro hij; exact hp i j hi hj hij
  · intro k v hv
    obtain ⟨i, hi, _, hvi⟩ := hinv k v hv
    omega
  · intro i hi
    exact ⟨ks[i], (hmem _).1 (List.getElem_mem hi), _, hnum i hi, hnat i hi⟩

/-- **C19** (distinct indexes, partial) With pre-existing labels whose indexes are distinct *and all smaller
than their number*, all labels of the published map have distinct indexes.  Without the extra assumption the
claim is false: `C19_collision`. -/
theorem C19_distinct_partial [LinearOrder K] (data ks : List K) (existing m : UMap K UInt32)
    (h : IndexMapSpec data existing m ks) (hlen : existing.size + data.length < 2 ^ 32)
    (hinj : ∀ a b v, existing.find? a = some v → existing.find? b = some v → a = b)
    (hsmall : ∀ a v, existing.find? a = some v → v.toNat < existing.size) :
    ∀ a b v, m.find? a = some v → m.find? b = some v → a = b := by
  have hnd : ks.Nodup := h.increasing.imp (fun h => ne_of_lt h)
  have hkl : ks.length ≤ data.length :=
    (List.subperm_of_subset hnd (fun k hk => ((h.newValues k).1 hk).1)).length_le
  have hnat : ∀ i, i < ks.length → (UInt32.ofNat (existing.size + i)).toNat = existing.size + i :=
    fun i hi => UInt32.toNat_ofNat_of_lt' (Nat.lt_of_le_of_lt
      (Nat.add_le_add_left (Nat.le_trans (Nat.le_of_lt hi) hkl) _) hlen)
  have hcase : ∀ a v, m.find? a = some v → existing.find? a = some v ∨
      ∃ i, ∃ hi : i < ks.length, ks[i] = a ∧ v.toNat = existing.size + i := by
    intro a v hv
    by_cases ha : a ∈ ks
    · obtain ⟨i, hi, rfl⟩ := List.getElem_of_mem ha
      rw [h.numbered i hi] at hv
      cases hv
      exact .inr ⟨i, hi, rfl, hnat i hi⟩
    · rw [h.nothingElse a ha] at hv
      exact .inl hv
  intro a b v ha hb
  rcases hcase a v ha with h1 | ⟨i, hi, rfl, hvi⟩ <;> rcases hcase b v hb with h2 | ⟨j, hj, rfl, hvj⟩
  · exact hinj a b v h1 h2
  · have := hsmall a v h1; omega
  · have := hsmall b v h2; omega
  · have : i = j := by omega
    subst this; rfl

/-- **C19** (refutation of the full claim) A pre-existing label with an index that is not smaller than the
number of pre-existing labels: a new label gets the same index. -/
theorem C19_collision :
    ∃ (existing m : UMap Nat UInt32) (maps₁ maps₂ : AnnotationMaps (CatAnnot Nat)),
      existing.entries = [(10, 1)] ∧
      trainEstimator histogramPolicy (histogramConfig 0) 9 UMap.empty [[20, 10]] [[]]
        = (.ok (), maps₁) ∧
      trainEstimator (indexMapPolicy .id 0) (indexMapConfig 0) 9 existing [[20, 10]] maps₁
        = (.ok (), maps₂) ∧
      getAnnotation CatAnnot.isIndexMap maps₂ 0 "IndexMapEstimator" = .ok (some (.indexMap m)) ∧
      m.find? 10 = some 1 ∧ m.find? 20 = some 1 := by
  refine ⟨⟨[(10, 1)], by simp⟩, createIndexMap .id (histOf [20, 10]) ⟨[(10, 1)], by simp⟩, _, _, rfl, rfl, rfl, rfl, ?_, ?_⟩ <;>
    decide +kernel

/-! Non-vacuity: values 5, 2, 9 seen in a mixed order get 1, 0, 2, also when the histogram is iterated
backwards. -/
example : ∃ maps₁ maps₂ m,
    trainEstimator histogramPolicy (histogramConfig 0) 9 UMap.empty [[5, 2], [5, 9]]
      ([[]] : AnnotationMaps (CatAnnot Nat)) = (.ok (), maps₁) ∧
    trainEstimator (indexMapPolicy .reverse 0) (indexMapConfig 0) 9 UMap.empty [[5, 2], [5, 9]] maps₁
      = (.ok (), maps₂) ∧
    getAnnotation CatAnnot.isIndexMap maps₂ 0 "IndexMapEstimator" = .ok (some (.indexMap m)) ∧
    m.entries = [(2, 0), (5, 1), (9, 2)] :=
  ⟨_, _, createIndexMap .reverse (histOf [5, 2, 5, 9]) UMap.empty, rfl, rfl, rfl,
    by decide +kernel⟩

/-! ### C21 -/

/-- `k` is a most frequent eligible value of the data and, among those, the one seen first. -/
structure IsMode [DecidableEq K] (eligible : K → Bool) (data : List K) (k : K) : Prop where
  occurs : k ∈ data
  ok : eligible k = true
  mostFrequent : ∀ k' ∈ data, eligible k' = true → data.count k' ≤ data.count k
  firstSeen : ∀ k' ∈ data, eligible k' = true → data.count k' = data.count k → k' ≠ k →
    data.idxOf k < data.idxOf k'

/-- The state of the loop: best so far among the entries already visited. -/
private def Best [DecidableEq K] (eligible : K → Bool) (data : List K) (seen : List K)
    (best : Option ((K × UInt32) × UInt32)) : Prop :=
  match best with
  | none => ∀ k ∈ seen, eligible k = false
  | some (e, j) => e.1 ∈ data ∧ e.1 ∈ seen ∧ eligible e.1 = true ∧ e.2.toNat = data.count e.1 ∧
      j.toNat = (firstSeen data).idxOf e.1 ∧
      ∀ k ∈ seen, eligible k = true → data.count k ≤ data.count e.1 ∧
        (data.count k = data.count e.1 → (firstSeen data).idxOf e.1 ≤ (firstSeen data).idxOf k)

private theorem modeLoop_spec [DecidableEq K] (eligible : K → Bool) (data : List K)
    (hlen : data.length < 2 ^ 32) (es : List (K × UInt32)) (seen : List K)
    (hes : ∀ e ∈ es, e.1 ∈ data ∧ e.2.toNat = data.count e.1)
    (best : Option ((K × UInt32) × UInt32)) (hb : Best eligible data seen best) :
    ∃ best', modeLoop eligible (orderOf data) es best = .ok best' ∧
      Best eligible data (seen ++ es.map (·.1)) best' := by
  induction es generalizing seen best with
  | nil => exact ⟨best, rfl, by simpa using hb⟩
  | cons e es ih =>
    obtain ⟨hmem, hcount⟩ := hes e (by simp)
    have ih := fun best' hb' => ih (seen ++ [e.1]) (fun e he => hes e (by simp [he])) best' hb'
    simp only [List.append_assoc, List.cons_append, List.nil_append] at ih
    have hord : (orderOf data).find? e.1 = some (UInt32.ofNat ((firstSeen data).idxOf e.1)) := by
      unfold orderOf; rw [order_fold_find, if_pos hmem]
    have hidx : (UInt32.ofNat ((firstSeen data).idxOf e.1)).toNat = (firstSeen data).idxOf e.1 :=
      UInt32.toNat_ofNat_of_lt' (Nat.lt_trans (firstSeen_idx_lt data e.1 hmem) hlen)
    have hskip : eligible e.1 = false → Best eligible data (seen ++ [e.1]) best := by
      intro hel
      cases best with
      | none =>
        intro k hk
        rcases List.mem_append.1 hk with h | h
        · exact hb k h
        · rw [List.mem_singleton.1 h]; exact hel
      | some b =>
        obtain ⟨b1, b2, b3, b4, b5, b6⟩ := hb
        refine ⟨b1, by simp [b2], b3, b4, b5, ?_⟩
        intro k hk hke
        rcases List.mem_append.1 hk with h | h
        · exact b6 k h hke
        · rw [List.mem_singleton.1 h, hel] at hke; cases hke
    simp only [modeLoop, List.map_cons]
    split
    · rename_i hcond
      split
      · rename_i hel
        exact ih best (hskip hel)
      · rename_i hel
        have hel : eligible e.1 = true := by simpa using hel
        rw [hord]
        simp only
        split
        · rename_i htie
          cases best with
          | none => simp [modeTieLater] at htie
          | some b =>
            obtain ⟨b1, b2, b3, b4, b5, b6⟩ := hb
            simp only [modeTieLater, Bool.and_eq_true, decide_eq_true_eq] at htie
            refine ih _ ⟨b1, by simp [b2], b3, b4, b5, ?_⟩
            intro k hk hke
            rcases List.mem_append.1 hk with h | h
            · exact b6 k h hke
            · rw [List.mem_singleton.1 h]
              have h1 : e.2.toNat = b.1.2.toNat := by rw [htie.1]
              have h2 := UInt32.lt_iff_toNat_lt.1 htie.2
              omega
        · rename_i htie
          apply ih
          refine ⟨hmem, by simp, hel, hcount, hidx, ?_⟩
          intro k hk hke
          rcases List.mem_append.1 hk with h | h
          · cases best with
            | none => rw [hb k h] at hke; cases hke
            | some b =>
              obtain ⟨b1, b2, b3, b4, b5, b6⟩ := hb
              simp only [modeAtLeast, decide_eq_true_eq, ge_iff_le] at hcond
              have hle := UInt32.le_iff_toNat_le.1 hcond
              obtain ⟨c1, c2⟩ := b6 k h hke
              refine ⟨by omega, ?_⟩
              intro heq
              have hc : e.2 = b.1.2 := UInt32.toNat_inj.1 (by omega)
              simp only [modeTieLater, hc, decide_true, Bool.true_and, decide_eq_true_eq] at htie
              have h2 : ¬ b.2.toNat < _ := fun hh => htie (UInt32.lt_iff_toNat_lt.2 hh)
              rw [hidx] at h2
              have := c2 (by omega)
              omega
          · rw [List.mem_singleton.1 h]
            exact ⟨Nat.le_refl _, fun _ => Nat.le_refl _⟩
    · rename_i hcond
      cases best with
      | none => simp [modeAtLeast] at hcond
      | some b =>
        obtain ⟨b1, b2, b3, b4, b5, b6⟩ := hb
        simp only [modeAtLeast, decide_eq_true_eq, ge_iff_le] at hcond
        have hlt : ¬ b.1.2.toNat ≤ e.2.toNat := fun hh => hcond (UInt32.le_iff_toNat_le.2 hh)
        refine ih _ ⟨b1, by simp [b2], b3, b4, b5, ?_⟩
        intro k hk hke
        rcases List.mem_append.1 hk with h | h
        · exact b6 k h hke
        · rw [List.mem_singleton.1 h]; exact ⟨by omega, by omega⟩

/-- **C21** After training a histogram and an order estimator on the same data (however split), a mode
estimator publishes a value that occurs at least as often as every other eligible value and, among the most
frequent ones, was seen first, whatever the iteration order of the histogram; if no value is eligible, training
throws `runtime_error`.  (Fewer than 2³² items; an empty data set already makes the order estimator throw.) -/
theorem C21_mode [DecidableEq K] (it : IterOrder K UInt32) (eligible : K → Bool)
    (col cap cap' : Nat) (hcap : 0 < cap) (hcap' : 0 < cap')
    (bs₁ bs₂ bs₃ : List (List K)) (h₁ : NoEmptyBatch bs₁) (h₂ : NoEmptyBatch bs₂)
    (h₃ : NoEmptyBatch bs₃) (hsame : bs₁.flatten.take cap = bs₂.flatten.take cap)
    (hne : bs₁.flatten.take cap ≠ []) (hlen : (bs₁.flatten.take cap).length < 2 ^ 32)
    (maps : AnnotationMaps (CatAnnot K)) (hcol : col < maps.length)
    (hn₁ : getAnnotation CatAnnot.isHistogram maps col "HistogramEstimator" = .ok none)
    (hn₂ : getAnnotation CatAnnot.isOrder maps col "OrderEstimator" = .ok none)
    (hn₃ : getAnnotation CatAnnot.isMode maps col "ModeEstimator" = .ok none) :
    ∃ maps₁ maps₂,
      trainEstimator histogramPolicy (histogramConfig col) cap UMap.empty bs₁ maps
        = (.ok (), maps₁) ∧
      trainEstimator orderPolicy (orderConfig col) cap UMap.empty bs₂ maps₁ = (.ok (), maps₂) ∧
      if (bs₁.flatten.take cap).any eligible then
        ∃ maps₃ k, trainEstimator (modePolicy it eligible col) (modeConfig col) cap' () bs₃ maps₂
            = (.ok (), maps₃) ∧
          getAnnotation CatAnnot.isMode maps₃ col "ModeEstimator" = .ok (some (.mode k)) ∧
          IsMode eligible (bs₁.flatten.take cap) k
      else
        trainEstimator (modePolicy it eligible col) (modeConfig col) cap' () bs₃ maps₂
          = (.error .runtimeError, maps₂) := by
  have t₁ := histogram_trained col cap hcap bs₁ h₁ maps hcol hn₁
  generalize hdata : bs₁.flatten.take cap = data at *
  have g₁ := getAnnotation_add_self maps (.histogram (histOf data)) col "HistogramEstimator"
    CatAnnot.isHistogram rfl hn₁
  have o₁ := fun name hne kind => getAnnotation_add_other maps (.histogram (histOf data)) col
    "HistogramEstimator" name kind hne
  have l₁ := (addAnnotation_ok maps (.histogram (histOf data)) col "HistogramEstimator" hcol).2
  generalize (addAnnotation (some (.histogram (histOf data))) col "HistogramEstimator" maps).2
    = maps₁ at *
  have t₂ := order_trained col cap hcap bs₂ h₂ maps₁ (by omega)
    (by rw [o₁ "OrderEstimator" (by decide)]; exact hn₂)
  rw [← hsame, if_neg hne] at t₂
  have g₂ := getAnnotation_add_self maps₁ (.order (orderOf data)) col "OrderEstimator"
    CatAnnot.isOrder rfl (by rw [o₁ "OrderEstimator" (by decide)]; exact hn₂)
  have o₂ := fun name hne kind => getAnnotation_add_other maps₁ (.order (orderOf data)) col
    "OrderEstimator" name kind hne
  have l₂ := (addAnnotation_ok maps₁ (.order (orderOf data)) col "OrderEstimator" (by omega)).2
  generalize (addAnnotation (some (.order (orderOf data))) col "OrderEstimator" maps₁).2
    = maps₂ at *
  refine ⟨maps₁, maps₂, t₁, t₂, ?_⟩
  have hmem := histOf_mem data hlen
  have hsz1 : ¬ (histOf data).size = 0 := by
    intro h
    obtain ⟨x, xs, hx⟩ := List.exists_cons_of_ne_nil hne
    have := (hmem x (UInt32.ofNat (data.count x))).2 ⟨by simp [hx], UInt32.toNat_ofNat_of_lt'
      (Nat.lt_of_le_of_lt List.count_le_length hlen)⟩
    rw [List.length_eq_zero_iff.1 h] at this
    simp at this
  have hsz2 : ¬ (orderOf data).size = 0 := by
    intro h
    obtain ⟨x, xs, hx⟩ := List.exists_cons_of_ne_nil hne
    have hf := order_fold_find data x
    rw [if_pos (by simp [hx])] at hf
    change (orderOf data).find? x = _ at hf
    unfold UMap.find? at hf
    rw [List.length_eq_zero_iff.1 h] at hf
    simp at hf
  have hperm := it.perm (histOf data).entries
  obtain ⟨best, hloop, hbest⟩ := modeLoop_spec eligible data hlen (it.order (histOf data).entries) []
    (fun e he => (hmem e.1 e.2).1 (hperm.mem_iff.1 he)) none (by intro k hk; simp at hk)
  have hseen : ∀ k, k ∈ [] ++ (it.order (histOf data).entries).map (·.1) ↔ k ∈ data := by
    intro k
    rw [List.nil_append, (hperm.map (·.1)).mem_iff]
    rw [← not_iff_not, ← UMap.find?_eq_none, histOf, hist_fold_find]
    by_cases h : k ∈ data <;> simp [h, UMap.find?_empty]
  have t₃ := trainEstimator_noTraining (modePolicy it eligible col) (modeConfig col) cap' hcap' ()
    bs₃ h₃ maps₂ (by simp only [modeConfig]; omega) rfl
  simp only [modePolicy, getAnnotationData, o₂ "HistogramEstimator" (by decide), g₁, g₂, hsz1, hsz2,
    or_self, if_false, hloop] at t₃
  cases best with
  | none =>
    have : data.any eligible = false := by
      rw [List.any_eq_false]
      intro k hk
      simpa using hbest k ((hseen k).2 hk)
    rw [this]
    simp only [Bool.false_eq_true, if_false]
    exact t₃
  | some b =>
    obtain ⟨⟨k, n⟩, j⟩ := b
    obtain ⟨b1, b2, b3, b4, b5, b6⟩ := hbest
    simp only at b1 b2 b3 b4 b5 b6 t₃
    have : data.any eligible = true := List.any_eq_true.2 ⟨k, b1, b3⟩
    rw [this]
    simp only [if_true]
    refine ⟨_, k, t₃.trans (addAnnotation_ok maps₂ _ col _ (by omega)).1,
      getAnnotation_add_self maps₂ _ col _ _ rfl ?_, b1, b3, ?_, ?_⟩
    · show getAnnotation CatAnnot.isMode maps₂ col "ModeEstimator" = _
      rw [o₂ "ModeEstimator" (by decide), o₁ "ModeEstimator" (by decide)]; exact hn₃
    · intro k' hk' hke
      exact (b6 k' ((hseen k').2 hk') hke).1
    · intro k' hk' hke heq hne'
      have hle := (b6 k' ((hseen k').2 hk') hke).2 heq
      have hlt : (firstSeen data).idxOf k < (firstSeen data).idxOf k' := by
        rcases Nat.lt_or_eq_of_le hle with h | h
        · exact h
        · have ha := (mem_firstSeen data k).2 b1
          have hb := (mem_firstSeen data k').2 hk'
          exact absurd ((List.idxOf_inj ha).1 h).symm hne'
      exact (firstSeen_idx data k k' b1 hk').1 hlt

example : ∃ maps₁ maps₂ maps₃,
    trainEstimator histogramPolicy (histogramConfig 0) 9 UMap.empty [[5, 2], [0, 2, 0, 5, 0]]
      ([[]] : AnnotationMaps (CatAnnot Nat)) = (.ok (), maps₁) ∧
    trainEstimator orderPolicy (orderConfig 0) 9 UMap.empty [[5, 2, 0, 2], [0, 5, 0]] maps₁
      = (.ok (), maps₂) ∧
    trainEstimator (modePolicy .reverse (· ≠ 0) 0) (modeConfig 0) 9 () [[1]] maps₂
      = (.ok (), maps₃) ∧
    getAnnotation CatAnnot.isMode maps₃ 0 "ModeEstimator" = .ok (some (.mode 5)) :=
  ⟨_, _, _, rfl, rfl, rfl, rfl⟩

end Feat
