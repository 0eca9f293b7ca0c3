import Verif.Proofs.DocStats
/-
C44: document frequencies and vocabulary pruning.
-/
namespace Feat
variable {F : Type}

/-- **C44 (deterministic)** The conditions of `IsVocabulary` determine the terms. -/
theorem C44_deterministic (df : Str → Nat) (within : Str → Prop) (limit : Option Nat) (v w : List Str)
    (hv : IsVocabulary df within limit v) (hw : IsVocabulary df within limit w) : ∀ t, t ∈ v ↔ t ∈ w := by
  have key : ∀ v w : List Str, IsVocabulary df within limit v → IsVocabulary df within limit w → ∀ t, t ∈ v → t ∈ w := by
    intro v w hv hw t ht
    apply Decidable.byContradiction
    intro htw
    obtain ⟨h1, h2⟩ := hv.only t ht
    obtain ⟨k, hk, hwk, hdom⟩ := hw.dropped t h1 h2 htw
    have hvk := hv.size k hk
    -- `w` is not smaller than `v`, so it has an element that is not in `v`
    have : ∃ b ∈ w, b ∉ v := by
      apply Decidable.byContradiction
      intro hno
      have hsub : ∀ b ∈ w, b ∈ v.erase t := by
        intro b hb
        have hbv : b ∈ v := Decidable.byContradiction fun h => hno ⟨b, hb, h⟩
        have hbt : b ≠ t := fun h => htw (h ▸ hb)
        exact (List.mem_erase_of_ne hbt).2 hbv
      have hlen := (List.subperm_of_subset hw.nodup hsub).length_le
      rw [List.length_erase_of_mem ht] at hlen
      have := List.length_pos_of_mem ht
      omega
    obtain ⟨b, hbw, hbv⟩ := this
    obtain ⟨h3, h4⟩ := hw.only b hbw
    obtain ⟨_, _, _, hdom'⟩ := hv.dropped b h3 h4 hbv
    rcases hdom b hbw with h | ⟨h, h'⟩ <;> rcases hdom' t ht with g | ⟨g, g'⟩
    · omega
    · omega
    · omega
    · exact lt_asymm h' g'
  exact fun t => ⟨key v w hv hw t, key w v hw hv t⟩

/-- The frequency of a term, as a quotient of floats, is neither less than the lower bound nor greater than the upper one. -/
def WithinDf (fl : FloatOps F) (c : DocConfig F) (docs : List Str) (t : Str) : Prop :=
  fl.lt (fl.ratio (UInt32.ofNat (docFreq c docs t)) (UInt32.ofNat docs.length)) c.minDf = false ∧
    fl.lt c.maxDf (fl.ratio (UInt32.ofNat (docFreq c docs t)) (UInt32.ofNat docs.length)) = false

/-- The assumption on floats: the quotient of `n` and `m ≥ n` (not zero) is between 0 and 1, that is, less only than what 0 is
less than, and greater only than what 1 is greater than.  (The floats of the machine meet it: C93.) -/
def GoodRatio (fl : FloatOps F) : Prop :=
  ∀ a b : UInt32, 0 < b.toNat → a.toNat ≤ b.toNat →
    (∀ x, fl.lt fl.zero x = false → fl.lt (fl.ratio a b) x = false) ∧
      ∀ x, fl.lt x fl.one = false → fl.lt x (fl.ratio a b) = false

theorem check_facts (fl : FloatOps F) (c : DocConfig F) (h : c.check fl = .ok ()) :
    c.topK ≠ some 0 ∧ fl.lt c.minDf fl.zero = false ∧ fl.lt fl.one c.maxDf = false := by
  unfold DocConfig.check at h
  repeat' split at h
  all_goals try cases h
  rename_i h2 h3 h4 _ _ _ _
  simp only [Bool.or_eq_true, not_or, Bool.not_eq_true] at h3 h4
  exact ⟨h2, h3.1, h4.2⟩

/-- The terms that remain after pruning are a vocabulary as specified. -/
theorem prune_vocabulary (it : IterOrder Str UInt32) (nth : NthElement) (fl : FloatOps F)
    (hfl : GoodRatio fl) (c : DocConfig F) (hc : c.check fl = .ok ()) (hk : ∀ k, c.topK = some k → k.toNat < 2 ^ 31)
    (docs : List Str) (hn : docs.length < 2 ^ 32) (m : UMap Str UInt32)
    (hm : ∀ t f, (t, f) ∈ m.entries ↔ 1 ≤ docFreq c docs t ∧ f.toNat = docFreq c docs t) :
    ∃ m', pruneTerms it nth fl c.minDf c.maxDf c.topK (UInt32.ofNat docs.length) m = .ok m' ∧
      (∀ e ∈ m'.entries, e ∈ m.entries) ∧
      IsVocabulary (docFreq c docs) (WithinDf fl c docs) (c.topK.map UInt32.toNat) (m'.entries.map (·.1)) := by
  have htop := (check_facts fl c hc).1
  -- trimming by frequency
  have h1 : ∀ e, e ∈ (trimByDf fl c.minDf c.maxDf (UInt32.ofNat docs.length) m).entries ↔
      e ∈ m.entries ∧ WithinDf fl c docs e.1 := by
    rintro ⟨t, f⟩
    have hf : (t, f) ∈ m.entries → f = UInt32.ofNat (docFreq c docs t) ∧ 1 ≤ docFreq c docs t := by
      intro h
      obtain ⟨h1, h2⟩ := (hm t f).1 h
      refine ⟨?_, h1⟩
      rw [← UInt32.toNat_inj, h2, UInt32.toNat_ofNat_of_lt' (Nat.lt_of_le_of_lt (docFreq_le c docs t) hn)]
    unfold trimByDf
    split
    · show (t, f) ∈ m.entries.filter _ ↔ _
      rw [List.mem_filter]
      constructor
      · rintro ⟨h, h'⟩
        refine ⟨h, ?_⟩
        simp only [Bool.not_or, Bool.and_eq_true, Bool.not_eq_true'] at h'
        rw [(hf h).1] at h'
        exact h'
      · rintro ⟨h, h'⟩
        refine ⟨h, ?_⟩
        simp only [Bool.not_or, Bool.and_eq_true, Bool.not_eq_true']
        rw [(hf h).1]
        exact h'
    · rename_i hno
      simp only [Bool.or_eq_true, not_or, Bool.not_eq_true] at hno
      constructor
      · intro h
        refine ⟨h, ?_⟩
        obtain ⟨_, hpos⟩ := hf h
        have hle := docFreq_le c docs t
        have := hfl (UInt32.ofNat (docFreq c docs t)) (UInt32.ofNat docs.length)
          (by rw [UInt32.toNat_ofNat_of_lt' hn]; omega)
          (by rw [UInt32.toNat_ofNat_of_lt' hn, UInt32.toNat_ofNat_of_lt' (Nat.lt_of_le_of_lt hle hn)]; exact hle)
        exact ⟨this.1 _ hno.1, this.2 _ hno.2⟩
      · exact fun h => h.1
  unfold pruneTerms
  generalize trimByDf fl c.minDf c.maxDf (UInt32.ofNat docs.length) m = m₁ at *
  have hin : ∀ t, 1 ≤ docFreq c docs t → WithinDf fl c docs t → (t, UInt32.ofNat (docFreq c docs t)) ∈ m₁.entries := by
    intro t ht hw
    refine (h1 _).2 ⟨(hm _ _).2 ⟨ht, ?_⟩, hw⟩
    rw [UInt32.toNat_ofNat_of_lt' (Nat.lt_of_le_of_lt (docFreq_le c docs t) hn)]
  have honly : ∀ e ∈ m₁.entries, 1 ≤ docFreq c docs e.1 ∧ WithinDf fl c docs e.1 := by
    rintro ⟨t, f⟩ he
    obtain ⟨h2, h3⟩ := (h1 _).1 he
    exact ⟨((hm t f).1 h2).1, h3⟩
  rcases htk : c.topK with _ | k
  · refine ⟨m₁, rfl, fun e he => ((h1 e).1 he).1, m₁.nodup, ?_, ?_, ?_⟩
    · intro t ht
      obtain ⟨e, he, rfl⟩ := List.mem_map.1 ht
      exact honly e he
    · intro k hk; cases hk
    · intro t ht hw hne
      exact absurd (List.mem_map.2 ⟨_, hin t ht hw, rfl⟩) hne
  · obtain ⟨m', hm', hsub, hlen, hdrop⟩ := trimTopK_props it nth k (fun h => htop (by rw [htk, h])) (hk k htk) m₁
    refine ⟨m', hm', fun e he => ((h1 e).1 (hsub e he)).1, m'.nodup, ?_, ?_, ?_⟩
    · intro t ht
      obtain ⟨e, he, rfl⟩ := List.mem_map.1 ht
      exact honly e (hsub e he)
    · intro k' hk'
      simp only [Option.map_some, Option.some.injEq] at hk'
      rw [← hk', List.length_map]
      exact hlen
    · intro t ht hw hne
      obtain ⟨h5, h6⟩ := hdrop _ (hin t ht hw) (fun h => hne (List.mem_map.2 ⟨_, h, rfl⟩))
      refine ⟨k.toNat, rfl, by rw [List.length_map]; exact h5, ?_⟩
      intro a ha
      obtain ⟨e, he, rfl⟩ := List.mem_map.1 ha
      obtain ⟨a, f⟩ := e
      have hf := ((hm a f).1 ((h1 _).1 (hsub _ he)).1).2
      have := h6 (a, f) he
      simp only at this
      rw [UInt32.lt_iff_toNat_lt, ← UInt32.toNat_inj, hf,
        UInt32.toNat_ofNat_of_lt' (Nat.lt_of_le_of_lt (docFreq_le c docs t) hn)] at this
      exact this

private theorem mergeMaps_props (index : UMap Str UInt32) (es : List (Str × UInt32)) (acc : UMap Str FreqIndex)
    (hidx : ∀ e ∈ es, ∃ i, index.find? e.1 = some i) (hpos : ∀ e ∈ es, e.2 ≠ 0) (hnd : (es.map (·.1)).Nodup)
    (hacc : ∀ e ∈ es, acc.find? e.1 = none) :
    ∃ m, mergeMaps index es acc = .ok m ∧ ∀ t fi, m.find? t = some fi ↔
      acc.find? t = some fi ∨ ((t, fi.freq) ∈ es ∧ index.find? t = some fi.index) := by
  induction es generalizing acc with
  | nil => exact ⟨acc, rfl, fun t fi => by simp⟩
  | cons e es ih =>
    obtain ⟨i, hi⟩ := hidx e (by simp)
    unfold mergeMaps
    have hne := hpos e (by simp)
    simp only [hi, mkFreqIndex, hne, if_false]
    rw [List.map_cons, List.nodup_cons] at hnd
    have hnot : ∀ e' ∈ es, e'.1 ≠ e.1 := fun e' he' h => hnd.1 (List.mem_map.2 ⟨e', he', h⟩)
    obtain ⟨m, h1, h2⟩ := ih (acc.emplace e.1 ⟨e.2, i⟩) (fun e' he' => hidx e' (by simp [he']))
      (fun e' he' => hpos e' (by simp [he'])) hnd.2 (by
        intro e' he'
        rw [UMap.find?_emplace, hacc e' (by simp [he'])]
        simp [hnot e' he'])
    refine ⟨m, h1, ?_⟩
    intro t fi
    rw [h2, UMap.find?_emplace]
    have hae := hacc e (by simp)
    constructor
    · rintro (h | ⟨h, h'⟩)
      · rcases ha : acc.find? t with _ | w
        · rw [ha] at h
          simp only at h
          split at h
          · rename_i ht
            cases h
            right
            refine ⟨?_, by rw [ht]; exact hi⟩
            rw [List.mem_cons]; left
            rw [ht]
          · cases h
        · rw [ha] at h
          left; exact h
      · right
        exact ⟨by simp [h], h'⟩
    · rintro (h | ⟨h, h'⟩)
      · left; rw [h]
      · rcases List.mem_cons.1 h with h | h
        · left
          have ht : t = e.1 := congrArg Prod.fst h
          have hf : fi.freq = e.2 := congrArg Prod.snd h
          rw [ht, hi] at h'
          rw [ht, hae]
          simp only [if_true]
          cases fi
          simp only at hf h'
          rw [hf, Option.some.inj h']
        · right; exact ⟨h, h'⟩

private theorem indexMap_total (data : List Str) (existing m : UMap Str UInt32) (ks : List Str)
    (h : IndexMapSpec data existing m ks) (t : Str) (ht : t ∈ data) : ∃ i, m.find? t = some i := by
  have e : instDecidableEqStr = (fun a b : Str => LinearOrder.toDecidableEq a b) := Subsingleton.elim _ _
  rw [e]
  by_cases hks : t ∈ ks
  · obtain ⟨i, hi, hie⟩ := List.getElem_of_mem hks
    exact ⟨_, by rw [← hie]; exact h.numbered i hi⟩
  · have : ¬ @UMap.find? _ _ (fun a b : Str => LinearOrder.toDecidableEq a b) existing t = none :=
      fun hn => hks ((h.newValues t).2 ⟨ht, hn⟩)
    obtain ⟨v, hv⟩ := Option.ne_none_iff_exists'.1 this
    exact ⟨v, h.kept _ _ hv⟩

/-- **C44** Training on any batches of documents that can all be parsed publishes, for a vocabulary as specified by
`IsVocabulary`, exactly its terms, each with the number of documents that contain it and with its index in the index map of
the vocabulary (C19), and the number of documents; if the vocabulary is empty training throws.  By `C44_deterministic` the
vocabulary depends neither on the iteration order of the hash maps nor on how elements are selected. -/
theorem C44_document_statistics (it : IterOrder Str UInt32) (nth : NthElement) (fl : FloatOps F)
    (hfl : GoodRatio fl) (c : DocConfig F) (hc : c.check fl = .ok ()) (hk : ∀ k, c.topK = some k → k.toNat < 2 ^ 31)
    (col cap : Nat) (hcap : 0 < cap) (batches : List (List Str)) (hb : NoEmptyBatch batches)
    (maps : AnnotationMaps DocStats) (hcol : col < maps.length)
    (hnone : getAnnotation (fun _ => true) maps col "DocumentStatisticsEstimator" = .ok none)
    (hp : ∀ d ∈ batches.flatten.take cap, ∃ ts, c.text.tokens d = .ok ts)
    (hn : (batches.flatten.take cap).length < 2 ^ 32) :
    ∃ vocab index ks,
      IsVocabulary (docFreq c (batches.flatten.take cap)) (WithinDf fl c (batches.flatten.take cap))
        (c.topK.map UInt32.toNat) vocab ∧
      IndexMapSpec vocab (c.vocabulary.getD UMap.empty) index ks ∧
      (vocab = [] →
        trainEstimator (docStatsPolicy it nth fl c) (docStatsConfig col) cap ⟨UMap.empty, 0⟩ batches maps
          = (.error .invalidArgument, maps)) ∧
      (vocab ≠ [] → ∃ stats maps',
        trainEstimator (docStatsPolicy it nth fl c) (docStatsConfig col) cap ⟨UMap.empty, 0⟩ batches maps
          = (.ok (), maps') ∧
        getAnnotation (fun _ => true) maps' col "DocumentStatisticsEstimator" = .ok (some stats) ∧
        stats.total.toNat = (batches.flatten.take cap).length ∧
        ∀ t fi, stats.terms.find? t = some fi ↔
          t ∈ vocab ∧ fi.freq.toNat = docFreq c (batches.flatten.take cap) t ∧ index.find? t = some fi.index) := by
  have ht := trainEstimator_run (docStatsPolicy it nth fl c) (fun _ _ => rfl) (docStatsConfig col) cap hcap
    ⟨UMap.empty, 0⟩ batches hb maps hcol rfl hnone
  generalize batches.flatten.take cap = docs at *
  rw [fitAll_docs it nth fl c docs hp] at ht
  simp only [UInt32.zero_add] at ht
  have hfr := frequencies c docs hn
  generalize (docs.flatMap c.counted).foldl histStep UMap.empty = m at *
  obtain ⟨m', hpr, hsub, hvoc⟩ := prune_vocabulary it nth fl hfl c hc hk docs hn m hfr
  obtain ⟨ks, hks⟩ := createIndexMap_keys it m' (c.vocabulary.getD UMap.empty)
  refine ⟨m'.entries.map (·.1), createIndexMap it m' (c.vocabulary.getD UMap.empty), ks, hvoc, hks, ?_⟩
  have hperm := it.perm m'.entries
  obtain ⟨terms, hmerge, hterms⟩ := mergeMaps_props (createIndexMap it m' (c.vocabulary.getD UMap.empty))
    (it.order m'.entries) UMap.empty (by
      intro e he
      have hmem : e.1 ∈ m'.entries.map (·.1) := List.mem_map.2 ⟨e, hperm.mem_iff.1 he, rfl⟩
      exact indexMap_total _ _ _ ks hks _ hmem) (by
      intro e he h0
      have := (hfr e.1 e.2).1 (hsub e (hperm.mem_iff.1 he))
      rw [h0] at this
      simp only [UInt32.toNat_zero] at this
      omega) ((hperm.map _).nodup_iff.2 m'.nodup) (by intro e _; rfl)
  have hcomp : (docStatsPolicy it nth fl c).complete maps ⟨m, UInt32.ofNat docs.length⟩
      = (mkDocStats terms (UInt32.ofNat docs.length), ⟨UMap.empty, UInt32.ofNat docs.length⟩) := by
    simp only [docStatsPolicy, DocConfig.complete, hpr, hmerge]
  rw [hcomp] at ht
  have hfind : ∀ t fi, terms.find? t = some fi ↔ t ∈ m'.entries.map (·.1) ∧ fi.freq.toNat = docFreq c docs t ∧
      (createIndexMap it m' (c.vocabulary.getD UMap.empty)).find? t = some fi.index := by
    intro t fi
    rw [hterms, UMap.find?_empty]
    simp only [reduceCtorEq, false_or, hperm.mem_iff]
    constructor
    · rintro ⟨h1, h2⟩
      exact ⟨List.mem_map.2 ⟨_, h1, rfl⟩, ((hfr _ _).1 (hsub _ h1)).2, h2⟩
    · rintro ⟨h1, h2, h3⟩
      obtain ⟨e, he, rfl⟩ := List.mem_map.1 h1
      refine ⟨?_, h3⟩
      obtain ⟨t, f⟩ := e
      have := ((hfr _ _).1 (hsub _ he)).2
      have : fi.freq = f := UInt32.toNat_inj.1 (by rw [h2, this])
      rw [this]
      exact he
  constructor
  · intro hv
    have : terms.size = 0 := by
      unfold UMap.size
      rw [List.length_eq_zero_iff, List.eq_nil_iff_forall_not_mem]
      rintro ⟨t, fi⟩ h
      have := ((hfind t fi).1 ((terms.find?_eq_some t fi).2 h)).1
      rw [hv] at this
      simp at this
    rw [ht]
    simp only [mkDocStats, this, if_true]
  · intro hv
    obtain ⟨t, hmem⟩ := List.exists_mem_of_ne_nil _ hv
    obtain ⟨e, he, rfl⟩ := List.mem_map.1 hmem
    have h1 : terms.size ≠ 0 := by
      have : ∃ fi, terms.find? e.1 = some fi := by
        have := indexMap_total _ _ _ ks hks _ hmem
        obtain ⟨i, hi⟩ := this
        exact ⟨⟨e.2, i⟩, (hfind _ _).2 ⟨hmem, ((hfr e.1 e.2).1 (hsub e he)).2, hi⟩⟩
      obtain ⟨fi, hfi⟩ := this
      have := (terms.find?_eq_some _ _).1 hfi
      have := List.length_pos_of_mem this
      unfold UMap.size
      omega
    have hdf := (hvoc.only e.1 hmem).1
    have hle := docFreq_le c docs e.1
    have h2 : ¬ UInt32.ofNat docs.length = 0 := by
      intro h0
      have := congrArg UInt32.toNat h0
      rw [UInt32.toNat_ofNat_of_lt' hn, UInt32.toNat_zero] at this
      omega
    simp only [mkDocStats, h1, h2, if_false] at ht
    refine ⟨⟨terms, UInt32.ofNat docs.length⟩, _, ht.trans (addAnnotation_ok maps _ col _ hcol).1,
      getAnnotation_add_self maps _ col _ _ rfl hnone, ?_, hfind⟩
    exact UInt32.toNat_ofNat_of_lt' hn

/-- **C44 (documents that cannot be parsed)** If the training data contain a document that the n-gram parser rejects (it has
fewer words or characters than the largest n-gram), training throws. -/
theorem C44_rejected (it : IterOrder Str UInt32) (nth : NthElement) (fl : FloatOps F) (c : DocConfig F)
    (col cap : Nat) (hcap : 0 < cap) (batches : List (List Str)) (hb : NoEmptyBatch batches)
    (maps : AnnotationMaps DocStats) (hcol : col < maps.length)
    (hnone : getAnnotation (fun _ => true) maps col "DocumentStatisticsEstimator" = .ok none)
    (pre : List Str) (d : Str) (post : List Str) (hd : batches.flatten.take cap = pre ++ d :: post)
    (hpre : ∀ d ∈ pre, ∃ ts, c.text.tokens d = .ok ts) (e : Err) (he : c.text.tokens d = .error e) :
    trainEstimator (docStatsPolicy it nth fl c) (docStatsConfig col) cap ⟨UMap.empty, 0⟩ batches maps = (.error e, maps) := by
  rw [trainEstimator_run (docStatsPolicy it nth fl c) (fun _ _ => rfl) (docStatsConfig col) cap hcap
    ⟨UMap.empty, 0⟩ batches hb maps hcol rfl hnone, hd]
  clear hd
  have : ∀ s, ((docStatsPolicy it nth fl c).fitAll (pre ++ d :: post) s).1 = .error e := by
    intro s
    induction pre generalizing s with
    | nil =>
      simp only [List.nil_append, Policy.fitAll, docStatsPolicy, DocConfig.fit, he]
    | cons x pre ih =>
      obtain ⟨ts, hts⟩ := hpre x (by simp)
      have hf : (docStatsPolicy it nth fl c).fit x s
          = (.ok (), ⟨(c.distinct ts).foldl countTerm s.termFrequency, s.total + 1⟩) := by
        simp only [docStatsPolicy, DocConfig.fit, hts]
      simp only [List.cons_append, Policy.fitAll, hf]
      exact ih (fun d hd => hpre d (by simp [hd])) _
  have h := this ⟨UMap.empty, 0⟩
  rcases hx : (docStatsPolicy it nth fl c).fitAll (pre ++ d :: post) ⟨UMap.empty, 0⟩ with ⟨r, s'⟩
  rw [hx] at h
  simp only at h
  subst h
  rfl

/-! ### A concrete case -/

private theorem sorted_desc (l : List UInt32) :
    (l.insertionSort (fun a b => a.toNat ≥ b.toNat)).Pairwise (fun a b => a.toNat ≥ b.toNat) := by
  have : Std.Total (fun a b : UInt32 => a.toNat ≥ b.toNat) := ⟨fun a b => by omega⟩
  have : IsTrans UInt32 (fun a b : UInt32 => a.toNat ≥ b.toNat) := ⟨fun a b c h1 h2 => Nat.le_trans h2 h1⟩
  exact List.pairwise_insertionSort _ l

/-- Sorting everything is one way to implement `std::nth_element`. -/
def NthElement.sort : NthElement where
  run l _ := l.insertionSort (fun a b => a.toNat ≥ b.toNat)
  perm l _ := List.perm_insertionSort _ l
  before l n i hn hi := by
    have hs := sorted_desc l
    have hl := (List.perm_insertionSort (fun a b : UInt32 => a.toNat ≥ b.toNat) l).length_eq
    generalize l.insertionSort (fun a b => a.toNat ≥ b.toNat) = v at *
    have := List.pairwise_iff_getElem.1 hs i n (by omega) (by omega) hi
    simp only [List.getD_eq_getElem?_getD, List.getElem?_eq_getElem (show n < v.length by omega),
      List.getElem?_eq_getElem (show i < v.length by omega), Option.getD_some]
    exact UInt32.le_iff_toNat_le.2 this
  after l n i hn hi := by
    have hs := sorted_desc l
    have hl := (List.perm_insertionSort (fun a b : UInt32 => a.toNat ≥ b.toNat) l).length_eq
    generalize l.insertionSort (fun a b => a.toNat ≥ b.toNat) = v at *
    have := List.pairwise_iff_getElem.1 hs n i (by omega) (by omega) hn
    simp only [List.getD_eq_getElem?_getD, List.getElem?_eq_getElem (show n < v.length by omega),
      List.getElem?_eq_getElem (show i < v.length by omega), Option.getD_some]
    exact UInt32.le_iff_toNat_le.2 this

/-- Frequencies in percent. -/
private def percent : FloatOps Nat := ⟨fun a b => decide (a < b), 0, 100, fun a b => a.toNat * 100 / b.toNat⟩

private theorem percent_good : GoodRatio percent := by
  intro a b h1 h2
  have hle : a.toNat * 100 / b.toNat ≤ 100 := Nat.div_le_of_le_mul (by rw [Nat.mul_comm b.toNat]; omega)
  constructor <;> intro x hx <;> have hx' := of_decide_eq_false hx <;> refine decide_eq_false ?_
  · show ¬ a.toNat * 100 / b.toNat < x
    have : ¬ 0 < x := hx'
    generalize a.toNat * 100 / b.toNat = q
    omega
  · show ¬ x < a.toNat * 100 / b.toNat
    have : ¬ x < 100 := hx'
    omega

/-- Three documents: "b A a", "B c", "a c d". -/
private def sampleDocs : List Str := [⟨[98, 32, 65, 32, 97]⟩, ⟨[66, 32, 99]⟩, ⟨[97, 32, 99, 32, 100]⟩]

/-- Words in lower case, in at least 30 % of the documents, the two most frequent. -/
private def sample : DocConfig Nat :=
  ⟨⟨.word, none, 1, 1⟩, some (fun t => ⟨toLower t.chars⟩), none, some 2, 30, 100⟩

example : sample.check percent = .ok () ∧ GoodRatio percent ∧
    (∀ d ∈ sampleDocs, ∃ ts, sample.text.tokens d = .ok ts) :=
  ⟨rfl, percent_good, by
    intro d _
    exact ⟨_, rfl⟩⟩

/-- "a", "b" and "c" are in two documents each, "d" in one: "a" and "b" are kept. -/
example :
    ((pruneTerms .reverse .sort percent sample.minDf sample.maxDf sample.topK 3
      ((sampleDocs.flatMap sample.counted).foldl histStep UMap.empty)).toOption.map (·.entries))
      = some [(⟨[97]⟩, 2), (⟨[98]⟩, 2)] := by
  decide +kernel

end Feat
