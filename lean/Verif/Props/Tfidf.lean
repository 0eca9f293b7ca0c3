import Verif.Props.Vectorizer
import Verif.Spec.Tfidf
import Mathlib.Analysis.SpecialFunctions.Log.Basic
import Mathlib.Analysis.Real.Sqrt
import Mathlib.Algebra.BigOperators.Group.List.Basic
import Mathlib.Algebra.Order.BigOperators.Group.List
import Mathlib.Tactic.FieldSimp
/-
C55: the tf-idf vectorizer, in exact arithmetic over the real numbers.
-/
namespace Feat

/-- The arithmetic of `TfidfVectorizerTransformer::execute_impl` without rounding (TfidfVectorizerFeaturizer.cpp 167–187);
`1 + total` is a sum of 32-bit integers. -/
noncomputable def realOps : TfOps ℝ ℝ where
  ofCount n := n.toNat
  one := 1
  sublinear n := 1 + Real.log n.toNat
  smoothIdf total df := 1 + Real.log ((1 + total).toNat / (1 + df.toNat))
  plainIdf total df := 1 + Real.log ((1 + total).toNat / (0 + df.toNat))
  mul := (· * ·)
  toFloat := id
  zeroF := 0
  oneF := 1
  addF := (· + ·)
  mulF := (· * ·)
  divF := (· / ·)
  sqrtF := Real.sqrt

private theorem tfSpec_pos (b s : Bool) (n : ℕ) (h : 1 ≤ n) : 0 < tfSpec b s n := by
  unfold tfSpec
  have h1 : (1 : ℝ) ≤ n := by exact_mod_cast h
  split
  · exact one_pos
  · split
    · have := Real.log_nonneg h1
      linarith
    · linarith

private theorem idfSpec_pos (u s : Bool) (total df : ℕ) (h : 1 ≤ df) (h' : df ≤ total) : 0 < idfSpec u s total df := by
  unfold idfSpec
  have h1 : (1 : ℝ) ≤ df := by exact_mod_cast h
  have h2 : (df : ℝ) ≤ total := by exact_mod_cast h'
  split
  · split
    · have : 0 ≤ Real.log ((1 + total) / (1 + df) : ℝ) := Real.log_nonneg (by
        rw [le_div_iff₀ (by linarith)]; linarith)
      linarith
    · have : 0 ≤ Real.log ((1 + total) / df : ℝ) := Real.log_nonneg (by
        rw [le_div_iff₀ (by linarith)]; linarith)
      linarith
  · exact one_pos

private theorem foldl_l1 (l : List ℝ) (a : ℝ) : l.foldl (fun n v => n + v) a = a + l.sum := by
  induction l generalizing a with
  | nil => simp
  | cons x l ih => rw [List.foldl_cons, ih, List.sum_cons]; ring

private theorem foldl_l2 (l : List ℝ) (a : ℝ) : l.foldl (fun n v => n + v * v) a = a + (l.map fun v => v * v).sum := by
  induction l generalizing a with
  | nil => simp
  | cons x l ih => rw [List.foldl_cons, ih, List.map_cons, List.sum_cons]; ring

private theorem sum_pos' (l : List ℝ) (hne : l ≠ []) (h : ∀ x ∈ l, 0 < x) : 0 < l.sum := List.sum_pos l h hne

/-- **C55** In exact arithmetic: for a document with the tokens `ts`, at least one of which is in the vocabulary, with
different indexes for different tokens, the tf-idf vectorizer yields a vector of the size of the vocabulary, in increasing
order of the indexes, that has exactly one positive value for each token in the vocabulary, at its index: the product of
`tfSpec` of its number of occurrences and `idfSpec` of its document frequency, divided by the same number `N` for all
tokens, where `N = 1` without normalisation, the values sum to 1 with L1 normalisation, and their squares sum to 1 with L2
normalisation.  If no token is in the vocabulary it throws. -/
theorem C55_tfidf (t : Tfidf) (doc : Str) (ts : List Str) (hts : t.text.executeTokens t.lowercase doc = .ok ts)
    (h0 : 0 < t.labels.size) (hsz : t.labels.size < 2 ^ 64) (hlen : ts.length < 2 ^ 32) (htot : t.total.toNat + 1 < 2 ^ 32)
    (df : Str → ℕ) (hdf : ∀ w ∈ ts, t.labels.find? w ≠ none →
      (∃ d, t.docFreq.find? w = some d ∧ d.toNat = df w) ∧ 1 ≤ df w ∧ df w ≤ t.total.toNat) :
    ((∀ w ∈ ts, t.labels.find? w = none) → t.execute realOps doc = .error .invalidArgument) ∧
    ((∃ w ∈ ts, t.labels.find? w ≠ none) →
      (∀ w ∈ ts, ∀ w' ∈ ts, t.labels.find? w ≠ none → t.labels.find? w = t.labels.find? w' → w = w') →
      ∃ v, ∃ N : ℝ, t.execute realOps doc = .ok v ∧ v.numElements.toNat = t.labels.size ∧
        (v.values.Pairwise fun a b => a.index.toNat < b.index.toNat) ∧
        (∀ x i, ⟨x, i⟩ ∈ v.values ↔ ∃ w ∈ ts, ∃ j, t.labels.find? w = some j ∧ i.toNat = j.toNat ∧
          x = tfSpec t.binary t.sublinearTf (ts.count w) * idfSpec t.useIdf t.smoothIdf t.total.toNat (df w) / N) ∧
        0 < N ∧ (∀ e ∈ v.values, 0 < e.value) ∧
        (t.norm = .none → N = 1) ∧
        (t.norm = .l1 → (v.values.map (·.value)).sum = 1) ∧
        (t.norm = .l2 → (v.values.map fun e => e.value ^ 2).sum = 1)) := by
  obtain ⟨knd, kmem⟩ := t.known_spec ts
  have kmem' : ∀ w, w ∈ t.known ts ↔ w ∈ ts ∧ t.labels.find? w ≠ none := by
    intro w
    rw [kmem, Option.isSome_iff_ne_none]
  have h1t : (1 + t.total).toNat = 1 + t.total.toNat := by
    rw [UInt32.toNat_add, UInt32.toNat_one, Nat.mod_eq_of_lt (by omega)]
  obtain ⟨s1, s2, s3⟩ := Tfidf.execute_spec realOps t (fun w => idfSpec t.useIdf t.smoothIdf t.total.toNat (df w)) doc ts hts
    h0 hsz (by
      intro w hw hs
      obtain ⟨⟨d, hd, hdw⟩, hd1, hd2⟩ := hdf w hw (Option.isSome_iff_ne_none.1 hs)
      unfold Tfidf.idf idfSpec
      cases t.useIdf with
      | false => rfl
      | true =>
        simp only [Bool.true_eq_false, if_false, if_true, hd]
        cases t.smoothIdf with
        | false =>
          simp only [Bool.false_eq_true, if_false, realOps, h1t, hdw, zero_add]
          push_cast
          rfl
        | true =>
          simp only [if_true, realOps, h1t, hdw]
          push_cast
          rfl)
  have hw : ∀ w, t.weight realOps (fun w => idfSpec t.useIdf t.smoothIdf t.total.toNat (df w)) ts w
      = tfSpec t.binary t.sublinearTf (ts.count w) * idfSpec t.useIdf t.smoothIdf t.total.toNat (df w) := by
    intro w
    have hc : (UInt32.ofNat (ts.count w)).toNat = ts.count w :=
      UInt32.toNat_ofNat_of_lt' (Nat.lt_of_le_of_lt List.count_le_length hlen)
    unfold Tfidf.weight Tfidf.tf tfSpec
    cases t.binary with
    | true => rfl
    | false =>
      cases t.sublinearTf with
      | false => simp only [Bool.false_eq_true, if_false, if_true, realOps, hc, id_eq]
      | true => simp only [Bool.false_eq_true, if_false, if_true, realOps, hc, id_eq, Bool.true_eq_false]
  have hpos : ∀ w ∈ t.known ts,
      0 < tfSpec t.binary t.sublinearTf (ts.count w) * idfSpec t.useIdf t.smoothIdf t.total.toNat (df w) := by
    intro w hwk
    obtain ⟨hwt, hwl⟩ := (kmem' w).1 hwk
    obtain ⟨_, hd1, hd2⟩ := hdf w hwt hwl
    exact mul_pos (tfSpec_pos _ _ _ (List.count_pos_iff.2 hwt)) (idfSpec_pos _ _ _ _ hd1 hd2)
  constructor
  · intro h
    apply s1
    rw [List.eq_nil_iff_forall_not_mem]
    intro w hw
    obtain ⟨h1, h2⟩ := (kmem' w).1 hw
    exact h2 (h w h1)
  · rintro ⟨w₀, hw₀, hl₀⟩ hinj
    have hne : t.known ts ≠ [] := List.ne_nil_of_mem ((kmem' w₀).2 ⟨hw₀, hl₀⟩)
    obtain ⟨v, e1, e2, e3, e4, e5⟩ := s3 hne (by
      intro a ha b hb heq
      obtain ⟨ha1, ha2⟩ := (kmem' a).1 ha
      exact hinj a ha1 b ((kmem' b).1 hb).1 ha2 heq)
    simp only [hw] at e5
    have hmap : List.map (Tfidf.weight realOps t (fun w => idfSpec t.useIdf t.smoothIdf t.total.toNat (df w)) ts) (t.known ts)
        = (t.known ts).map fun w =>
          tfSpec t.binary t.sublinearTf (ts.count w) * idfSpec t.useIdf t.smoothIdf t.total.toNat (df w) :=
      List.map_congr_left (fun w _ => hw w)
    rw [hmap] at e5
    generalize hW : (fun w =>
      tfSpec t.binary t.sublinearTf (ts.count w) * idfSpec t.useIdf t.smoothIdf t.total.toNat (df w)) = W at *
    have hWw : ∀ w, tfSpec t.binary t.sublinearTf (ts.count w) * idfSpec t.useIdf t.smoothIdf t.total.toNat (df w) = W w :=
      fun w => congrFun hW w
    simp only [hWw] at e5 hpos ⊢
    generalize hN : t.divisor realOps (((t.known ts).map W).foldl (fun n v => match t.norm with
      | .l1 => realOps.addF n v
      | .l2 => realOps.addF n (realOps.mulF v v)
      | .none => n) realOps.zeroF) = N at *
    simp only [show ∀ a b : ℝ, realOps.divF a b = a / b from fun _ _ => rfl] at e5
    have hsum : 0 < ((t.known ts).map W).sum := by
      refine sum_pos' _ (by simpa using hne) ?_
      intro x hx
      obtain ⟨w, hw, rfl⟩ := List.mem_map.1 hx
      exact hpos w hw
    have hsq : 0 < (((t.known ts).map W).map fun v => v * v).sum := by
      refine sum_pos' _ (by simpa using hne) ?_
      intro x hx
      rw [List.map_map] at hx
      obtain ⟨w, hw, rfl⟩ := List.mem_map.1 hx
      exact mul_pos (hpos w hw) (hpos w hw)
    have hNone : t.norm = .none → N = 1 := by
      intro h
      rw [← hN, Tfidf.divisor, h]
      rfl
    have hL1 : t.norm = .l1 → N = ((t.known ts).map W).sum := by
      intro h
      rw [← hN, Tfidf.divisor, h]
      show List.foldl (fun n v => n + v) 0 _ = _
      rw [foldl_l1, zero_add]
    have hL2 : t.norm = .l2 → N = Real.sqrt (((t.known ts).map W).map fun v => v * v).sum := by
      intro h
      rw [← hN, Tfidf.divisor, h]
      show Real.sqrt (List.foldl (fun n v => n + v * v) 0 _) = _
      rw [foldl_l2, zero_add]
    have hNpos : 0 < N := by
      rcases hn : t.norm with _ | _ | _
      · rw [hL1 hn]; exact hsum
      · rw [hL2 hn]; exact Real.sqrt_pos.2 hsq
      · rw [hNone hn]; exact one_pos
    have hmemv : ∀ e : ValueEncoding ℝ, e ∈ v.values ↔ ∃ w ∈ t.known ts,
        e = ⟨W w / N, ((t.labels.find? w).getD 0).toUInt64⟩ := by
      intro e
      rw [e5.mem_iff, List.mem_map]
      constructor
      · rintro ⟨a, h1, h2⟩; exact ⟨a, h1, h2.symm⟩
      · rintro ⟨a, h1, h2⟩; exact ⟨a, h1, h2.symm⟩
    refine ⟨v, N, e1, e2, e4, ?_, hNpos, ?_, hNone, ?_, ?_⟩
    · intro x i
      rw [hmemv]
      constructor
      · rintro ⟨w, hwk, he⟩
        obtain ⟨h1, h2⟩ := (kmem' w).1 hwk
        obtain ⟨j, hj⟩ := Option.ne_none_iff_exists'.1 h2
        simp only [hj, Option.getD_some, ValueEncoding.mk.injEq] at he
        exact ⟨w, h1, j, hj, by rw [he.2, UInt32.toNat_toUInt64], he.1⟩
      · rintro ⟨w, h1, j, hj, hi, hx⟩
        refine ⟨w, (kmem' w).2 ⟨h1, by rw [hj]; simp⟩, ?_⟩
        simp only [hj, Option.getD_some, ValueEncoding.mk.injEq]
        exact ⟨hx, by rw [← UInt64.toNat_inj, UInt32.toNat_toUInt64, hi]⟩
    · intro e he
      obtain ⟨w, hwk, rfl⟩ := (hmemv e).1 he
      exact div_pos (hpos w hwk) hNpos
    · intro h
      rw [(e5.map _).sum_eq, List.map_map]
      have : (List.map ((fun e : ValueEncoding ℝ => e.value) ∘ fun w => (⟨W w / N, ((t.labels.find? w).getD 0).toUInt64⟩
          : ValueEncoding ℝ)) (t.known ts)) = ((t.known ts).map W).map (· * N⁻¹) := by
        rw [List.map_map]
        refine List.map_congr_left ?_
        intro w _
        simp only [Function.comp_apply, div_eq_mul_inv]
      rw [this, List.sum_map_mul_right, List.map_id', ← hL1 h]
      exact mul_inv_cancel₀ hNpos.ne'
    · intro h
      rw [(e5.map _).sum_eq, List.map_map]
      have : (List.map ((fun e : ValueEncoding ℝ => e.value ^ 2) ∘ fun w =>
          (⟨W w / N, ((t.labels.find? w).getD 0).toUInt64⟩ : ValueEncoding ℝ)) (t.known ts))
          = (((t.known ts).map W).map fun v => v * v).map (· * (N ^ 2)⁻¹) := by
        rw [List.map_map, List.map_map]
        refine List.map_congr_left ?_
        intro w _
        simp only [Function.comp_apply]
        field_simp
      have hNs : N ^ 2 = (((t.known ts).map W).map fun v => v * v).sum := by
        rw [hL2 h, Real.sq_sqrt hsq.le]
      rw [this, List.sum_map_mul_right, List.map_id', ← hNs]
      exact mul_inv_cancel₀ (pow_ne_zero 2 hNpos.ne')

/-- **C55 (trained)** The same for the vectorizer trained on any batches of fewer than 2³² − 1 documents, without a
vocabulary of its own: its vocabulary `ks`, in increasing order, is as specified by `IsVocabulary` (C44), the index of
`ks[i]` is `i`, and the document frequencies are those of the training data. -/
theorem C55_trained {F : Type} (it : IterOrder Str UInt32) (nth : NthElement) (fl : FloatOps F)
    (hfl : GoodRatio fl) (c : DocConfig F) (hc : c.check fl = .ok ()) (hk : ∀ k, c.topK = some k → k.toNat < 2 ^ 31)
    (hvoc : c.vocabulary = none) (norm : NormMethod) (binary useIdf smoothIdf sublinearTf lowercase : Bool)
    (hdec : c.decorator = lowerDecorator lowercase)
    (hregex : lowercase = true → ∀ f, c.text.regex = some f → ∀ s : Str, f ⟨toLower s.chars⟩ = f s)
    (col cap : Nat) (hcap : 0 < cap) (batches : List (List Str)) (hb : NoEmptyBatch batches)
    (maps : AnnotationMaps DocStats) (hcol : col < maps.length)
    (hnone : getAnnotation (fun _ => true) maps col "DocumentStatisticsEstimator" = .ok none)
    (hp : ∀ d ∈ batches.flatten.take cap, ∃ ts, c.text.tokens d = .ok ts)
    (hn : (batches.flatten.take cap).length + 1 < 2 ^ 32) :
    ∃ ks : List Str, ks.Pairwise (· < ·) ∧
      IsVocabulary (docFreq c (batches.flatten.take cap)) (WithinDf fl c (batches.flatten.take cap))
        (c.topK.map UInt32.toNat) ks ∧
      (ks = [] → trainEstimator (docStatsPolicy it nth fl c) (docStatsConfig col) cap ⟨UMap.empty, 0⟩ batches maps
          = (.error .invalidArgument, maps)) ∧
      (ks ≠ [] → ks.length < 2 ^ 32 → ∃ maps' t,
        trainEstimator (docStatsPolicy it nth fl c) (docStatsConfig col) cap ⟨UMap.empty, 0⟩ batches maps
          = (.ok (), maps') ∧
        makeTfidf norm binary useIdf smoothIdf sublinearTf lowercase c.text col maps' = .ok t ∧
        ∀ doc, (∃ ts, c.text.tokens doc = .ok ts) → (c.termsOf doc).length < 2 ^ 32 →
          ((∀ w ∈ c.termsOf doc, w ∉ ks) → t.execute realOps doc = .error .invalidArgument) ∧
          ((∃ w ∈ c.termsOf doc, w ∈ ks) → ∃ v, ∃ N : ℝ, t.execute realOps doc = .ok v ∧ v.numElements.toNat = ks.length ∧
            (v.values.Pairwise fun a b => a.index.toNat < b.index.toNat) ∧
            (∀ x i, ⟨x, i⟩ ∈ v.values ↔ ∃ w ∈ c.termsOf doc, ks[i.toNat]? = some w ∧
              x = tfSpec binary sublinearTf ((c.termsOf doc).count w) *
                idfSpec useIdf smoothIdf (batches.flatten.take cap).length
                  (docFreq c (batches.flatten.take cap) w) / N) ∧
            0 < N ∧ (∀ e ∈ v.values, 0 < e.value) ∧ (norm = .none → N = 1) ∧
            (norm = .l1 → (v.values.map (·.value)).sum = 1) ∧
            (norm = .l2 → (v.values.map fun e => e.value ^ 2).sum = 1))) := by
  obtain ⟨ks, hsort, hv, h1, h2⟩ := trained_vectorizer it nth fl hfl c hc hk hvoc norm binary useIdf smoothIdf sublinearTf
    lowercase col cap hcap batches hb maps hcol hnone hp (by omega)
  refine ⟨ks, hsort, hv, h1, ?_⟩
  intro hne hlen
  obtain ⟨maps', labels, freqs, ht, hmk, hls, hidx, hlabk, hfr⟩ := h2 hne hlen
  have hpos : 0 < ks.length := List.length_pos_iff.2 hne
  have hdl : (UInt32.ofNat (batches.flatten.take cap).length).toNat = (batches.flatten.take cap).length :=
    UInt32.toNat_ofNat_of_lt' (show _ < 2 ^ 32 by omega)
  refine ⟨maps', _, ht, hmk, ?_⟩
  intro doc hdoc hshort
  have hts := executeTokens_terms c lowercase hdec hregex doc hdoc
  obtain ⟨x1, x3⟩ := C55_tfidf ⟨labels, freqs, UInt32.ofNat (batches.flatten.take cap).length, norm, binary, useIdf,
    smoothIdf, sublinearTf, lowercase, c.text⟩ doc _ hts (by rw [hls]; exact hpos) (by rw [hls]; omega) hshort
    (by rw [hdl]; exact hn) (docFreq c (batches.flatten.take cap)) (by
      intro w _ hl
      have hw := (hlabk w).1 hl
      have hle := docFreq_le c (batches.flatten.take cap) w
      refine ⟨⟨_, hfr w hw, UInt32.toNat_ofNat_of_lt' (show _ < 2 ^ 32 by omega)⟩, (hv.only w hw).1, ?_⟩
      rw [hdl]; exact hle)
  simp only [hls, hdl] at x1 x3
  constructor
  · intro h
    apply x1
    intro w hw
    exact Decidable.byContradiction fun h' => h w hw ((hlabk w).1 h')
  · rintro ⟨w, hw, hwk⟩
    obtain ⟨v, N, y1, y2, y3, y4, y5⟩ := x3 ⟨w, hw, (hlabk w).2 hwk⟩ (by
      intro a ha b hb h heq
      obtain ⟨j, hj⟩ := Option.ne_none_iff_exists'.1 h
      have ha' := (hidx a j).1 hj
      have hb' := (hidx b j).1 (heq ▸ hj)
      rw [ha'] at hb'
      exact Option.some.inj hb')
    refine ⟨v, N, y1, y2, y3, ?_, y5⟩
    intro x i
    rw [y4]
    constructor
    · rintro ⟨w, hw, j, hj, hij, hx⟩
      refine ⟨w, hw, ?_, hx⟩
      rw [hij]
      exact (hidx w j).1 hj
    · rintro ⟨w, hw, hi, hx⟩
      have hlt := (List.getElem?_eq_some_iff.1 hi).1
      have hi' : (UInt32.ofNat i.toNat).toNat = i.toNat := UInt32.toNat_ofNat_of_lt' (Nat.lt_trans hlt hlen)
      exact ⟨w, hw, UInt32.ofNat i.toNat, (hidx _ _).2 (by rw [hi']; exact hi), hi'.symm, hx⟩

/-- A transformer with L2 normalisation and smoothed inverse document frequencies, and a document with two known words:
the hypotheses of `C55_tfidf` hold. -/
private def sampleTfidf : Tfidf :=
  ⟨⟨[(⟨[97]⟩, 1), (⟨[98]⟩, 0)], by decide⟩, ⟨[(⟨[97]⟩, 1), (⟨[98]⟩, 2)], by decide⟩, 2, .l2, false, true, true, false,
    true, ⟨.word, none, 1, 1⟩⟩

example : sampleTfidf.text.executeTokens sampleTfidf.lowercase ⟨[65, 32, 98, 32, 120, 32, 97]⟩
      = .ok [⟨[97]⟩, ⟨[98]⟩, ⟨[120]⟩, ⟨[97]⟩] ∧
    (∃ v, ∃ N : ℝ, sampleTfidf.execute realOps ⟨[65, 32, 98, 32, 120, 32, 97]⟩ = .ok v ∧ 0 < N ∧
      (v.values.map fun e => e.value ^ 2).sum = 1) := by
  refine ⟨rfl, ?_⟩
  obtain ⟨v, N, h1, _, _, _, h2, _, _, _, h3⟩ := (C55_tfidf sampleTfidf ⟨[65, 32, 98, 32, 120, 32, 97]⟩
    [⟨[97]⟩, ⟨[98]⟩, ⟨[120]⟩, ⟨[97]⟩] rfl (by decide) (by decide) (by decide) (by decide)
    (fun w => if w = ⟨[97]⟩ then 1 else 2) (by
      intro w hw hl
      simp only [List.mem_cons, List.not_mem_nil, or_false] at hw
      rcases hw with rfl | rfl | rfl | rfl
      · exact ⟨⟨1, rfl, rfl⟩, by decide, by decide⟩
      · exact ⟨⟨2, rfl, rfl⟩, by decide, by decide⟩
      · exact absurd rfl hl
      · exact ⟨⟨1, rfl, rfl⟩, by decide, by decide⟩)).2 ⟨⟨[97]⟩, by decide, by decide⟩ (by decide)
  exact ⟨v, N, h1, h2, h3 rfl⟩

end Feat
