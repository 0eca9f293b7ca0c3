import Verif.Proofs.FloatTfidf
import Verif.Props.Tfidf
import Verif.Props.Tokens
/-
C83: the tf-idf vectorizer in floating point arithmetic.
-/
namespace Feat.FloatTfidf
open Feat.FloatText Feat.FloatArith

/-- The exact weight of a term before normalisation, for a document with the tokens `ts`; `df` is its document frequency. -/
noncomputable def exactWeight (t : Tfidf) (df : Str → ℕ) (ts : List Str) (w : Str) : ℝ :=
  tfSpec t.binary t.sublinearTf (ts.count w) * idfSpec t.useIdf t.smoothIdf t.total.toNat (df w)

theorem normSpec_perm (m : NormMethod) {l l' : List ℝ} (h : l.Perm l') : normSpec m l = normSpec m l' := by
  cases m with
  | l1 => exact h.sum_eq
  | l2 =>
    show Real.sqrt _ = Real.sqrt _
    rw [(h.map _).sum_eq]
  | none => rfl

/-- The exact weights, divided by their norm. -/
theorem l1_total (W : Str → ℝ) (ks : List Str) (h : 0 < (ks.map W).sum) :
    (ks.map fun w => W w / normSpec .l1 (ks.map W)).sum = 1 := by
  show (ks.map fun w => W w / (ks.map W).sum).sum = 1
  generalize hS : (ks.map W).sum = S at *
  have : (ks.map fun w => W w / S) = (ks.map W).map (· * S⁻¹) := by
    rw [List.map_map]
    exact List.map_congr_left fun w _ => by simp [div_eq_mul_inv]
  rw [this, List.sum_map_mul_right, List.map_id', hS]
  exact mul_inv_cancel₀ h.ne'

theorem l2_total (W : Str → ℝ) (ks : List Str) (h : 0 < (ks.map fun w => W w ^ 2).sum) :
    (ks.map fun w => (W w / normSpec .l2 (ks.map W)) ^ 2).sum = 1 := by
  have e : normSpec .l2 (ks.map W) = Real.sqrt (ks.map fun w => W w ^ 2).sum := by
    show Real.sqrt ((ks.map W).map fun w => w ^ 2).sum = _
    rw [List.map_map]
    rfl
  have e2 : ∀ w, (W w / normSpec .l2 (ks.map W)) ^ 2 = W w ^ 2 * ((ks.map fun w => W w ^ 2).sum)⁻¹ := by
    intro w
    rw [e, div_pow, Real.sq_sqrt h.le, div_eq_mul_inv]
  simp only [e2]
  generalize hS : (ks.map fun w => W w ^ 2).sum = S at *
  have : (ks.map fun w => W w ^ 2 * S⁻¹) = (ks.map fun w => W w ^ 2).map (· * S⁻¹) := by
    rw [List.map_map]
    rfl
  rw [this, List.sum_map_mul_right, List.map_id', hS]
  exact mul_inv_cancel₀ h.ne'

/-- **C83** For a document with the tokens `ts`, of which `ks` are the different ones in the vocabulary, up to 2²⁰ many: the
vector has the size of the vocabulary, is in increasing order of the indexes and has a value exactly for the terms in `ks`.
Every value is a positive finite float, near the exact weight divided by the exact norm. -/
theorem C83_tfidf_partial {log : F64 → F64} (hlog : LogAccurate log) (t : Tfidf) (doc : Str) (ts : List Str)
    (hts : t.text.executeTokens t.lowercase doc = .ok ts) (h0 : 0 < t.labels.size) (hsz : t.labels.size < 2 ^ 64)
    (hlen : ts.length < 2 ^ 32) (htot : t.total.toNat + 1 < 2 ^ 32)
    (df : Str → ℕ) (hdf : ∀ w ∈ ts, t.labels.find? w ≠ none →
      (∃ d, t.docFreq.find? w = some d ∧ d.toNat = df w) ∧ 1 ≤ df w ∧ df w ≤ t.total.toNat)
    (ks : List Str) (hnd : ks.Nodup) (hks : ∀ w, w ∈ ks ↔ w ∈ ts ∧ t.labels.find? w ≠ none) (hn : ks.length ≤ 2 ^ 20) :
    (ks = [] → t.execute (floatOps log) doc = .error .invalidArgument) ∧
    (ks ≠ [] → (∀ w ∈ ks, ∀ w' ∈ ks, t.labels.find? w = t.labels.find? w' → w = w') →
      ∃ v, t.execute (floatOps log) doc = .ok v ∧ v.numElements.toNat = t.labels.size ∧
        (v.values.Pairwise fun a b => a.index.toNat < b.index.toNat) ∧
        (∀ e ∈ v.values, ∃ w ∈ ks, ∃ j, t.labels.find? w = some j ∧ e.index.toNat = j.toNat ∧
          Finite e.value ∧ 0 < value e.value ∧ Rel ((ks.length + 10) / 2 ^ 22) (value e.value : ℝ)
            (exactWeight t df ts w / normSpec t.norm (ks.map (exactWeight t df ts)))) ∧
        (∀ w ∈ ks, ∃ e ∈ v.values, ∃ j, t.labels.find? w = some j ∧ e.index.toNat = j.toNat) ∧
        (t.norm = .l1 → |(v.values.map fun e => (value e.value : ℝ)).sum - 1| ≤ (ks.length + 10) / 2 ^ 22) ∧
        (t.norm = .l2 → |(v.values.map fun e => (value e.value : ℝ) ^ 2).sum - 1| ≤ (ks.length + 10) / 2 ^ 20)) := by
  obtain ⟨knd, kmem⟩ := t.known_spec ts
  have kmem' : ∀ w, w ∈ t.known ts ↔ w ∈ ts ∧ t.labels.find? w ≠ none := by
    intro w
    rw [kmem, Option.isSome_iff_ne_none]
  have hperm : (t.known ts).Perm ks := (List.perm_ext_iff_of_nodup knd hnd).2 fun w => by rw [kmem', hks]
  have hidf : ∀ w, ∃ y, w ∈ ts → t.labels.find? w ≠ none → t.idf (floatOps log) w = .ok y ∧ Finite y ∧
      Rel (1 / 2 ^ 50) (value y : ℝ) (idfSpec t.useIdf t.smoothIdf t.total.toNat (df w)) ∧
      1 ≤ idfSpec t.useIdf t.smoothIdf t.total.toNat (df w) ∧ idfSpec t.useIdf t.smoothIdf t.total.toNat (df w) ≤ 24 := by
    intro w
    by_cases hw : w ∈ ts ∧ t.labels.find? w ≠ none
    · obtain ⟨⟨d, hd, hdw⟩, hd1, hd2⟩ := hdf w hw.1 hw.2
      obtain ⟨y, hy⟩ := idf_near hlog t w d hd (by omega) (by omega) htot
      rw [hdw] at hy
      exact ⟨y, fun _ _ => hy⟩
    · exact ⟨zero false, fun h1 h2 => absurd ⟨h1, h2⟩ hw⟩
  choose idf hidf using hidf
  obtain ⟨s1, s2, s3⟩ := Tfidf.execute_spec (floatOps log) t idf doc ts hts h0 hsz (by
    intro w hw hs
    exact (hidf w hw (Option.isSome_iff_ne_none.1 hs)).1)
  constructor
  · intro h
    apply s1
    rw [h] at hperm
    exact List.perm_nil.1 hperm
  intro hne hinj
  have hne' : t.known ts ≠ [] := by
    intro h
    rw [h] at hperm
    exact hne (List.nil_perm.1 hperm)
  have hweight : ∀ w ∈ t.known ts, Finite (t.weight (floatOps log) idf ts w) ∧
      Rel (1 / 2 ^ 23) (value (t.weight (floatOps log) idf ts w) : ℝ) (exactWeight t df ts w) ∧
      1 ≤ exactWeight t df ts w ∧ exactWeight t df ts w ≤ 2 ^ 37 := by
    intro w hw
    obtain ⟨hw1, hw2⟩ := (kmem' w).1 hw
    obtain ⟨_, i1, i2, i3, i4⟩ := hidf w hw1 hw2
    have hc : (UInt32.ofNat (ts.count w)).toNat = ts.count w :=
      UInt32.toNat_ofNat_of_lt' (Nat.lt_of_le_of_lt List.count_le_length hlen)
    obtain ⟨f1, f2, f3, f4⟩ := tf_near hlog t (UInt32.ofNat (ts.count w)) (by
      rw [hc]; exact List.count_pos_iff.2 hw1)
    rw [hc] at f2 f3 f4
    exact weight_near f1 i1 f2 i2 f3 f4 i3 i4
  have hlenk : (t.known ts).length = ks.length := hperm.length_eq
  obtain ⟨d1, d2, d3, d4⟩ := divisor_near log t (t.known ts) (t.weight (floatOps log) idf ts) (exactWeight t df ts) hne'
    (by rw [hlenk]; exact hn) hweight
  rw [normSpec_perm t.norm (hperm.map (exactWeight t df ts)), hlenk] at d2
  rw [normSpec_perm t.norm (hperm.map (exactWeight t df ts))] at d3 d4
  obtain ⟨v, e1, e2, e3, e4, e5⟩ := s3 hne' (by
    intro a ha b hb heq
    exact hinj a (hperm.mem_iff.1 ha) b (hperm.mem_iff.1 hb) heq)
  generalize t.divisor (floatOps log) _ = N at d1 d2 e5
  have hvalue : ∀ w ∈ t.known ts, Finite (div (t.weight (floatOps log) idf ts w) N) ∧
      0 < value (div (t.weight (floatOps log) idf ts w) N) ∧ Rel ((ks.length + 10) / 2 ^ 22)
        (value (div (t.weight (floatOps log) idf ts w) N) : ℝ)
        (exactWeight t df ts w / normSpec t.norm (ks.map (exactWeight t df ts))) := by
    intro w hw
    obtain ⟨w1, w2, w3, w4⟩ := hweight w hw
    exact value_near hn w1 d1 w2 w3 w4 d2 d3 d4
  have hlab : ∀ w ∈ t.known ts, ∃ j, t.labels.find? w = some j ∧
      ((t.labels.find? w).getD 0).toUInt64.toNat = j.toNat := by
    intro w hw
    obtain ⟨j, hj⟩ := Option.ne_none_iff_exists'.1 ((kmem' w).1 hw).2
    exact ⟨j, hj, by rw [hj, Option.getD_some, UInt32.toNat_toUInt64]⟩
  have hWpos : ∀ w ∈ ks, 1 ≤ exactWeight t df ts w := fun w hw => (hweight w (hperm.mem_iff.2 hw)).2.2.1
  have hkpos : (1 : ℝ) ≤ ks.length := by exact_mod_cast List.length_pos_of_ne_nil hne
  have hn2 : (ks.length : ℝ) ≤ 2 ^ 20 := by exact_mod_cast hn
  refine ⟨v, e1, e2, e4, ?_, ?_, ?_, ?_⟩
  · intro e he
    obtain ⟨w, hw, rfl⟩ := List.mem_map.1 (e5.mem_iff.1 he)
    obtain ⟨j, hj, hi⟩ := hlab w hw
    exact ⟨w, hperm.mem_iff.1 hw, j, hj, hi, hvalue w hw⟩
  · intro w hw
    have hw' := hperm.mem_iff.2 hw
    obtain ⟨j, hj, hi⟩ := hlab w hw'
    exact ⟨_, e5.mem_iff.2 (List.mem_map_of_mem hw'), j, hj, hi⟩
  · intro hl1
    rw [(e5.map _).sum_eq, List.map_map]
    have hs := Rel.sum (fun w => (value (div (t.weight (floatOps log) idf ts w) N) : ℝ)) _ (t.known ts)
      fun w hw => (hvalue w hw).2.2
    have ht := l1_total (exactWeight t df ts) ks (by
      have := (sum_bounds (exactWeight t df ts) 1 (2 ^ 37) ks fun a ha => (hweight a (hperm.mem_iff.2 ha)).2.2).1
      linarith)
    rw [← (hperm.map _).sum_eq] at ht
    rw [hl1, ht] at hs
    unfold Rel at hs
    rw [mul_one] at hs
    exact hs
  · intro hl2
    rw [(e5.map _).sum_eq, List.map_map]
    have hs := Rel.sum (ε := (ks.length + 10) / 2 ^ 20)
      (fun w => (value (div (t.weight (floatOps log) idf ts w) N) : ℝ) ^ 2)
      (fun w => (exactWeight t df ts w / normSpec t.norm (ks.map (exactWeight t df ts))) ^ 2) (t.known ts) (by
        intro w hw
        have h1 := (hvalue w hw).2.2
        have hpos : 0 ≤ exactWeight t df ts w / normSpec t.norm (ks.map (exactWeight t df ts)) :=
          div_nonneg (le_trans zero_le_one (hweight w hw).2.2.1) (by linarith)
        have h2 := h1.mul h1 (by positivity) hpos hpos (by positivity)
        rw [Rel, sq, sq]
        refine h2.mono (by positivity) ?_
        have : (ks.length + 10 : ℝ) / 2 ^ 22 ≤ 1 := by linarith
        have h0 : (0 : ℝ) ≤ (ks.length + 10 : ℝ) / 2 ^ 22 := by positivity
        have : (ks.length + 10 : ℝ) / 2 ^ 20 = 4 * ((ks.length + 10 : ℝ) / 2 ^ 22) := by ring
        rw [this]
        nlinarith)
    have ht := l2_total (exactWeight t df ts) ks (by
      have := (sum_bounds (fun w => exactWeight t df ts w ^ 2) 1 (2 ^ 74) ks fun a ha => by
        obtain ⟨_, _, h1, h2⟩ := hweight a (hperm.mem_iff.2 ha)
        constructor <;> nlinarith).1
      linarith)
    rw [← (hperm.map _).sum_eq] at ht
    rw [hl2, ht] at hs
    unfold Rel at hs
    rw [mul_one] at hs
    exact hs

/-! ### Many terms -/

/-- Adding ones to a float stops at 2²⁴. -/
theorem ones_sum (n : Nat) : (List.replicate n (ofInt 1 : F32)).foldl add (zero false) =
    if n = 0 then zero false else ofInt (min n (2 ^ 24) : Nat) := by
  induction n with
  | zero => simp
  | succ n ih =>
    rw [List.replicate_succ', List.foldl_append, ih]
    simp only [List.foldl_cons, List.foldl_nil, Nat.succ_ne_zero, if_false]
    by_cases h0 : n = 0
    · subst h0
      simp only [if_true]
      decide +kernel
    · rw [if_neg h0]
      by_cases hlt : n < 2 ^ 24
      · rw [Nat.min_eq_left (by omega), Nat.min_eq_left (by omega)]
        have h24 : 2 * 2 ^ (fmt F32).frac = 2 ^ 24 := by decide
        have h1 := ofInt_exact (T := F32) (z := 1) (by decide +kernel)
        have hn := ofInt_exact (T := F32) (z := n) (by rw [h24, Int.natAbs_natCast]; omega)
        have hn1 := ofInt_exact (T := F32) (z := (n + 1 : Nat)) (by rw [h24, Int.natAbs_natCast]; omega)
        obtain ⟨ha, hv⟩ := FloatWindows.add_exact hn.1 h1.1 (e := 0) (by simp) (z := ((n + 1 : Nat) : Int)) (by
          rw [h24, Int.natAbs_natCast]; omega) (by rw [hn.2, h1.2]; push_cast; ring)
        have hk : key (add (ofInt n : F32) (ofInt 1)) = key (ofInt ((n + 1 : Nat) : Int) : F32) := by
          rw [← fval_inj (F := fmt F32), ← value_key, ← value_key, hv, hn1.2]
          simp
        refine FloatWindows.eq_of_key hk ?_
        rw [hk, ne_eq, ← fval_eq_zero (F := fmt F32), ← value_key, hn1.2]
        push_cast
        positivity
      · rw [Nat.min_eq_right (by omega), Nat.min_eq_right (by omega)]
        decide +kernel

/-- The words of `k` letters from two. -/
def binaryWords : Nat → List (List UInt8)
  | 0 => [[]]
  | k + 1 => (binaryWords k).map (97 :: ·) ++ (binaryWords k).map (98 :: ·)

theorem binaryWords_length (k : Nat) : (binaryWords k).length = 2 ^ k := by
  induction k with
  | zero => rfl
  | succ k ih => simp only [binaryWords, List.length_append, List.length_map, ih]; omega

theorem binaryWords_nodup (k : Nat) : (binaryWords k).Nodup := by
  induction k with
  | zero => simp [binaryWords]
  | succ k ih =>
    rw [binaryWords, List.nodup_append]
    refine ⟨(List.nodup_map_iff (fun a b h => by simpa using h)).2 ih,
      (List.nodup_map_iff (fun a b h => by simpa using h)).2 ih, ?_⟩
    intro a ha b hb
    obtain ⟨x, _, rfl⟩ := List.mem_map.1 ha
    obtain ⟨y, _, rfl⟩ := List.mem_map.1 hb
    simp

theorem binaryWords_letters (k : Nat) : ∀ w ∈ binaryWords k, w.length = k ∧ ∀ c ∈ w, c = 97 ∨ c = 98 := by
  induction k with
  | zero => simp [binaryWords]
  | succ k ih =>
    intro w hw
    rw [binaryWords, List.mem_append] at hw
    rcases hw with hw | hw <;> obtain ⟨x, hx, rfl⟩ := List.mem_map.1 hw
    · obtain ⟨h1, h2⟩ := ih x hx
      refine ⟨by simp [h1], ?_⟩
      intro c hc
      rcases List.mem_cons.1 hc with rfl | hc
      · exact .inl rfl
      · exact h2 c hc
    · obtain ⟨h1, h2⟩ := ih x hx
      refine ⟨by simp [h1], ?_⟩
      intro c hc
      rcases List.mem_cons.1 hc with rfl | hc
      · exact .inr rfl
      · exact h2 c hc

theorem pieces_word (p : UInt8 → Bool) (sep : UInt8) (hs : p sep = true) (rest : List UInt8) :
    ∀ w : List UInt8, (∀ c ∈ w, p c = false) → pieces p (w ++ sep :: rest) = w :: pieces p rest := by
  intro w
  induction w with
  | nil => intro _; simp [pieces, hs]
  | cons c w ih =>
    intro h
    rw [List.cons_append, pieces, if_neg (by rw [h c (by simp)]; simp), ih fun d hd => h d (by simp [hd])]
    simp

theorem wordsOf_joined (p : UInt8 → Bool) (sep : UInt8) (hs : p sep = true) (ws : List (List UInt8))
    (h : ∀ w ∈ ws, w ≠ [] ∧ ∀ c ∈ w, p c = false) : wordsOf p (ws.flatMap (· ++ [sep])) = ws := by
  induction ws with
  | nil => simp [wordsOf, pieces]
  | cons w ws ih =>
    obtain ⟨h1, h2⟩ := h w (by simp)
    have h3 := ih fun v hv => h v (by simp [hv])
    unfold wordsOf at h3 ⊢
    rw [List.flatMap_cons, List.append_assoc, List.singleton_append, pieces_word p sep hs _ w h2, List.filter_cons, h3]
    simp [h1]

/-- A vectorizer with L1 normalisation, without inverse document frequencies, whose vocabulary are the words of `k`
letters. -/
def binaryTfidf (k : Nat) : Tfidf where
  labels := ⟨((binaryWords k).map Str.mk).zipIdx.map fun e => (e.1, UInt32.ofNat e.2), by
    rw [List.map_map, show ((fun x : Str × UInt32 => x.1) ∘ fun e : Str × Nat => (e.1, UInt32.ofNat e.2)) = Prod.fst from rfl,
      List.zipIdx_map_fst]
    exact (List.nodup_map_iff (fun a b h => by simpa using h)).2 (binaryWords_nodup k)⟩
  docFreq := ⟨((binaryWords k).map Str.mk).map fun w => (w, 1), by
    rw [List.map_map, show ((fun x : Str × UInt32 => x.1) ∘ fun w : Str => (w, (1 : UInt32))) = id from rfl, List.map_id]
    exact (List.nodup_map_iff (fun a b h => by simpa using h)).2 (binaryWords_nodup k)⟩
  total := 1
  norm := .l1
  binary := true
  useIdf := false
  smoothIdf := false
  sublinearTf := false
  lowercase := false
  text := ⟨.word, none, 1, 1⟩

/-- The document with every word of the vocabulary once. -/
def binaryText (k : Nat) : Str := ⟨(binaryWords k).flatMap (· ++ [32])⟩

theorem binary_tokens (k : Nat) (hk : 1 ≤ k) : (binaryTfidf k).text.executeTokens (binaryTfidf k).lowercase (binaryText k)
    = .ok ((binaryWords k).map Str.mk) := by
  show (binaryTfidf k).text.tokens (binaryText k) = _
  rw [C64_single_words _ _ rfl rfl rfl rfl]
  show Except.ok ((wordsOf _ ((binaryWords k).flatMap (· ++ [32]))).map Str.mk) = _
  rw [wordsOf_joined _ 32 (by decide)]
  intro w hw
  obtain ⟨h1, h2⟩ := binaryWords_letters k w hw
  refine ⟨by rintro rfl; simp at h1; omega, ?_⟩
  intro c hc
  rcases h2 c hc with rfl | rfl <;> decide

theorem binary_label (k : Nat) (w : Str) (j : UInt32) : (binaryTfidf k).labels.find? w = some j ↔
    ∃ i, ((binaryWords k).map Str.mk)[i]? = some w ∧ j = UInt32.ofNat i := by
  rw [UMap.find?_eq_some]
  show (w, j) ∈ ((binaryWords k).map Str.mk).zipIdx.map (fun e => (e.1, UInt32.ofNat e.2)) ↔ _
  rw [List.mem_map]
  constructor
  · rintro ⟨⟨a, i⟩, h1, h2⟩
    rw [List.mem_zipIdx_iff_getElem?] at h1
    simp only [Prod.mk.injEq] at h2
    exact ⟨i, by rw [h1, h2.1], h2.2.symm⟩
  · rintro ⟨i, h1, rfl⟩
    exact ⟨(w, i), List.mem_zipIdx_iff_getElem?.2 h1, rfl⟩

theorem one_times_one : (FloatArith.cast (mul (ofInt 1 : F64) (ofInt 1)) : F32) = ofInt 1 := by decide +kernel

/-- The values of a document with many terms of equal weight. -/
theorem many_terms (log : F64 → F64) (k : Nat) (hk : 24 ≤ k) (hk2 : k < 32) :
    ∃ v, (binaryTfidf k).execute (floatOps log) (binaryText k) = .ok v ∧ v.values.length = 2 ^ k ∧
      ∀ e ∈ v.values, e.value = div (ofInt 1) (ofInt (2 ^ 24 : Nat)) := by
  have hts := binary_tokens k (by omega)
  have hlen : ((binaryWords k).map Str.mk).length = 2 ^ k := by rw [List.length_map, binaryWords_length]
  have hsize : (binaryTfidf k).labels.size = 2 ^ k := by
    show (((binaryWords k).map Str.mk).zipIdx.map _).length = _
    rw [List.length_map, List.length_zipIdx, hlen]
  have hpow : 2 ^ k < 2 ^ 32 := Nat.pow_lt_pow_right (by norm_num) hk2
  obtain ⟨s1, s2, s3⟩ := Tfidf.execute_spec (floatOps log) (binaryTfidf k) (fun _ => ofInt 1) _ _ hts
    (by rw [hsize]; positivity) (by rw [hsize]; omega) (by intro w _ _; rfl)
  obtain ⟨knd, kmem⟩ := (binaryTfidf k).known_spec ((binaryWords k).map Str.mk)
  have hlab : ∀ w ∈ (binaryWords k).map Str.mk, ∃ i, ((binaryWords k).map Str.mk)[i]? = some w ∧
      (binaryTfidf k).labels.find? w = some (UInt32.ofNat i) ∧ i < 2 ^ k := by
    intro w hw
    obtain ⟨i, hi⟩ := List.getElem?_of_mem hw
    have := (List.getElem?_eq_some_iff.1 hi).1
    exact ⟨i, hi, (binary_label k w _).2 ⟨i, hi, rfl⟩, by omega⟩
  have hperm : ((binaryTfidf k).known ((binaryWords k).map Str.mk)).Perm ((binaryWords k).map Str.mk) := by
    refine (List.perm_ext_iff_of_nodup knd ((List.nodup_map_iff (fun a b h => by simpa using h)).2 (binaryWords_nodup k))).2 ?_
    intro w
    rw [kmem]
    constructor
    · exact fun h => h.1
    · intro h
      obtain ⟨i, _, h2, _⟩ := hlab w h
      exact ⟨h, by rw [h2]; rfl⟩
  have hkl : ((binaryTfidf k).known ((binaryWords k).map Str.mk)).length = 2 ^ k := by rw [hperm.length_eq, hlen]
  obtain ⟨v, e1, _, _, _, e5⟩ := s3 (by
    intro h
    rw [h] at hkl
    simp at hkl
    have := Nat.pos_of_ne_zero (show 2 ^ k ≠ 0 by positivity)
    omega) (by
    intro a ha b hb heq
    obtain ⟨i, h1, h2, h3⟩ := hlab a (hperm.mem_iff.1 ha)
    obtain ⟨j, g1, g2, g3⟩ := hlab b (hperm.mem_iff.1 hb)
    rw [h2, g2, Option.some.injEq] at heq
    have : i = j := by
      have := congrArg UInt32.toNat heq
      rwa [UInt32.toNat_ofNat_of_lt' (by show i < 2 ^ 32; omega), UInt32.toNat_ofNat_of_lt' (by show j < 2 ^ 32; omega)] at this
    subst this
    rw [h1] at g1
    exact Option.some.inj g1)
  have hw : ∀ ts w, (binaryTfidf k).weight (floatOps log) (fun _ => ofInt 1) ts w = (ofInt 1 : F32) := by
    intro ts w
    simp only [Tfidf.weight, Tfidf.tf, binaryTfidf, if_true, floatOps]
    exact one_times_one
  have hmap : ((binaryTfidf k).known ((binaryWords k).map Str.mk)).map
      ((binaryTfidf k).weight (floatOps log) (fun _ => ofInt 1) ((binaryWords k).map Str.mk)) = List.replicate (2 ^ k) (ofInt 1) := by
    rw [← hkl, List.eq_replicate_iff]
    refine ⟨List.length_map _, ?_⟩
    intro b hb
    obtain ⟨w, _, rfl⟩ := List.mem_map.1 hb
    exact hw _ w
  refine ⟨v, e1, by rw [e5.length_eq, List.length_map, hkl], ?_⟩
  intro e he
  obtain ⟨w, _, rfl⟩ := List.mem_map.1 (e5.mem_iff.1 he)
  rw [hmap, hw]
  simp only [Tfidf.divisor, binaryTfidf, floatOps]
  have h24 : 2 ^ 24 ≤ 2 ^ k := Nat.pow_le_pow_right (by norm_num) hk
  rw [ones_sum, if_neg (by positivity), Nat.min_eq_right h24]

/-- L1 normalisation fails for documents with many terms: with 2³¹ of them the values sum to 128 instead of 1 (and already
with 2²⁵ to 2). -/
theorem C83_l1_refuted (log : F64 → F64) (k : Nat) (hk : 24 ≤ k) (hk2 : k < 32) :
    ∃ (t : Tfidf) (doc : Str) (v : SparseVector F32), t.norm = .l1 ∧ t.execute (floatOps log) doc = .ok v ∧
      (v.values.map fun e => (value e.value : ℝ)).sum = 2 ^ (k - 24) := by
  obtain ⟨v, h1, h2, h3⟩ := many_terms log k hk hk2
  refine ⟨binaryTfidf k, binaryText k, v, rfl, h1, ?_⟩
  have hq : value (div (ofInt 1) (ofInt (2 ^ 24 : Nat)) : F32) = 1 / 2 ^ 24 := by
    have a1 := ofInt_exact (T := F32) (z := 1) (by decide +kernel)
    have a2 := ofInt_exact (T := F32) (z := (2 ^ 24 : Nat)) (by decide +kernel)
    have hd := key_div a1.1 a2.1 (by rw [a2.2]; norm_num)
    rw [a1.2, a2.2] at hd
    obtain ⟨m, m1, m2⟩ := mag_exists (fmt F32) ((fmt F32).scale - 24) 1 (by decide +kernel)
    have := of_exists hd (m := m) (lt_of_le_of_lt m1 (by decide +kernel)) (by
      rw [m2, show (fmt F32).scale = 149 from rfl]
      norm_num)
    rw [this.2]
    norm_num
  have hl : v.values.map (fun e => (value e.value : ℝ)) = List.replicate (2 ^ k) (1 / 2 ^ 24) := by
    rw [← h2, List.eq_replicate_iff]
    refine ⟨List.length_map _, ?_⟩
    intro b hb
    obtain ⟨e, he, rfl⟩ := List.mem_map.1 hb
    rw [h3 e he, hq]
    push_cast
    rfl
  rw [hl, List.sum_replicate, nsmul_eq_mul]
  obtain ⟨d, rfl⟩ : ∃ d, k = 24 + d := ⟨k - 24, by omega⟩
  rw [Nat.add_sub_cancel_left, pow_add]
  push_cast
  field_simp
  norm_num

/-! ### Training -/

/-- **C83 (trained)** The same for the vectorizer trained on any batches of fewer than 2³² − 1 documents, without a
vocabulary of its own: its vocabulary `ks`, in increasing order, is as specified by `IsVocabulary` (C44), the index of
`ks[i]` is `i`, and the document frequencies are those of the training data.  `fs` are the different terms of the document
that are in the vocabulary. -/
theorem C83_trained_partial {log : F64 → F64} (hlog : LogAccurate log) {F : Type} (it : IterOrder Str UInt32)
    (nth : NthElement) (fl : FloatOps F)
    (hfl : GoodRatio fl) (c : DocConfig F) (hc : c.check fl = .ok ()) (hk : ∀ k, c.topK = some k → k.toNat < 2 ^ 31)
    (hvoc : c.vocabulary = none) (norm : NormMethod) (binary useIdf smoothIdf sublinearTf lowercase : Bool)
    (hdec : c.decorator = lowerDecorator lowercase)
    (hregex : lowercase = true → ∀ f, c.text.regex = some f → ∀ s : Str, f ⟨toLower s.chars⟩ = f s)
    (col cap : Nat) (hcap : 0 < cap) (batches : List (List Str)) (hb : NoEmptyBatch batches)
    (maps : AnnotationMaps DocStats) (hcol : col < maps.length)
    (hnone : getAnnotation (fun _ => true) maps col "DocumentStatisticsEstimator" = .ok none)
    (hp : ∀ d ∈ batches.flatten.take cap, ∃ ts, c.text.tokens d = .ok ts)
    (hn : (batches.flatten.take cap).length + 1 < 2 ^ 32) :
    ∃ ks : List Str, ks.Pairwise (· < ·) ∧
      IsVocabulary (docFreq c (batches.flatten.take cap)) (WithinDf fl c (batches.flatten.take cap))
        (c.topK.map UInt32.toNat) ks ∧
      (ks = [] → trainEstimator (docStatsPolicy it nth fl c) (docStatsConfig col) cap ⟨UMap.empty, 0⟩ batches maps
          = (.error .invalidArgument, maps)) ∧
      (ks ≠ [] → ks.length < 2 ^ 32 → ∃ maps' t,
        trainEstimator (docStatsPolicy it nth fl c) (docStatsConfig col) cap ⟨UMap.empty, 0⟩ batches maps
          = (.ok (), maps') ∧
        makeTfidf norm binary useIdf smoothIdf sublinearTf lowercase c.text col maps' = .ok t ∧
        ∀ doc, (∃ ts, c.text.tokens doc = .ok ts) → (c.termsOf doc).length < 2 ^ 32 →
          ∀ fs : List Str, fs.Nodup → (∀ w, w ∈ fs ↔ w ∈ c.termsOf doc ∧ w ∈ ks) → fs.length ≤ 2 ^ 20 →
          let weight := fun w => tfSpec binary sublinearTf ((c.termsOf doc).count w) *
                idfSpec useIdf smoothIdf (batches.flatten.take cap).length (docFreq c (batches.flatten.take cap) w)
          (fs = [] → t.execute (floatOps log) doc = .error .invalidArgument) ∧
          (fs ≠ [] → ∃ v, t.execute (floatOps log) doc = .ok v ∧ v.numElements.toNat = ks.length ∧
            (v.values.Pairwise fun a b => a.index.toNat < b.index.toNat) ∧
            (∀ e ∈ v.values, ∃ w ∈ fs, ks[e.index.toNat]? = some w ∧ Finite e.value ∧ 0 < value e.value ∧
              Rel ((fs.length + 10) / 2 ^ 22) (value e.value : ℝ) (weight w / normSpec norm (fs.map weight))) ∧
            (∀ w ∈ fs, ∃ e ∈ v.values, ks[e.index.toNat]? = some w) ∧
            (norm = .l1 → |(v.values.map fun e => (value e.value : ℝ)).sum - 1| ≤ (fs.length + 10) / 2 ^ 22) ∧
            (norm = .l2 → |(v.values.map fun e => (value e.value : ℝ) ^ 2).sum - 1| ≤ (fs.length + 10) / 2 ^ 20))) := by
  obtain ⟨ks, hsort, hv, h1, h2⟩ := trained_vectorizer it nth fl hfl c hc hk hvoc norm binary useIdf smoothIdf sublinearTf
    lowercase col cap hcap batches hb maps hcol hnone hp (by omega)
  refine ⟨ks, hsort, hv, h1, ?_⟩
  intro hne hlen
  obtain ⟨maps', labels, freqs, ht, hmk, hls, hidx, hlabk, hfr⟩ := h2 hne hlen
  have hpos : 0 < ks.length := List.length_pos_iff.2 hne
  have hdl : (UInt32.ofNat (batches.flatten.take cap).length).toNat = (batches.flatten.take cap).length :=
    UInt32.toNat_ofNat_of_lt' (show _ < 2 ^ 32 by omega)
  refine ⟨maps', _, ht, hmk, ?_⟩
  intro doc hdoc hshort fs hfs hfsk hfn weight
  have hts := executeTokens_terms c lowercase hdec hregex doc hdoc
  have hwe : exactWeight ⟨labels, freqs, UInt32.ofNat (batches.flatten.take cap).length, norm, binary, useIdf,
      smoothIdf, sublinearTf, lowercase, c.text⟩ (docFreq c (batches.flatten.take cap)) (c.termsOf doc) = weight := by
    funext w
    simp only [exactWeight, hdl]
    rfl
  obtain ⟨x1, x3⟩ := C83_tfidf_partial hlog ⟨labels, freqs, UInt32.ofNat (batches.flatten.take cap).length, norm, binary, useIdf,
    smoothIdf, sublinearTf, lowercase, c.text⟩ doc _ hts (by rw [hls]; exact hpos) (by rw [hls]; omega) hshort
    (by rw [hdl]; exact hn) (docFreq c (batches.flatten.take cap)) (by
      intro w _ hl
      have hw := (hlabk w).1 hl
      have hle := docFreq_le c (batches.flatten.take cap) w
      refine ⟨⟨_, hfr w hw, UInt32.toNat_ofNat_of_lt' (show _ < 2 ^ 32 by omega)⟩, (hv.only w hw).1, ?_⟩
      rw [hdl]; exact hle) fs hfs (by
      intro w
      rw [hfsk, hlabk]) hfn
  rw [hwe] at x3
  refine ⟨x1, fun hfne => ?_⟩
  obtain ⟨v, y1, y2, y3, y4, y5, y6, y7⟩ := x3 hfne (by
    intro a ha b hb heq
    obtain ⟨j, hj⟩ := Option.ne_none_iff_exists'.1 ((hlabk a).2 ((hfsk a).1 ha).2)
    have ha' := (hidx a j).1 hj
    have hb' := (hidx b j).1 (heq ▸ hj)
    rw [ha'] at hb'
    exact Option.some.inj hb')
  refine ⟨v, y1, by rw [y2, hls], y3, ?_, ?_, y6, y7⟩
  · intro e he
    obtain ⟨w, hw, j, hj, hi, hr⟩ := y4 e he
    exact ⟨w, hw, by rw [hi]; exact (hidx w j).1 hj, hr⟩
  · intro w hw
    obtain ⟨e, he, j, hj, hi⟩ := y5 w hw
    exact ⟨e, he, by rw [hi]; exact (hidx w j).1 hj⟩

/-! ### Cases -/

theorem next_after_one {x : F64} (h : 1 < value x) : 1 + 1 / 2 ^ 58 ≤ value x := by
  rw [← one_double.2, value_key, value_key x, fval_lt] at h
  have h1 : key (ofInt 1 : F64) = 0x3FF0000000000000 := by decide +kernel
  rw [h1] at h
  have h2 : fval (fmt F64) ((0x3FF0000000000001 : Nat) : Int) ≤ fval (fmt F64) (key x) := by
    rw [fval_le]
    push_cast
    omega
  rw [value_key]
  refine le_trans ?_ h2
  rw [fval_nat]
  decide +kernel

theorem le_two_pow {x : F64} (h : Finite x) : value x ≤ 2 ^ 1024 := by
  have h1 := (rnd_finite_iff (T := F64) (q := value x)).1 (by rw [rnd_value h, ← finite_key]; exact h)
  have h2 : tooLarge F64 ≤ 2 ^ 1024 := by
    have h2 : tooLarge F64 = ((fmt F64).limit : ℚ) / 2 ^ (fmt F64).scale := by
      rw [limit_units]; field_simp
    rw [h2]
    decide +kernel
  exact le_trans (le_abs_self _) (le_trans h1.le h2)

theorem near_double {L : ℝ} (h1 : 1 / 2 ^ 60 ≤ L) (h2 : L ≤ 1024) :
    ∃ y : F64, Finite y ∧ Rel (1 / 2 ^ 52) (value y : ℝ) L := by
  have hL0 : 0 < L := lt_of_lt_of_le (by norm_num) h1
  obtain ⟨q, hq1, hq2⟩ := exists_rat_btwn (show L < L * (1 + 1 / 2 ^ 54) by nlinarith)
  have hlo : (1 / 2 ^ 60 : ℚ) ≤ q := by
    have : (((1 / 2 ^ 60 : ℚ)) : ℝ) ≤ (q : ℝ) := by push_cast; linarith
    exact_mod_cast this
  have hhi : q ≤ 2048 := by
    have : (q : ℝ) ≤ (((2048 : ℚ)) : ℝ) := by push_cast; linarith
    exact_mod_cast this
  have hq0 : 0 < q := lt_of_lt_of_le (by norm_num) hlo
  obtain ⟨y, hk⟩ : ∃ y : F64, key y = rnd (fmt F64) q := by
    refine ⟨roundTo false q.num.natAbs q.den, ?_⟩
    rw [key_roundTo _ _ q.den_pos]
    congr 1
    have hnum : ((q.num.natAbs : ℕ) : ℚ) = (q.num : ℚ) := by
      rw [Nat.cast_natAbs, abs_of_pos (Rat.num_pos.2 hq0)]
    rw [hnum, Rat.num_div_den]
    simp [signOf]
  obtain ⟨y1, y2⟩ := rounded_double hk (le_trans (by norm_num) hlo) (lt_of_le_of_lt hhi (by norm_num))
  refine ⟨y, y1, ?_⟩
  have h3 : Rel (1 / 2 ^ 54) (q : ℝ) L := by
    rw [Rel, abs_le]
    constructor <;> nlinarith
  exact (y2.trans h3 (by positivity)).mono hL0.le (by norm_num)

theorem log_bounds {x : F64} (hf : Finite x) (hx : 1 < value x) :
    1 / 2 ^ 60 ≤ Real.log (value x : ℝ) ∧ Real.log (value x : ℝ) ≤ 1024 := by
  have hxr : (1 : ℝ) < (value x : ℝ) := by exact_mod_cast hx
  have h1 := (Rat.cast_le (K := ℝ)).2 (next_after_one hx)
  have h2 := (Rat.cast_le (K := ℝ)).2 (le_two_pow hf)
  push_cast at h1 h2
  generalize (value x : ℝ) = v at *
  constructor
  · refine le_trans ?_ (Real.one_sub_inv_le_log_of_pos (by linarith only [hxr]))
    rw [le_sub_comm, inv_le_comm₀ (by linarith only [hxr]) (by norm_num)]
    refine le_trans ?_ h1
    rw [inv_le_comm₀ (by norm_num) (by norm_num)]
    norm_num
  · have h := Real.log_le_log (by linarith only [hxr]) h2
    rw [Real.log_pow] at h
    have h3 := Real.log_two_lt_d9
    push_cast at h
    linarith only [h, h3]

/-- There is a logarithm as accurate as assumed: the nearest double of a rational number near the logarithm. -/
theorem log_exists : ∃ log : F64 → F64, LogAccurate log := by
  have h : ∀ x : F64, ∃ y : F64, Finite x → 1 ≤ value x →
      Finite y ∧ Rel (1 / 2 ^ 52) (value y : ℝ) (Real.log (value x : ℝ)) := by
    intro x
    obtain ⟨z, hz1, hz2⟩ : ∃ z : F64, Finite z ∧ value z = 0 := ⟨zero false, finite_zero _, value_zero _⟩
    by_cases hx : 1 < value x
    · by_cases hf : Finite x
      · obtain ⟨h1, h2⟩ := log_bounds hf hx
        obtain ⟨y, hy⟩ := near_double h1 h2
        exact ⟨y, fun _ _ => hy⟩
      · exact ⟨z, fun h => absurd h hf⟩
    · refine ⟨z, fun _ h1 => ⟨hz1, ?_⟩⟩
      have h3 : value x = 1 := le_antisymm (not_lt.1 hx) h1
      rw [h3, hz2]
      simp [Rel]
  choose log hlog using h
  exact ⟨log, hlog⟩

/-- Two words, L2 normalisation and smoothed inverse document frequencies. -/
def sampleTfidf : Tfidf :=
  ⟨⟨[(⟨[97]⟩, 1), (⟨[98]⟩, 0)], by decide⟩, ⟨[(⟨[97]⟩, 1), (⟨[98]⟩, 2)], by decide⟩, 2, .l2, false, true, true, false,
    true, ⟨.word, none, 1, 1⟩⟩

/-- The document "A b x a". -/
example : ∃ log : F64 → F64, ∃ v, sampleTfidf.execute (floatOps log) ⟨[65, 32, 98, 32, 120, 32, 97]⟩ = .ok v ∧
    v.numElements.toNat = 2 ∧ |(v.values.map fun e => (value e.value : ℝ) ^ 2).sum - 1| ≤ (2 + 10) / 2 ^ 20 := by
  obtain ⟨log, hlog⟩ := log_exists
  obtain ⟨_, h⟩ := C83_tfidf_partial hlog sampleTfidf ⟨[65, 32, 98, 32, 120, 32, 97]⟩ [⟨[97]⟩, ⟨[98]⟩, ⟨[120]⟩, ⟨[97]⟩]
    rfl (by decide) (by decide) (by decide) (by decide) (fun w => if w = ⟨[97]⟩ then 1 else 2) (by
      intro w hw hl
      simp only [List.mem_cons, List.not_mem_nil, or_false] at hw
      rcases hw with rfl | rfl | rfl | rfl
      · exact ⟨⟨1, rfl, rfl⟩, by decide, by decide⟩
      · exact ⟨⟨2, rfl, rfl⟩, by decide, by decide⟩
      · exact absurd rfl hl
      · exact ⟨⟨1, rfl, rfl⟩, by decide, by decide⟩)
    [⟨[97]⟩, ⟨[98]⟩] (by decide) (by
      intro w
      constructor
      · intro hw
        simp only [List.mem_cons, List.not_mem_nil, or_false] at hw
        rcases hw with rfl | rfl <;> exact ⟨by decide, by decide⟩
      · rintro ⟨hw, hl⟩
        simp only [List.mem_cons, List.not_mem_nil, or_false] at hw
        rcases hw with rfl | rfl | rfl | rfl
        · decide
        · decide
        · exact absurd rfl hl
        · decide) (by decide)
  obtain ⟨v, h1, h2, _, _, _, _, h3⟩ := h (by simp) (by decide)
  exact ⟨log, v, h1, h2, by simpa using h3 rfl⟩

end Feat.FloatTfidf
