import Verif.Props.DocStats
import Verif.Proofs.Vectorizer
/-
C45: the count vectorizer.
-/
namespace Feat

/-! ### Counts as floats -/

/-- **C45 (counts that are exact)** A count up to 2²⁴ is not changed by the conversion to `float`. -/
theorem C45_small_counts (n : Nat) (h : n ≤ 2 ^ 24) : roundFloat n = n := by
  unfold roundFloat
  split
  · rfl
  · have : n = 2 ^ 24 := by omega
    subst this
    decide

private theorem log2_bounds (n : Nat) (h : ¬ n < 2 ^ 24) :
    ∃ e, n.log2 - 23 = e + 1 ∧ 2 ^ (e + 24) ≤ n := by
  have h0 : n ≠ 0 := by omega
  have h1 : 24 ≤ n.log2 := (Nat.le_log2 h0).2 (by omega)
  refine ⟨n.log2 - 24, by omega, ?_⟩
  have : n.log2 - 24 + 24 = n.log2 := by omega
  rw [this]
  exact Nat.log2_self_le h0

/-- **C45 (all counts)** The conversion to `float` changes a count by at most one part in 2²⁴. -/
theorem C45_rounding (n : Nat) : (roundFloat n - n) * 2 ^ 24 ≤ n ∧ (n - roundFloat n) * 2 ^ 24 ≤ n := by
  unfold roundFloat
  split
  · simp
  · rename_i h
    obtain ⟨e, he, hn⟩ := log2_bounds n h
    simp only [he]
    have hd := Nat.div_add_mod n (2 ^ (e + 1))
    have hr := Nat.mod_lt n (Nat.two_pow_pos (e + 1))
    have hp : 2 ^ (e + 1) = 2 * 2 ^ e := by rw [Nat.pow_succ, Nat.mul_comm]
    have hq : 2 ^ (e + 24) = 2 ^ e * 2 ^ 24 := Nat.pow_add ..
    generalize n / 2 ^ (e + 1) = q at *
    generalize n % 2 ^ (e + 1) = r at *
    rw [hp] at *
    rw [hq] at hn
    have hhalf : 2 * 2 ^ e / 2 = 2 ^ e := by omega
    rw [hhalf]
    have hc : (q + 1) * (2 * 2 ^ e) = 2 * 2 ^ e * q + 2 * 2 ^ e := by rw [Nat.add_mul, Nat.one_mul, Nat.mul_comm q]
    have hc' : q * (2 * 2 ^ e) = 2 * 2 ^ e * q := Nat.mul_comm _ _
    rw [hc, hc']
    generalize 2 * 2 ^ e * q = a at *
    generalize 2 ^ e = b at *
    repeat' split
    all_goals omega

/-- **C45 (a count that is lost)** 2²⁴ + 1 occurrences are reported as 2²⁴. -/
theorem C45_large_count : roundFloat (2 ^ 24 + 1) = 2 ^ 24 := by decide

private theorem roundFloat_lt (n : Nat) (h : n < 2 ^ 31) : roundFloat n < 2 ^ 32 := by
  have := (C45_rounding n).1
  omega

/-! ### Execution -/

private theorem castCounts_spec (vs : List (ValueEncoding Nat)) (h : ∀ v ∈ vs, v.value < 2 ^ 32) :
    castCounts vs = .ok (vs.map fun v => ⟨UInt32.ofNat v.value, v.index⟩) := by
  induction vs with
  | nil => rfl
  | cons v vs ih =>
    unfold castCounts
    rw [castCount, if_pos (h v (by simp)), ih (fun w hw => h w (by simp [hw]))]
    rfl

private theorem mkSparse_ok {T : Type} (n : UInt64) (vs : List (ValueEncoding T)) (h0 : n ≠ 0) (hne : vs ≠ [])
    (hl : vs.length ≤ n.toNat) (hp : vs.Pairwise fun a b => a.index.toNat < b.index.toNat) :
    mkSparse n vs = .ok ⟨n, vs⟩ := by
  unfold mkSparse
  rw [if_neg h0, if_neg (by omega)]
  cases vs with
  | nil => exact absurd rfl hne
  | cons v vs =>
    simp only
    rw [if_pos]
    rw [orderedFrom_iff, ← List.map_cons (f := fun x : ValueEncoding T => x.index), List.pairwise_map]
    exact hp

/-- **C45 (exact behaviour)** For a document whose tokens are `ts`, the count vectorizer with the labels `t.labels`
* throws if no token has a label,
* throws if two different tokens have the same label,
* otherwise yields a vector of the size of the vocabulary, in increasing order of the indexes, that has exactly the entries
  "`c` at `i`" where `i` is the label of a token and `c` is 1 in binary mode, and otherwise the number of its occurrences,
  as a `float`. -/
theorem C45_exact (t : Tfidf) (hnorm : t.norm = .none) (huse : t.useIdf = false) (hsub : t.sublinearTf = false)
    (doc : Str) (ts : List Str) (hts : t.text.executeTokens t.lowercase doc = .ok ts)
    (h0 : 0 < t.labels.size) (hsz : t.labels.size < 2 ^ 64) (hlen : ts.length < 2 ^ 31) :
    ((∀ w ∈ ts, t.labels.find? w = none) → countExecute t doc = .error .invalidArgument) ∧
    (∀ w ∈ ts, ∀ w' ∈ ts, w ≠ w' → t.labels.find? w ≠ none → t.labels.find? w = t.labels.find? w' →
      countExecute t doc = .error .invalidArgument) ∧
    ((∃ w ∈ ts, t.labels.find? w ≠ none) →
      (∀ w ∈ ts, ∀ w' ∈ ts, t.labels.find? w ≠ none → t.labels.find? w = t.labels.find? w' → w = w') →
      ∃ v, countExecute t doc = .ok v ∧ v.numElements.toNat = t.labels.size ∧
        (v.values.Pairwise fun a b => a.index.toNat < b.index.toNat) ∧
        ∀ c i, ⟨c, i⟩ ∈ v.values ↔ ∃ w ∈ ts, ∃ j, t.labels.find? w = some j ∧ i.toNat = j.toNat ∧
          c.toNat = if t.binary then 1 else roundFloat (ts.count w)) := by
  obtain ⟨s1, s2, s3⟩ := Tfidf.execute_spec countOps t (fun _ => 1) doc ts hts h0 hsz
    (by intro w _ _; simp [Tfidf.idf, huse, countOps])
  obtain ⟨knd, kmem⟩ := t.known_spec ts
  have kmem' : ∀ w, w ∈ t.known ts ↔ w ∈ ts ∧ t.labels.find? w ≠ none := by
    intro w
    rw [kmem, Option.isSome_iff_ne_none]
  have hcount : ∀ w, ts.count w < 2 ^ 31 := fun w => Nat.lt_of_le_of_lt List.count_le_length hlen
  have hw : ∀ w, t.weight countOps (fun _ => 1) ts w = if t.binary then 1 else roundFloat (ts.count w) := by
    intro w
    have hc : (UInt32.ofNat (ts.count w)).toNat = ts.count w :=
      UInt32.toNat_ofNat_of_lt' (Nat.lt_trans (hcount w) (by decide))
    unfold Tfidf.weight Tfidf.tf
    rw [if_pos hsub]
    split
    · show roundFloat 1 = 1
      decide
    · show roundFloat ((UInt32.ofNat (ts.count w)).toNat * 1) = _
      rw [hc, Nat.mul_one]
  refine ⟨?_, ?_, ?_⟩
  · intro h
    unfold countExecute
    rw [s1]
    rw [List.eq_nil_iff_forall_not_mem]
    intro w hw
    obtain ⟨h1, h2⟩ := (kmem' w).1 hw
    exact h2 (h w h1)
  · intro w hw w' hw' hne h heq
    unfold countExecute
    rw [s2 w ((kmem' w).2 ⟨hw, h⟩) w' ((kmem' w').2 ⟨hw', heq ▸ h⟩) hne heq]
  · rintro ⟨w, hws, hwl⟩ hinj
    obtain ⟨v, e1, e2, e3, e4, e5⟩ := s3 (List.ne_nil_of_mem ((kmem' w).2 ⟨hws, hwl⟩)) (by
      intro a ha b hb heq
      obtain ⟨ha1, ha2⟩ := (kmem' a).1 ha
      exact hinj a ha1 b ((kmem' b).1 hb).1 ha2 heq)
    have hval : ∀ x : ValueEncoding Nat, x ∈ v.values ↔ ∃ w ∈ t.known ts,
        x = ⟨if t.binary then 1 else roundFloat (ts.count w), ((t.labels.find? w).getD 0).toUInt64⟩ := by
      intro x
      rw [e5.mem_iff, List.mem_map]
      have : ∀ n m : Nat, countOps.divF n (t.divisor countOps m) = n := by
        intro n m
        unfold Tfidf.divisor
        rw [hnorm]
        show n / 1 = n
        exact Nat.div_one n
      simp only [this, hw]
      constructor
      · rintro ⟨a, h1, h2⟩; exact ⟨a, h1, h2.symm⟩
      · rintro ⟨a, h1, h2⟩; exact ⟨a, h1, h2.symm⟩
    have hbound : ∀ x ∈ v.values, x.value < 2 ^ 32 := by
      intro x hx
      obtain ⟨w, _, rfl⟩ := (hval x).1 hx
      simp only
      split
      · decide
      · exact roundFloat_lt _ (hcount w)
    have hcast := castCounts_spec v.values hbound
    have hlenv : v.values.length ≤ v.numElements.toNat := by
      rw [e5.length_eq, List.length_map, e2]
      exact t.known_length ts
    have hmk : mkSparse v.numElements (v.values.map fun v => (⟨UInt32.ofNat v.value, v.index⟩ : ValueEncoding UInt32))
        = .ok ⟨v.numElements, v.values.map fun v => ⟨UInt32.ofNat v.value, v.index⟩⟩ := by
      refine mkSparse_ok _ _ ?_ (by simpa using e3) (by rw [List.length_map]; exact hlenv) ?_
      · intro h
        rw [h] at e2
        simp at e2
        omega
      · rw [List.pairwise_map]
        exact e4
    refine ⟨_, by unfold countExecute; rw [e1]; simp only [hcast]; exact hmk, e2, ?_, ?_⟩
    · show List.Pairwise _ (List.map _ _)
      rw [List.pairwise_map]
      exact e4
    · intro c i
      show _ ∈ List.map _ _ ↔ _
      rw [List.mem_map]
      constructor
      · rintro ⟨x, hx, hxe⟩
        have hb := hbound x hx
        obtain ⟨w, hwk, rfl⟩ := (hval x).1 hx
        obtain ⟨h1, h2⟩ := (kmem' w).1 hwk
        obtain ⟨j, hj⟩ := Option.ne_none_iff_exists'.1 h2
        simp only [hj, Option.getD_some, ValueEncoding.mk.injEq] at hxe hb
        refine ⟨w, h1, j, hj, ?_, ?_⟩
        · rw [← hxe.2, UInt32.toNat_toUInt64]
        · rw [← hxe.1, UInt32.toNat_ofNat_of_lt' hb]
      · rintro ⟨w, h1, j, hj, h2, h3⟩
        have hk : w ∈ t.known ts := (kmem' w).2 ⟨h1, by rw [hj]; simp⟩
        have hx := (hval _).2 ⟨w, hk, rfl⟩
        refine ⟨_, hx, ?_⟩
        have hb := hbound _ hx
        simp only [hj, Option.getD_some, ValueEncoding.mk.injEq]
        constructor
        · rw [← UInt32.toNat_inj, UInt32.toNat_ofNat_of_lt' hb, h3]
        · rw [← UInt64.toNat_inj, UInt32.toNat_toUInt64, h2]

/-- **C45 (counts up to 2²⁴)** For a document whose tokens are `ts`, at least one of which has a label, with different
labels for different tokens and none more than 2²⁴ times, the vector has the number of occurrences (or 1 in binary mode) at
the label of each labelled token, and nothing else, in increasing order of the indexes.  What is missing for all documents:
larger counts are rounded (`C45_large_count`, `C45_rounding`), and without any labelled token `execute` throws
(`C45_exact`) although the vector would just have no entries. -/
theorem C45_count_vectorizer_partial (t : Tfidf) (hnorm : t.norm = .none) (huse : t.useIdf = false)
    (hsub : t.sublinearTf = false) (doc : Str) (ts : List Str)
    (hts : t.text.executeTokens t.lowercase doc = .ok ts)
    (hsz : t.labels.size < 2 ^ 64) (hlen : ts.length < 2 ^ 31) (hcnt : ∀ w ∈ ts, ts.count w ≤ 2 ^ 24)
    (hsome : ∃ w ∈ ts, t.labels.find? w ≠ none)
    (hinj : ∀ w ∈ ts, ∀ w' ∈ ts, t.labels.find? w ≠ none → t.labels.find? w = t.labels.find? w' → w = w') :
    ∃ v, countExecute t doc = .ok v ∧ v.numElements.toNat = t.labels.size ∧
      (v.values.Pairwise fun a b => a.index.toNat < b.index.toNat) ∧
      ∀ c i, ⟨c, i⟩ ∈ v.values ↔ ∃ w ∈ ts, ∃ j, t.labels.find? w = some j ∧ i.toNat = j.toNat ∧
        c.toNat = if t.binary then 1 else ts.count w := by
  have h0 : 0 < t.labels.size := by
    obtain ⟨w, _, h⟩ := hsome
    obtain ⟨j, hj⟩ := Option.ne_none_iff_exists'.1 h
    exact List.length_pos_of_mem ((t.labels.find?_eq_some w j).1 hj)
  obtain ⟨v, h1, h2, h3, h4⟩ := (C45_exact t hnorm huse hsub doc ts hts h0 hsz hlen).2.2 hsome hinj
  refine ⟨v, h1, h2, h3, ?_⟩
  intro c i
  rw [h4]
  constructor
  · rintro ⟨w, hw, j, a, b, d⟩
    rw [C45_small_counts _ (hcnt w hw)] at d
    exact ⟨w, hw, j, a, b, d⟩
  · rintro ⟨w, hw, j, a, b, d⟩
    refine ⟨w, hw, j, a, b, ?_⟩
    rw [C45_small_counts _ (hcnt w hw)]
    exact d

/-! ### C54: training and execution see the same terms -/

private theorem space_lower (c : UInt8) : isSpace (toLowerChar c) = isSpace c := by
  have h : ∀ n < 256, isSpace (toLowerChar (UInt8.ofNat n)) = isSpace (UInt8.ofNat n) := by decide +kernel
  have := h c.toNat c.toNat_lt
  rwa [UInt8.ofNat_toNat] at this

private theorem punct_lower (c : UInt8) : isPunct (toLowerChar c) = isPunct c := by
  have h : ∀ n < 256, isPunct (toLowerChar (UInt8.ofNat n)) = isPunct (UInt8.ofNat n) := by decide +kernel
  have := h c.toNat c.toNat_lt
  rwa [UInt8.ofNat_toNat] at this

private theorem parseFrom_lower (b : Bool) (s : List UInt8) (l r : Nat) :
    parseFrom isSpace b (toLower s) l r = parseFrom isSpace b s l r := by
  induction s generalizing b l r with
  | nil => rfl
  | cons c cs ih =>
    rw [toLower, List.map_cons, ← toLower]
    cases b <;> simp only [parseFrom, space_lower, ih]

private theorem separators_lower (s : List UInt8) (n : Nat) : separators isSpace (toLower s) n = separators isSpace s n := by
  induction s generalizing n with
  | nil => rfl
  | cons c cs ih =>
    rw [toLower, List.map_cons, ← toLower]
    simp only [separators, space_lower, ih]

private theorem dedup_lower (s : List UInt8) : replaceAndDeDuplicate (toLower s) = toLower (replaceAndDeDuplicate s) := by
  unfold replaceAndDeDuplicate
  have h1 : List.map (fun c => if isPunct c then 32 else c) (toLower s)
      = toLower (List.map (fun c => if isPunct c then 32 else c) s) := by
    unfold toLower
    rw [List.map_map, List.map_map]
    refine List.map_congr_left ?_
    intro c _
    simp only [Function.comp_apply, punct_lower]
    split
    · rfl
    · rfl
  rw [h1]
  generalize List.map (fun c => if isPunct c then 32 else c) s = u
  generalize false = b
  induction u generalizing b with
  | nil => rfl
  | cons c cs ih =>
    rw [toLower, List.map_cons, ← toLower]
    simp only [removeDuplicateSpace, space_lower, ih]
    split
    · rfl
    · rfl

private theorem padding_lower (s : List UInt8) : stringPadding (toLower s) = (stringPadding s).map toLower := by
  unfold stringPadding
  have h1 : (toLower s).head? = s.head?.map toLowerChar := by unfold toLower; exact List.head?_map
  have h2 : (toLower s).getLast? = s.getLast?.map toLowerChar := by unfold toLower; exact List.getLast?_map
  rw [h1, h2]
  rcases s.head? with _ | a <;> rcases s.getLast? with _ | b
  · rfl
  · rfl
  · rfl
  · simp only [Option.map_some, space_lower, Except.map]
    have h3 : toLowerChar 32 = 32 := by decide
    split
    · simp [toLower, h3]
    · split
      · simp [toLower, h3]
      · split
        · simp [toLower, h3]
        · rfl

private theorem between_lower (s : List UInt8) (r : Nat × Nat) : between (toLower s) r = toLower (between s r) := by
  unfold between toLower
  rw [List.map_drop, List.map_take]

/-- **C54** The terms of a document when the vectorizer is trained (its tokens, turned into lower case) are its terms when it
is executed (the tokens of the document in lower case): for every analyzer and n-gram range, and also for a regular
expression that does not depend on the case of letters. -/
theorem C54_same_terms (c : TextConfig)
    (hregex : ∀ f, c.regex = some f → ∀ s : Str, f ⟨toLower s.chars⟩ = f s) (doc : Str) :
    c.executeTokens true doc = (c.tokens doc).map fun ts => ts.map fun t => ⟨toLower t.chars⟩ := by
  have hprep : c.prepare ⟨toLower doc.chars⟩ = (c.prepare doc).map fun s => ⟨toLower s.chars⟩ := by
    unfold TextConfig.prepare
    cases c.analyzer with
    | word => simp only; split <;> simp [Except.map, dedup_lower]
    | char => simp [Except.map, dedup_lower]
    | charwb =>
      simp only [dedup_lower, padding_lower]
      cases stringPadding (replaceAndDeDuplicate doc.chars) <;> rfl
  have hlen : ∀ s : List UInt8, (toLower s).length = s.length := fun s => by simp [toLower]
  have hparse : ∀ s : Str, c.parse ⟨toLower s.chars⟩ = c.parse s := by
    intro s
    unfold TextConfig.parse
    cases c.analyzer with
    | word =>
      rcases hr : c.regex with _ | f
      · have : parseWords isSpace (toLower s.chars) = parseWords isSpace s.chars := parseFrom_lower ..
        simp only
        unfold parseNgramWord
        rw [this]
      · exact hregex f hr s
    | char => simp only [parseNgramChar, hlen]
    | charwb => simp only [parseNgramCharwb, separators_lower]
  unfold TextConfig.executeTokens TextConfig.tokens
  rw [if_pos rfl, hprep]
  rcases c.prepare doc with e | s
  · rfl
  · simp only [Except.map, hparse]
    rcases c.parse s with e | rs
    · rfl
    · simp only [List.map_map]
      congr 1
      refine List.map_congr_left ?_
      intro r _
      simp only [Function.comp_apply, between_lower]

/-- A case-sensitive regular expression, `[A-Z]`: every capital letter is a token. -/
def capitals (s : Str) : Except Err (List (Nat × Nat)) :=
  .ok ((List.range s.chars.length).filterMap fun i =>
    if 65 ≤ s.chars.getD i 0 ∧ s.chars.getD i 0 ≤ 90 then some (i, i + 1) else none)

/-- **C54 (case-sensitive regular expressions)** With the regular expression `[A-Z]` the document "Ab" has the term "a" in
training and no term at execution. -/
theorem C54_case_sensitive_regex :
    ((TextConfig.tokens ⟨.word, some capitals, 1, 1⟩ ⟨[65, 98]⟩).map fun ts => ts.map fun t => (⟨toLower t.chars⟩ : Str))
      = .ok [⟨[97]⟩] ∧
    TextConfig.executeTokens ⟨.word, some capitals, 1, 1⟩ true ⟨[65, 98]⟩ = .ok [] := ⟨rfl, rfl⟩

/-! ### Training and execution together -/

private theorem isVocabulary_perm (df : Str → Nat) (within : Str → Prop) (limit : Option Nat) (v w : List Str)
    (hv : IsVocabulary df within limit v) (hp : w.Perm v) : IsVocabulary df within limit w := by
  refine ⟨hp.nodup_iff.2 hv.nodup, fun t ht => hv.only t (hp.mem_iff.1 ht), ?_, ?_⟩
  · intro k hk
    rw [hp.length_eq]; exact hv.size k hk
  · intro t h1 h2 h3
    obtain ⟨k, a, b, d⟩ := hv.dropped t h1 h2 (fun h => h3 (hp.mem_iff.2 h))
    exact ⟨k, a, by rw [hp.length_eq]; exact b, fun x hx => d x (hp.mem_iff.1 hx)⟩

private theorem map_find {V W : Type} (m : UMap Str V) (f : V → W)
    (h : ((m.entries.map fun e => (e.1, f e.2)).map (·.1)).Nodup) (k : Str) :
    (UMap.mk (m.entries.map fun e => (e.1, f e.2)) h).find? k = (m.find? k).map f := by
  rcases hk : m.find? k with _ | v
  · rw [Option.map_none, UMap.find?_eq_none]
    rw [UMap.find?_eq_none] at hk
    simpa using hk
  · have := (UMap.find?_eq_some m k v).1 hk
    exact (UMap.find?_eq_some _ _ _).2 (List.mem_map.2 ⟨_, this, rfl⟩)

/-- The decoration of terms asked for by the flag `lowercase`: the estimators' constructors (TfidfVectorizerFeaturizer.h
243–290) pass `ToLower` or no decorator at all to the document statistics. -/
def lowerDecorator (lowercase : Bool) : Option (Str → Str) :=
  if lowercase then some (fun t => ⟨toLower t.chars⟩) else none

theorem executeTokens_terms {F : Type} (c : DocConfig F) (lowercase : Bool)
    (hdec : c.decorator = lowerDecorator lowercase)
    (hregex : lowercase = true → ∀ f, c.text.regex = some f → ∀ s : Str, f ⟨toLower s.chars⟩ = f s) (doc : Str)
    (h : ∃ ts, c.text.tokens doc = .ok ts) : c.text.executeTokens lowercase doc = .ok (c.termsOf doc) := by
  obtain ⟨ts, hts⟩ := h
  unfold DocConfig.termsOf
  rw [hts, hdec]
  cases lowercase with
  | true =>
    rw [C54_same_terms c.text (hregex rfl), hts]
    rfl
  | false =>
    show c.text.tokens doc = _
    rw [hts]
    simp [lowerDecorator]

/-- What a vectorizer trained without a vocabulary of its own consists of: for the vocabulary `ks`, in increasing order, the
label of `ks[i]` is `i`, and its frequency is the number of documents that contain it. -/
theorem trained_vectorizer {F : Type} (it : IterOrder Str UInt32) (nth : NthElement) (fl : FloatOps F)
    (hfl : GoodRatio fl) (c : DocConfig F) (hc : c.check fl = .ok ()) (hk : ∀ k, c.topK = some k → k.toNat < 2 ^ 31)
    (hvoc : c.vocabulary = none) (norm : NormMethod) (binary useIdf smoothIdf sublinearTf lowercase : Bool)
    (col cap : Nat) (hcap : 0 < cap) (batches : List (List Str)) (hb : NoEmptyBatch batches)
    (maps : AnnotationMaps DocStats) (hcol : col < maps.length)
    (hnone : getAnnotation (fun _ => true) maps col "DocumentStatisticsEstimator" = .ok none)
    (hp : ∀ d ∈ batches.flatten.take cap, ∃ ts, c.text.tokens d = .ok ts)
    (hn : (batches.flatten.take cap).length < 2 ^ 32) :
    ∃ ks : List Str, ks.Pairwise (· < ·) ∧
      IsVocabulary (docFreq c (batches.flatten.take cap)) (WithinDf fl c (batches.flatten.take cap))
        (c.topK.map UInt32.toNat) ks ∧
      (ks = [] → trainEstimator (docStatsPolicy it nth fl c) (docStatsConfig col) cap ⟨UMap.empty, 0⟩ batches maps
          = (.error .invalidArgument, maps)) ∧
      (ks ≠ [] → ks.length < 2 ^ 32 → ∃ maps' labels freqs,
        trainEstimator (docStatsPolicy it nth fl c) (docStatsConfig col) cap ⟨UMap.empty, 0⟩ batches maps
          = (.ok (), maps') ∧
        makeTfidf norm binary useIdf smoothIdf sublinearTf lowercase c.text col maps' = .ok
          ⟨labels, freqs, UInt32.ofNat (batches.flatten.take cap).length, norm, binary, useIdf, smoothIdf, sublinearTf,
            lowercase, c.text⟩ ∧
        labels.size = ks.length ∧ (∀ w j, labels.find? w = some j ↔ ks[j.toNat]? = some w) ∧
        (∀ w, labels.find? w ≠ none ↔ w ∈ ks) ∧
        ∀ w ∈ ks, freqs.find? w = some (UInt32.ofNat (docFreq c (batches.flatten.take cap) w))) := by
  obtain ⟨vocab, index, ks, hv, hix, h1, h2⟩ := C44_document_statistics it nth fl hfl c hc hk col cap hcap batches hb maps
    hcol hnone hp hn
  have hksnd : ks.Nodup := hix.increasing.imp (fun h => ne_of_lt h)
  have hmem : ∀ t, t ∈ ks ↔ t ∈ vocab := by
    intro t
    rw [hix.newValues, hvoc]
    simp [UMap.find?, UMap.empty]
  have hperm : ks.Perm vocab := (List.perm_ext_iff_of_nodup hksnd hv.nodup).2 hmem
  refine ⟨ks, hix.increasing, isVocabulary_perm _ _ _ vocab ks hv hperm, ?_, ?_⟩
  · rintro rfl
    exact h1 hperm.nil_eq.symm
  · intro hne hlen
    obtain ⟨stats, maps', ht, hget, htot, hterms⟩ := h2 (by
      intro h
      rw [h] at hperm
      exact hne hperm.eq_nil)
    have hnumber : ∀ i (h : i < ks.length), index.find? ks[i] = some (UInt32.ofNat i) := by
      intro i h
      have := hix.numbered i h
      rw [hvoc] at this
      have e0 : (Option.getD (none : Option (UMap Str UInt32)) UMap.empty).size = 0 := rfl
      rw [e0, Nat.zero_add] at this
      have e : instDecidableEqStr = (fun a b : Str => LinearOrder.toDecidableEq a b) := Subsingleton.elim _ _
      rw [e]
      exact this
    -- the labels
    have hfind : ∀ w, stats.terms.find? w ≠ none ↔ w ∈ ks := by
      intro w
      constructor
      · intro h
        obtain ⟨fi, hfi⟩ := Option.ne_none_iff_exists'.1 h
        exact (hmem w).2 ((hterms w fi).1 hfi).1
      · intro h
        obtain ⟨i, hi, hie⟩ := List.getElem_of_mem h
        have hd : docFreq c (batches.flatten.take cap) w < 2 ^ 32 := Nat.lt_of_le_of_lt (docFreq_le c _ w) hn
        have := (hterms w ⟨UInt32.ofNat (docFreq c (batches.flatten.take cap) w), UInt32.ofNat i⟩).2
          ⟨(hmem w).1 h, UInt32.toNat_ofNat_of_lt' hd, by rw [← hie]; exact hnumber i hi⟩
        rw [this]; simp
    have hidx : ∀ w j, (stats.terms.find? w).map (·.index) = some j ↔ ks[j.toNat]? = some w := by
      intro w j
      constructor
      · intro h
        obtain ⟨fi, hfi, rfl⟩ := Option.map_eq_some_iff.1 h
        obtain ⟨i, hi, hie⟩ := List.getElem_of_mem ((hfind w).1 (by rw [hfi]; simp))
        have h3 := ((hterms w fi).1 hfi).2.2
        rw [← hie, hnumber i hi] at h3
        have h4 := Option.some.inj h3
        rw [← h4, UInt32.toNat_ofNat_of_lt' (Nat.lt_trans hi hlen), ← hie]
        exact List.getElem?_eq_getElem hi
      · intro h
        obtain ⟨hj, hje⟩ := List.getElem?_eq_some_iff.1 h
        have hw : w ∈ ks := by rw [← hje]; exact List.getElem_mem hj
        obtain ⟨fi, hfi⟩ := Option.ne_none_iff_exists'.1 ((hfind w).2 hw)
        rw [hfi]
        have h3 := ((hterms w fi).1 hfi).2.2
        rw [← hje, hnumber _ hj] at h3
        have h4 := Option.some.inj h3
        rw [UInt32.ofNat_toNat] at h4
        simp [h4]
    have hsize : stats.terms.size = ks.length := by
      have : (stats.terms.entries.map (·.1)).Perm ks := by
        refine (List.perm_ext_iff_of_nodup stats.terms.nodup hksnd).2 ?_
        intro w
        rw [← hfind, ne_eq, UMap.find?_eq_none]
        simp
      have := this.length_eq
      rw [List.length_map] at this
      exact this
    have hpos : 0 < ks.length := List.length_pos_iff.2 hne
    have hnd1 : ((stats.terms.entries.map fun e => (e.1, e.2.index)).map (·.1)).Nodup := by
      rw [List.map_map]; exact stats.terms.nodup
    have hnd2 : ((stats.terms.entries.map fun e => (e.1, e.2.freq)).map (·.1)).Nodup := by
      rw [List.map_map]; exact stats.terms.nodup
    have hmk : makeTfidf norm binary useIdf smoothIdf sublinearTf lowercase c.text col maps' = .ok
        ⟨⟨stats.terms.entries.map fun e => (e.1, e.2.index), hnd1⟩,
          ⟨stats.terms.entries.map fun e => (e.1, e.2.freq), hnd2⟩,
          UInt32.ofNat (batches.flatten.take cap).length, norm, binary, useIdf, smoothIdf, sublinearTf, lowercase,
          c.text⟩ := by
      have htot' : UInt32.ofNat (batches.flatten.take cap).length = stats.total := by
        rw [← UInt32.toNat_inj, UInt32.toNat_ofNat_of_lt' hn, htot]
      rw [htot']
      unfold makeTfidf
      rw [getAnnotationData, hget]
      simp only [mkTfidf, UMap.size, List.length_map]
      rw [if_neg (by show ¬ stats.terms.size = 0; omega), if_neg (by show ¬ stats.terms.size = 0; omega)]
    refine ⟨maps', _, _, ht, hmk, ?_, ?_, ?_, ?_⟩
    · unfold UMap.size
      rw [List.length_map]
      exact hsize
    · intro w j
      rw [map_find stats.terms (·.index) hnd1 w]
      exact hidx w j
    · intro w
      rw [map_find stats.terms (·.index) hnd1 w, ne_eq, Option.map_eq_none_iff, ← ne_eq, hfind]
    · intro w hw
      rw [map_find stats.terms (·.freq) hnd2 w]
      obtain ⟨fi, hfi⟩ := Option.ne_none_iff_exists'.1 ((hfind w).2 hw)
      rw [hfi, Option.map_some, Option.some.injEq, ← UInt32.toNat_inj,
        UInt32.toNat_ofNat_of_lt' (Nat.lt_of_le_of_lt (docFreq_le c _ w) hn)]
      exact ((hterms w fi).1 hfi).2.1

/-- **C45 (trained)** The count vectorizer trained on any batches without a vocabulary of its own: its vocabulary `ks`, in
increasing order, is as specified by `IsVocabulary` (C44); then for every document that can be parsed, with fewer than 2³¹
terms, it throws if no term is in `ks`, and otherwise yields a vector with one component per element of `ks` that has, at
each index `i` such that `ks[i]` is a term of the document, the number of its occurrences (as a `float`), or 1 in binary
mode, and nothing else.  `termsOf` is what the training counted, so this includes that training and execution agree. -/
theorem C45_trained {F : Type} (it : IterOrder Str UInt32) (nth : NthElement) (fl : FloatOps F)
    (hfl : GoodRatio fl) (c : DocConfig F) (hc : c.check fl = .ok ()) (hk : ∀ k, c.topK = some k → k.toNat < 2 ^ 31)
    (hvoc : c.vocabulary = none) (binary lowercase : Bool) (hdec : c.decorator = lowerDecorator lowercase)
    (hregex : lowercase = true → ∀ f, c.text.regex = some f → ∀ s : Str, f ⟨toLower s.chars⟩ = f s)
    (col cap : Nat) (hcap : 0 < cap) (batches : List (List Str)) (hb : NoEmptyBatch batches)
    (maps : AnnotationMaps DocStats) (hcol : col < maps.length)
    (hnone : getAnnotation (fun _ => true) maps col "DocumentStatisticsEstimator" = .ok none)
    (hp : ∀ d ∈ batches.flatten.take cap, ∃ ts, c.text.tokens d = .ok ts)
    (hn : (batches.flatten.take cap).length < 2 ^ 32) :
    ∃ ks : List Str, ks.Pairwise (· < ·) ∧
      IsVocabulary (docFreq c (batches.flatten.take cap)) (WithinDf fl c (batches.flatten.take cap))
        (c.topK.map UInt32.toNat) ks ∧
      (ks = [] → trainEstimator (docStatsPolicy it nth fl c) (docStatsConfig col) cap ⟨UMap.empty, 0⟩ batches maps
          = (.error .invalidArgument, maps)) ∧
      (ks ≠ [] → ks.length < 2 ^ 32 → ∃ maps' t,
        trainEstimator (docStatsPolicy it nth fl c) (docStatsConfig col) cap ⟨UMap.empty, 0⟩ batches maps
          = (.ok (), maps') ∧
        makeCountTfidf binary lowercase c.text col maps' = .ok t ∧
        ∀ doc, (∃ ts, c.text.tokens doc = .ok ts) → (c.termsOf doc).length < 2 ^ 31 →
          ((∀ w ∈ c.termsOf doc, w ∉ ks) → countExecute t doc = .error .invalidArgument) ∧
          ((∃ w ∈ c.termsOf doc, w ∈ ks) → ∃ v, countExecute t doc = .ok v ∧ v.numElements.toNat = ks.length ∧
            (v.values.Pairwise fun a b => a.index.toNat < b.index.toNat) ∧
            ∀ n i, ⟨n, i⟩ ∈ v.values ↔ ∃ w ∈ c.termsOf doc, ks[i.toNat]? = some w ∧
              n.toNat = if binary then 1 else roundFloat ((c.termsOf doc).count w))) := by
  obtain ⟨ks, hsort, hv, h1, h2⟩ := trained_vectorizer it nth fl hfl c hc hk hvoc .none binary false false false lowercase
    col cap hcap batches hb maps hcol hnone hp hn
  refine ⟨ks, hsort, hv, h1, ?_⟩
  intro hne hlen
  obtain ⟨maps', labels, freqs, ht, hmk, hls, hidx, hlabk, _⟩ := h2 hne hlen
  have hpos : 0 < ks.length := List.length_pos_iff.2 hne
  refine ⟨maps', _, ht, hmk, ?_⟩
  intro doc hdoc hshort
  have hts := executeTokens_terms c lowercase hdec hregex doc hdoc
  obtain ⟨x1, x2, x3⟩ := C45_exact ⟨labels, freqs, UInt32.ofNat (batches.flatten.take cap).length, .none, binary, false,
    false, false, lowercase, c.text⟩ rfl rfl rfl doc _ hts (by rw [hls]; exact hpos) (by rw [hls]; omega) hshort
  simp only [hls] at x1 x2 x3
  constructor
  · intro h
    apply x1
    intro w hw
    exact Decidable.byContradiction fun h' => h w hw ((hlabk w).1 h')
  · rintro ⟨w, hw, hwk⟩
    obtain ⟨v, y1, y2, y3, y4⟩ := x3 ⟨w, hw, (hlabk w).2 hwk⟩ (by
      intro a ha b hb h heq
      obtain ⟨j, hj⟩ := Option.ne_none_iff_exists'.1 h
      have ha' := (hidx a j).1 hj
      have hb' := (hidx b j).1 (heq ▸ hj)
      rw [ha'] at hb'
      exact Option.some.inj hb')
    refine ⟨v, y1, y2, y3, ?_⟩
    intro n i
    rw [y4]
    constructor
    · rintro ⟨w, hw, j, hj, hij, hn⟩
      refine ⟨w, hw, ?_, hn⟩
      rw [hij]
      exact (hidx w j).1 hj
    · rintro ⟨w, hw, hi, hn⟩
      have hlt := (List.getElem?_eq_some_iff.1 hi).1
      have hi' : (UInt32.ofNat i.toNat).toNat = i.toNat := UInt32.toNat_ofNat_of_lt' (Nat.lt_trans hlt hlen)
      refine ⟨w, hw, UInt32.ofNat i.toNat, (hidx _ _).2 (by rw [hi']; exact hi), hi'.symm, hn⟩

/-- **C54 (training documents)** Without bounds on the frequency, a limit or a vocabulary, a document of the training data
that has a term never makes the trained count vectorizer throw: the vector has an entry for each of its terms. -/
theorem C54_training_documents {F : Type} (it : IterOrder Str UInt32) (nth : NthElement) (fl : FloatOps F)
    (hfl : GoodRatio fl) (c : DocConfig F) (hc : c.check fl = .ok ()) (hk : c.topK = none)
    (hmin : c.minDf = fl.zero) (hmax : c.maxDf = fl.one)
    (hvoc : c.vocabulary = none) (binary lowercase : Bool) (hdec : c.decorator = lowerDecorator lowercase)
    (hregex : lowercase = true → ∀ f, c.text.regex = some f → ∀ s : Str, f ⟨toLower s.chars⟩ = f s)
    (col cap : Nat) (hcap : 0 < cap) (batches : List (List Str)) (hb : NoEmptyBatch batches)
    (maps : AnnotationMaps DocStats) (hcol : col < maps.length)
    (hnone : getAnnotation (fun _ => true) maps col "DocumentStatisticsEstimator" = .ok none)
    (hp : ∀ d ∈ batches.flatten.take cap, ∃ ts, c.text.tokens d = .ok ts)
    (hn : (batches.flatten.take cap).length < 2 ^ 32)
    (hsmall : ((batches.flatten.take cap).flatMap c.termsOf).length < 2 ^ 31)
    (doc : Str) (hdoc : doc ∈ batches.flatten.take cap) (hterm : c.termsOf doc ≠ []) :
    ∃ maps' t v,
      trainEstimator (docStatsPolicy it nth fl c) (docStatsConfig col) cap ⟨UMap.empty, 0⟩ batches maps = (.ok (), maps') ∧
      makeCountTfidf binary lowercase c.text col maps' = .ok t ∧ countExecute t doc = .ok v ∧
      ∀ w ∈ c.termsOf doc, ∃ x ∈ v.values, x.value.toNat = if binary then 1 else roundFloat ((c.termsOf doc).count w) := by
  obtain ⟨ks, hsort, hv, _, h⟩ := C45_trained it nth fl hfl c hc (by intro k h; rw [hk] at h; cases h) hvoc binary
    lowercase hdec hregex col cap hcap batches hb maps hcol hnone hp hn
  generalize batches.flatten.take cap = docs at *
  have hall : ∀ w ∈ c.termsOf doc, w ∈ ks := by
    intro w hw
    apply Decidable.byContradiction
    intro hnot
    have hd : 1 ≤ docFreq c docs w := by
      unfold docFreq
      exact List.countP_pos_iff.2 ⟨doc, hdoc, by simpa using hw⟩
    obtain ⟨k, hk', _⟩ := hv.dropped w hd (by
      unfold WithinDf
      have hf := (check_facts fl c hc).2
      rw [hmin, hmax] at hf ⊢
      have hle := docFreq_le c docs w
      have hr := hfl (UInt32.ofNat (docFreq c docs w)) (UInt32.ofNat docs.length) (by rw [UInt32.toNat_ofNat_of_lt' hn]; omega)
        (by rw [UInt32.toNat_ofNat_of_lt' hn, UInt32.toNat_ofNat_of_lt' (Nat.lt_of_le_of_lt hle hn)]; exact hle)
      exact ⟨hr.1 _ hf.1, hr.2 _ hf.2⟩) hnot
    rw [hk] at hk'
    cases hk'
  obtain ⟨w₀, hw₀⟩ := List.exists_mem_of_ne_nil _ hterm
  have hsub : ∀ x ∈ ks, x ∈ docs.flatMap c.termsOf := by
    intro x hx
    have := (hv.only x hx).1
    unfold docFreq at this
    obtain ⟨d, hd, hxd⟩ := List.countP_pos_iff.1 this
    exact List.mem_flatMap.2 ⟨d, hd, by simpa using hxd⟩
  have hklen : ks.length ≤ (docs.flatMap c.termsOf).length :=
    (List.subperm_of_subset (hsort.imp (fun h => ne_of_lt h)) hsub).length_le
  have hdlen : (c.termsOf doc).length ≤ (docs.flatMap c.termsOf).length := by
    obtain ⟨pre, post, rfl⟩ := List.append_of_mem hdoc
    rw [List.flatMap_append, List.flatMap_cons, List.length_append, List.length_append]
    omega
  obtain ⟨maps', t, h1, h2, h3⟩ := h (List.ne_nil_of_mem (hall _ hw₀)) (by omega)
  obtain ⟨v, h4, _, _, h5⟩ := (h3 doc (hp doc hdoc) (by omega)).2 ⟨w₀, hw₀, hall _ hw₀⟩
  refine ⟨maps', t, v, h1, h2, h4, ?_⟩
  intro w hw
  obtain ⟨i, hi, hie⟩ := List.getElem_of_mem (hall w hw)
  have hi' : (UInt64.ofNat i).toNat = i := UInt64.toNat_ofNat_of_lt' (show i < 2 ^ 64 by omega)
  have hcl : (c.termsOf doc).count w < 2 ^ 31 := Nat.lt_of_le_of_lt List.count_le_length (by omega)
  have hb' : (if binary then 1 else roundFloat ((c.termsOf doc).count w)) < 2 ^ 32 := by
    split
    · decide
    · exact roundFloat_lt _ hcl
  refine ⟨_, (h5 (UInt32.ofNat (if binary then 1 else roundFloat ((c.termsOf doc).count w))) (UInt64.ofNat i)).2
    ⟨w, hw, ?_, UInt32.toNat_ofNat_of_lt' hb'⟩, UInt32.toNat_ofNat_of_lt' hb'⟩
  rw [hi', ← hie]
  exact List.getElem?_eq_getElem hi

/-! ### A concrete case -/

/-- Labels "a" ↦ 1, "b" ↦ 0; words in lower case. -/
private def sampleTf : Tfidf :=
  ⟨⟨[(⟨[97]⟩, 1), (⟨[98]⟩, 0)], by decide⟩, ⟨[(⟨[97]⟩, 1), (⟨[98]⟩, 1)], by decide⟩, 1, .none, false, false, false, false,
    true, ⟨.word, none, 1, 1⟩⟩

/-- "A b x a" has "b" once and "a" twice. -/
example : sampleTf.text.executeTokens sampleTf.lowercase ⟨[65, 32, 98, 32, 120, 32, 97]⟩
      = .ok [⟨[97]⟩, ⟨[98]⟩, ⟨[120]⟩, ⟨[97]⟩] ∧
    (countExecute sampleTf ⟨[65, 32, 98, 32, 120, 32, 97]⟩).toOption.map (·.values) = some [⟨1, 0⟩, ⟨2, 1⟩] ∧
    (countExecute sampleTf ⟨[120]⟩).toOption.isNone = true := ⟨rfl, by decide +kernel, by decide +kernel⟩

end Feat
