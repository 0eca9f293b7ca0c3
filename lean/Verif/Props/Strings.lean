import Verif.Model.Strings
/-
C41: splitting and trimming. C42: word n-grams. C43: character n-grams.
-/
namespace Feat
variable {A : Type}

/-! ### Specification -/

/-- The character at position `k` exists and satisfies / does not satisfy the predicate. -/
def SepAt (p : A → Bool) (s : List A) (k : Nat) : Prop := ∃ c, s[k]? = some c ∧ p c = true
def CharAt (p : A → Bool) (s : List A) (k : Nat) : Prop := ∃ c, s[k]? = some c ∧ p c = false

/-- `[i, j)` is a maximal non-empty run of characters that are no separators. -/
structure MaxRun (p : A → Bool) (s : List A) (i j : Nat) : Prop where
  nonempty : i < j
  inside : ∀ k, i ≤ k → k < j → CharAt p s k
  left : i = 0 ∨ SepAt p s (i - 1)
  right : j = s.length ∨ SepAt p s j

/-! ### C41 -/

private theorem sep_not_char {p : A → Bool} {s : List A} {k : Nat} (h1 : SepAt p s k) (h2 : CharAt p s k) : False := by
  obtain ⟨c, hc, hp⟩ := h1
  obtain ⟨d, hd, hq⟩ := h2
  rw [hc] at hd
  cases hd
  rw [hp] at hq
  cases hq

private theorem char_lt {p : A → Bool} {s : List A} {k : Nat} (h : CharAt p s k) : k < s.length := by
  obtain ⟨c, hc, _⟩ := h
  exact (List.getElem?_eq_some_iff.1 hc).1

private theorem sep_lt {p : A → Bool} {s : List A} {k : Nat} (h : SepAt p s k) : k < s.length := by
  obtain ⟨c, hc, _⟩ := h
  exact (List.getElem?_eq_some_iff.1 hc).1

private theorem at_append (pre cs : List A) (c : A) : (pre ++ c :: cs)[pre.length]? = some c := by simp

private theorem parse_spec (p : A → Bool) (s : List A) (cs : List A) :
    (∀ pre left r, s = pre ++ cs → pre.length = left → (left = 0 ∨ SepAt p s (left - 1)) →
      ∀ i j, (i, j) ∈ parseFrom p true cs left r ↔ MaxRun p s i j ∧ left ≤ i) ∧
    (∀ pre left right, s = pre ++ cs → pre.length = right → left < right → (∀ k, left ≤ k → k < right → CharAt p s k) →
      (left = 0 ∨ SepAt p s (left - 1)) →
      ∀ i j, (i, j) ∈ parseFrom p false cs left right ↔ MaxRun p s i j ∧ left ≤ i) := by
  induction cs with
  | nil =>
    constructor
    · intro pre left r hs hl _ i j
      simp only [parseFrom, List.not_mem_nil, false_iff, not_and]
      intro h hle
      have h1 := char_lt (h.inside i (Nat.le_refl _) h.nonempty)
      rw [hs, List.append_nil] at h1
      omega
    · intro pre left right hs hr hlt hch hle i j
      rw [List.append_nil] at hs
      have hlen : s.length = right := by rw [hs]; exact hr
      simp only [parseFrom]
      rw [if_pos (by omega), List.mem_singleton]
      constructor
      · intro h
        cases h
        exact ⟨⟨hlt, hch, hle, .inl hlen.symm⟩, Nat.le_refl _⟩
      · rintro ⟨h, hi⟩
        have hj : j ≤ right := by
          have := char_lt (h.inside (j - 1) (by have := h.nonempty; omega) (by have := h.nonempty; omega))
          omega
        have hil : i = left := by
          rcases Nat.lt_or_eq_of_le hi with h1 | h1
          · rcases h.left with h2 | h2
            · omega
            · have hn := h.nonempty
              exact absurd (hch (i - 1) (by omega) (by omega)) (fun h3 => sep_not_char h2 h3)
          · exact h1.symm
        have hjr : j = right := by
          rcases h.right with h1 | h1
          · omega
          · have := sep_lt h1
            have hn := h.nonempty
            exact absurd (hch j (by omega) (by omega)) (fun h3 => sep_not_char h1 h3)
        rw [hil, hjr]
  | cons c cs ih =>
    obtain ⟨ih1, ih2⟩ := ih
    constructor
    · intro pre left r hs hl hle i j
      have hat : s[left]? = some c := by rw [hs, ← hl]; exact at_append pre cs c
      simp only [parseFrom]
      by_cases hp : p c
      · rw [if_pos hp]
        have hsep : SepAt p s left := ⟨c, hat, hp⟩
        rw [ih1 (pre ++ [c]) (left + 1) (left + 1) (by rw [hs]; simp) (by simp [hl]) (.inr hsep) i j]
        constructor
        · rintro ⟨h, hi⟩
          exact ⟨h, by omega⟩
        · rintro ⟨h, hi⟩
          refine ⟨h, ?_⟩
          rcases Nat.lt_or_eq_of_le hi with h1 | h1
          · omega
          · subst h1
            exact absurd (h.inside left (Nat.le_refl _) h.nonempty) (fun h3 => sep_not_char hsep h3)
      · rw [if_neg hp]
        have hch : CharAt p s left := ⟨c, hat, by simpa using hp⟩
        exact ih2 (pre ++ [c]) left (left + 1) (by rw [hs]; simp) (by simp [hl]) (by omega)
          (fun k h1 h2 => by
            have : k = left := by omega
            rw [this]; exact hch) hle i j
    · intro pre left right hs hr hlt hch hle i j
      have hat : s[right]? = some c := by rw [hs, ← hr]; exact at_append pre cs c
      simp only [parseFrom]
      by_cases hp : p c
      · rw [if_pos hp, List.mem_cons]
        have hsep : SepAt p s right := ⟨c, hat, hp⟩
        rw [ih1 (pre ++ [c]) (right + 1) (right + 1) (by rw [hs]; simp) (by simp [hr]) (.inr hsep) i j]
        constructor
        · rintro (h | ⟨h, hi⟩)
          · cases h
            exact ⟨⟨hlt, hch, hle, .inr hsep⟩, Nat.le_refl _⟩
          · exact ⟨h, by omega⟩
        · rintro ⟨h, hi⟩
          have hn := h.nonempty
          by_cases hil : i = left
          · left
            subst hil
            have hjr : j = right := by
              rcases Nat.lt_trichotomy j right with h1 | h1 | h1
              · rcases h.right with h2 | h2
                · have := sep_lt hsep; omega
                · exact absurd (hch j (by omega) h1) (fun h3 => sep_not_char h2 h3)
              · exact h1
              · exact absurd (h.inside right (by omega) h1) (fun h3 => sep_not_char hsep h3)
            rw [hjr]
          · right
            refine ⟨h, ?_⟩
            have hne : i ≠ right := by
              rintro rfl
              exact sep_not_char hsep (h.inside _ (Nat.le_refl _) hn)
            have hge : ¬ i < right := by
              intro h1
              rcases h.left with h2 | h2
              · omega
              · exact sep_not_char h2 (hch (i - 1) (by omega) (by omega))
            omega
      · rw [if_neg hp]
        have hc : CharAt p s right := ⟨c, hat, by simpa using hp⟩
        exact ih2 (pre ++ [c]) left (right + 1) (by rw [hs]; simp) (by simp [hr]) (by omega)
          (fun k h1 h2 => by
            by_cases h3 : k = right
            · rw [h3]; exact hc
            · exact hch k h1 (by omega)) hle i j

private theorem parse_sorted (p : A → Bool) (cs : List A) :
    (∀ left r, (parseFrom p true cs left r).Pairwise (fun a b => a.2 < b.1) ∧
      ∀ a ∈ parseFrom p true cs left r, left ≤ a.1) ∧
    (∀ left right, left ≤ right → (parseFrom p false cs left right).Pairwise (fun a b => a.2 < b.1) ∧
      ∀ a ∈ parseFrom p false cs left right, left ≤ a.1) := by
  induction cs with
  | nil =>
    constructor
    · intro left r; simp [parseFrom]
    · intro left right h
      simp only [parseFrom]
      split <;> simp
  | cons c cs ih =>
    obtain ⟨i1, i2⟩ := ih
    constructor
    · intro left r
      simp only [parseFrom]
      split
      · obtain ⟨h1, h2⟩ := i1 (left + 1) (left + 1)
        exact ⟨h1, fun a ha => by have := h2 a ha; omega⟩
      · exact i2 left (left + 1) (by omega)
    · intro left right h
      simp only [parseFrom]
      split
      · obtain ⟨h1, h2⟩ := i1 (right + 1) (right + 1)
        refine ⟨List.pairwise_cons.2 ⟨fun a ha => by have := h2 a ha; simp only; omega, h1⟩, ?_⟩
        intro a ha
        rcases List.mem_cons.1 ha with rfl | ha
        · exact Nat.le_refl _
        · have := h2 a ha; omega
      · exact i2 left (right + 1) (by omega)

/-- **C41 (splitting).**  For any string and predicate, what is passed to the callback are exactly the maximal runs of
non-separators, from left to right. -/
theorem C41_split (p : A → Bool) (s : List A) :
    (∀ i j, (i, j) ∈ parseWords p s ↔ MaxRun p s i j) ∧ (parseWords p s).Pairwise (fun a b => a.2 < b.1) := by
  refine ⟨fun i j => ?_, ((parse_sorted p s).1 0 0).1⟩
  have := (parse_spec p s s).1 [] 0 0 rfl rfl (.inl rfl) i j
  simpa [parseWords] using this

/-- **C41 (the words).**  No word is empty, none contains a separator, and joining the words gives all non-separators of
the string in order. -/
theorem C41_words (p : A → Bool) (s : List A) :
    (∀ w ∈ (parseWords p s).map (between s), w ≠ [] ∧ ∀ c ∈ w, p c = false) ∧
    ((parseWords p s).map (between s)).flatten = s.filter (fun c => !p c) := by
  constructor
  · intro w hw
    obtain ⟨⟨i, j⟩, hm, rfl⟩ := List.mem_map.1 hw
    have h := ((C41_split p s).1 i j).1 hm
    have hj : j ≤ s.length := by
      have := char_lt (h.inside (j - 1) (by have := h.nonempty; omega) (by have := h.nonempty; omega))
      omega
    have hlen : (between s (i, j)).length = j - i := by
      simp only [between, List.length_drop, List.length_take]; omega
    refine ⟨fun he => ?_, fun c hc => ?_⟩
    · rw [he] at hlen
      have := h.nonempty
      simp only [List.length_nil] at hlen
      omega
    · obtain ⟨k, hk, hke⟩ := List.getElem_of_mem hc
      have hks : (between s (i, j))[k]? = some c := by rw [List.getElem?_eq_getElem hk, hke]
      simp only [between, List.getElem?_drop, List.getElem?_take] at hks
      rw [hlen] at hk
      rw [if_pos (by omega)] at hks
      obtain ⟨d, hd, hp⟩ := h.inside (i + k) (by omega) (by omega)
      rw [hks] at hd
      cases hd
      exact hp
  · -- joining
    have key : ∀ cs : List A,
        (∀ pre left r, s = pre ++ cs → pre.length = left →
          ((parseFrom p true cs left r).map (between s)).flatten = cs.filter (fun c => !p c)) ∧
        (∀ pre left right, s = pre ++ cs → pre.length = right → left < right →
          ((parseFrom p false cs left right).map (between s)).flatten
            = between s (left, right) ++ cs.filter (fun c => !p c)) := by
      intro cs
      induction cs with
      | nil =>
        constructor
        · intro pre left r _ _; simp [parseFrom]
        · intro pre left right _ _ hlt
          simp only [parseFrom]
          rw [if_pos (by omega)]
          simp
      | cons c cs ih =>
        obtain ⟨i1, i2⟩ := ih
        have hnext : ∀ pre : List A, ∀ left right, s = pre ++ c :: cs → pre.length = right → left ≤ right →
            between s (left, right + 1) = between s (left, right) ++ [c] := by
          intro pre left right hs hr hle
          have h1 : s.take (right + 1) = s.take right ++ [c] := by
            rw [List.take_add_one, hs, ← hr, at_append]
            rfl
          simp only [between, h1]
          rw [List.drop_append_of_le_length (by
            rw [List.length_take, hs, List.length_append]; omega)]
        constructor
        · intro pre left r hs hl
          simp only [parseFrom]
          by_cases hp : p c
          · rw [if_pos hp, i1 (pre ++ [c]) _ _ (by rw [hs]; simp) (by simp [hl])]
            simp [hp]
          · rw [if_neg hp, i2 (pre ++ [c]) _ _ (by rw [hs]; simp) (by simp [hl]) (by omega),
              hnext pre left left hs hl (Nat.le_refl _)]
            have : between s (left, left) = [] := by
              simp [between]
            simp [hp, this]
        · intro pre left right hs hr hlt
          simp only [parseFrom]
          by_cases hp : p c
          · rw [if_pos hp, List.map_cons, List.flatten_cons,
              i1 (pre ++ [c]) _ _ (by rw [hs]; simp) (by simp [hr])]
            simp [hp]
          · rw [if_neg hp, i2 (pre ++ [c]) _ _ (by rw [hs]; simp) (by simp [hr]) (by omega),
              hnext pre left right hs hr (by omega)]
            simp [hp]
    exact (key s).1 [] 0 0 rfl rfl

/-- **C41 (trimming).**  `TrimLeft`, `TrimRight` and `Trim` remove exactly the leading / trailing / leading and trailing
characters satisfying the predicate. -/
theorem C41_trim (p : A → Bool) (s : List A) :
    (∃ pre, s = pre ++ trimLeft p s ∧ (∀ c ∈ pre, p c) ∧ ∀ c, (trimLeft p s).head? = some c → p c = false) ∧
    (∃ post, s = trimRight p s ++ post ∧ (∀ c ∈ post, p c) ∧ ∀ c, (trimRight p s).getLast? = some c → p c = false) ∧
    (∃ pre post, s = pre ++ trim p s ++ post ∧ (∀ c ∈ pre, p c) ∧ (∀ c ∈ post, p c) ∧
      (∀ c, (trim p s).head? = some c → p c = false) ∧ ∀ c, (trim p s).getLast? = some c → p c = false) := by
  have hL : ∀ s : List A, trimLeft p s = s.dropWhile p ∧ s = s.takeWhile p ++ trimLeft p s := by
    intro s
    have h1 : trimLeft p s = s.dropWhile p := by
      unfold trimLeft
      induction s with
      | nil => rfl
      | cons c cs ih =>
        by_cases hp : p c
        · simp [List.findIdx_cons, hp, ih]
        · simp [List.findIdx_cons, hp]
    exact ⟨h1, by rw [h1, List.takeWhile_append_dropWhile]⟩
  have hR : ∀ s : List A, trimRight p s = (trimLeft p s.reverse).reverse := by
    intro s
    unfold trimRight trimLeft
    rw [List.drop_reverse, List.reverse_reverse]
  have hleft : ∀ s : List A, (∃ pre, s = pre ++ trimLeft p s ∧ (∀ c ∈ pre, p c) ∧
      ∀ c, (trimLeft p s).head? = some c → p c = false) := by
    intro s
    refine ⟨s.takeWhile p, (hL s).2, fun c hc => ?_, fun c hc => ?_⟩
    · have := List.all_takeWhile (p := p) (l := s)
      rw [List.all_eq_true] at this
      exact this c hc
    · rw [(hL s).1] at hc
      have := List.head?_dropWhile_not p s
      rw [hc] at this
      simpa using this
  have hright : ∀ s : List A, (∃ post, s = trimRight p s ++ post ∧ (∀ c ∈ post, p c) ∧
      ∀ c, (trimRight p s).getLast? = some c → p c = false) := by
    intro s
    obtain ⟨pre, h1, h2, h3⟩ := hleft s.reverse
    refine ⟨pre.reverse, ?_, fun c hc => h2 c (List.mem_reverse.1 hc), fun c hc => ?_⟩
    · rw [hR, ← List.reverse_append, ← h1, List.reverse_reverse]
    · rw [hR, List.getLast?_reverse] at hc
      exact h3 c hc
  refine ⟨hleft s, hright s, ?_⟩
  obtain ⟨pre, h1, h2, h3⟩ := hleft s
  obtain ⟨post, h4, h5, h6⟩ := hright (trimLeft p s)
  refine ⟨pre, post, ?_, h2, h5, fun c hc => ?_, h6⟩
  · unfold trim
    rw [List.append_assoc, ← h4]
    exact h1
  · apply h3
    rw [h4]
    unfold trim at hc
    rcases hT : trimRight p (trimLeft p s) with _ | ⟨d, l⟩
    · rw [hT] at hc; cases hc
    · rw [hT] at hc
      rw [← hc]
      rfl

/-! ### C42 -/

/-- All runs of `n` consecutive elements, from left to right. -/
def windows (n : Nat) (l : List A) : List (List A) := (List.range (l.length + 1 - n)).map fun i => (l.drop i).take n

/-- `windows n l` are exactly the contiguous parts of `l` with `n` elements. -/
theorem mem_windows (n : Nat) (l w : List A) (hn : n ≤ l.length) : w ∈ windows n l ↔ w <:+: l ∧ w.length = n := by
  unfold windows
  rw [List.mem_map]
  constructor
  · rintro ⟨i, hi, rfl⟩
    rw [List.mem_range] at hi
    refine ⟨(List.take_prefix _ _).isInfix.trans (List.drop_suffix _ _).isInfix, ?_⟩
    rw [List.length_take, List.length_drop]
    omega
  · rintro ⟨⟨a, b, rfl⟩, rfl⟩
    refine ⟨a.length, ?_, ?_⟩
    · rw [List.mem_range]
      simp only [List.length_append]
      omega
    · rw [List.append_assoc, List.drop_left, List.take_left]

/-- The part of the text from the beginning of the first to the end of the last of some words. -/
def spanOf (ws : List (Nat × Nat)) : Nat × Nat := ((ws.head?.getD (0, 0)).1, (ws.getLast?.getD (0, 0)).2)

/-- **C42 (word n-grams).**  For any text and range: with no word, or a range that is empty, starts at zero or exceeds the
number of words, `invalid_argument` is thrown; otherwise the callback gets, for every size in the range in turn, all
runs of that many consecutive words, from left to right, each from its first word's beginning to its last word's end. -/
theorem C42_word_ngrams (p : A → Bool) (lo hi : Nat) (s : List A) :
    (parseNgramWord p lo hi s = .error .invalidArgument ↔
      (parseWords p s = [] ∨ lo = 0 ∨ hi < lo ∨ (parseWords p s).length < hi)) ∧
    (1 ≤ lo → lo ≤ hi → hi ≤ (parseWords p s).length →
      parseNgramWord p lo hi s
        = .ok ((List.range' lo (hi + 1 - lo)).flatMap fun n => (windows n (parseWords p s)).map spanOf)) := by
  unfold parseNgramWord
  generalize parseWords p s = W
  constructor
  · simp only
    by_cases h0 : W.length = 0
    · rw [if_pos h0]
      simp [List.length_eq_zero_iff.1 h0]
    · rw [if_neg h0]
      by_cases h1 : lo < 1 ∨ lo > hi ∨ hi > W.length
      · rw [if_pos h1]
        simp only [true_iff]
        omega
      · rw [if_neg h1]
        simp only [reduceCtorEq, false_iff, not_or]
        refine ⟨fun h => h0 (by rw [h]; rfl), ?_, ?_, ?_⟩ <;> omega
  · intro h1 h2 h3
    simp only
    rw [if_neg (by omega), if_neg (by omega)]
    congr 1
    rw [List.flatMap_def, List.flatMap_def]
    congr 1
    apply List.map_congr_left
    intro n hn
    rw [List.mem_range'_1] at hn
    unfold windows
    rw [List.map_map, show W.length - n + 1 = W.length + 1 - n by omega]
    apply List.map_congr_left
    intro i hi'
    rw [List.mem_range] at hi'
    have hlen : ((W.drop i).take n).length = n := by rw [List.length_take, List.length_drop]; omega
    simp only [Function.comp, spanOf]
    congr 1
    · rw [List.head?_take, if_neg (by omega), List.head?_drop, List.getD_eq_getElem?_getD]
    · rw [List.getLast?_eq_getElem?, hlen, List.getElem?_take, if_pos (by omega), List.getElem?_drop,
        List.getD_eq_getElem?_getD, show i + n - 1 = i + (n - 1) by omega]

/-! ### C43 -/

private theorem firstNgram_range (size off lo : Nat) (cnt : Nat) (hc : 0 < cnt) :
    firstNgram size off (List.range' lo cnt) = if off + lo < size then [(off, off + lo)] else [] := by
  induction cnt generalizing lo with
  | zero => omega
  | succ cnt ih =>
    rw [List.range'_succ]
    simp only [firstNgram]
    split
    · rfl
    · rcases Nat.eq_zero_or_pos cnt with h | h
      · subst h; simp [firstNgram]
      · rw [ih (lo + 1) h, if_neg (by omega)]

/-- What the helper yields: the substrings of the *smallest* length only. -/
theorem ngramCharHelper_eq (a b lo hi : Nat) (h1 : lo ≤ hi) :
    ngramCharHelper a b lo hi = (List.range (b - a + 1 - lo)).map fun i => (a + i, a + i + lo) := by
  unfold ngramCharHelper
  have hfm : ∀ m : Nat, (List.range m).flatMap (fun off => firstNgram (b - a + 1) off (List.range' lo (hi + 1 - lo)))
      = (List.range (min m (b - a + 1 - lo))).map fun i => (i, i + lo) := by
    intro m
    induction m with
    | zero => simp
    | succ m ih =>
      rw [List.range_succ, List.flatMap_append, ih, List.flatMap_singleton, firstNgram_range _ _ _ _ (by omega)]
      by_cases h : m + lo < b - a + 1
      · rw [if_pos h, show min (m + 1) (b - a + 1 - lo) = min m (b - a + 1 - lo) + 1 by omega, List.range_succ,
          List.map_append]
        congr 1
        simp only [List.map_cons, List.map_nil, List.cons.injEq, Prod.mk.injEq, and_true]
        omega
      · rw [if_neg h, show min (m + 1) (b - a + 1 - lo) = min m (b - a + 1 - lo) by omega, List.append_nil]
  rw [hfm, List.map_map, show min (b - a + 1) (b - a + 1 - lo) = b - a + 1 - lo by omega]
  apply List.map_congr_left
  intro i _
  show (a + i, a + (i + lo)) = (a + i, a + i + lo)
  rw [Nat.add_assoc]

/-- **C43 (exact).**  Character n-gram parsing rejects ranges that are empty, start at zero or exceed the length of the
text; otherwise it yields exactly all substrings of the *smallest* requested length, from left to right. -/
theorem C43_exact (lo hi : Nat) (s : List A) :
    (parseNgramChar lo hi s = .error .invalidArgument ↔ (lo = 0 ∨ hi < lo ∨ s.length < hi)) ∧
    (1 ≤ lo → lo ≤ hi → hi ≤ s.length →
      ∃ rs, parseNgramChar lo hi s = .ok rs ∧ rs.map (between s) = windows lo s) := by
  unfold parseNgramChar
  constructor
  · by_cases h : lo < 1 ∨ lo > hi ∨ hi > s.length
    · rw [if_pos h]
      simp only [true_iff]
      omega
    · rw [if_neg h]
      simp only [reduceCtorEq, false_iff]
      omega
  · intro h1 h2 h3
    rw [if_neg (by omega)]
    refine ⟨_, rfl, ?_⟩
    rw [ngramCharHelper_eq _ _ _ _ h2, List.map_map]
    unfold windows
    rw [Nat.sub_zero]
    apply List.map_congr_left
    intro i hi'
    simp only [Function.comp, between, Nat.zero_add]
    rw [List.drop_take]
    congr 1
    omega

/-- **C43 (partial: one length).**  When only one length is requested, exactly all substrings of that length are yielded. -/
theorem C43_char_ngrams_partial (n : Nat) (s : List A) (h1 : 1 ≤ n) (h2 : n ≤ s.length) :
    ∃ rs, parseNgramChar n n s = .ok rs ∧ ∀ w, w ∈ rs.map (between s) ↔ w <:+: s ∧ w.length = n := by
  obtain ⟨rs, h3, h4⟩ := (C43_exact n n s).2 h1 (Nat.le_refl _) h2
  exact ⟨rs, h3, fun w => by rw [h4, mem_windows n s w h2]⟩

/-- **C43 is false for every range of more than one length**: no substring of a longer length is ever yielded, although
there always is one. -/
theorem C43_longer_never (lo hi : Nat) (s : List A) (h1 : 1 ≤ lo) (h2 : lo < hi) (h3 : hi ≤ s.length) :
    ∃ rs, parseNgramChar lo hi s = .ok rs ∧ (∀ w ∈ rs.map (between s), w.length = lo) ∧
      ∃ w, w <:+: s ∧ w.length = hi ∧ w ∉ rs.map (between s) := by
  obtain ⟨rs, h4, h5⟩ := (C43_exact lo hi s).2 h1 (Nat.le_of_lt h2) h3
  have hall : ∀ w ∈ rs.map (between s), w.length = lo := by
    intro w hw
    rw [h5, mem_windows lo s w (by omega)] at hw
    exact hw.2
  refine ⟨rs, h4, hall, s.take hi, (List.take_prefix _ _).isInfix, by rw [List.length_take]; omega, fun hw => ?_⟩
  have := hall _ hw
  rw [List.length_take] at this
  omega

/-! Character n-grams within word bounds. -/

private theorem separators_spec (p : A → Bool) (s cs : List A) : ∀ pre : List A, s = pre ++ cs →
    (separators p cs pre.length).Pairwise (fun a b => a.1 < b.1) ∧
    ∀ k k', (k, k') ∈ separators p cs pre.length ↔ (SepAt p s k ∧ pre.length ≤ k ∧ k' = k + 1) := by
  induction cs with
  | nil =>
    intro pre hs
    refine ⟨by simp [separators], fun k k' => ?_⟩
    simp only [separators, List.not_mem_nil, false_iff, not_and]
    intro h1 h2
    have := sep_lt h1
    rw [hs, List.append_nil] at this
    omega
  | cons c cs ih =>
    intro pre hs
    obtain ⟨i1, i2⟩ := ih (pre ++ [c]) (by rw [hs]; simp)
    have hat : s[pre.length]? = some c := by rw [hs]; exact at_append pre cs c
    rw [List.length_append, List.length_singleton] at i1 i2
    simp only [separators]
    by_cases hp : p c
    · rw [if_pos hp]
      refine ⟨List.pairwise_cons.2 ⟨fun a ha => ?_, i1⟩, fun k k' => ?_⟩
      · have := ((i2 a.1 a.2).1 ha).2.1
        simp only
        omega
      · rw [List.mem_cons, i2]
        constructor
        · rintro (h | ⟨h1, h2, h3⟩)
          · cases h
            exact ⟨⟨c, hat, hp⟩, Nat.le_refl _, rfl⟩
          · exact ⟨h1, by omega, h3⟩
        · rintro ⟨h1, h2, h3⟩
          by_cases hk : k = pre.length
          · left; rw [h3, hk]
          · right; exact ⟨h1, by omega, h3⟩
    · rw [if_neg hp]
      refine ⟨i1, fun k k' => ?_⟩
      rw [i2]
      constructor
      · rintro ⟨h1, h2, h3⟩
        exact ⟨h1, by omega, h3⟩
      · rintro ⟨h1, h2, h3⟩
        refine ⟨h1, ?_, h3⟩
        by_cases hk : k = pre.length
        · subst hk
          obtain ⟨d, hd, hpd⟩ := h1
          rw [hat] at hd
          cases hd
          exact absurd hpd hp
        · omega

/-- **C43 (within word bounds).**  If the text has a separator and the range is valid, the substrings yielded are exactly
those of the *smallest* length lying between two neighbouring separators, these included. -/
theorem C43_within_bounds (p : A → Bool) (lo hi : Nat) (s : List A) (h1 : 1 ≤ lo) (h2 : lo ≤ hi)
    (hsep : ∃ k, SepAt p s k) :
    ∃ rs, parseNgramCharwb p lo hi s = .ok rs ∧ ∀ i j, (i, j) ∈ rs ↔
      j = i + lo ∧ ∃ a b, a < b ∧ SepAt p s a ∧ SepAt p s b ∧ (∀ k, a < k → k < b → ¬ SepAt p s k) ∧ a ≤ i ∧ j ≤ b + 1 := by
  obtain ⟨s1, s2⟩ := separators_spec p s s [] rfl
  simp only [List.length_nil, Nat.zero_le, true_and] at s1 s2
  unfold parseNgramCharwb
  simp only
  generalize separators p s 0 = S at *
  have hS : S.length ≠ 0 := by
    intro h
    obtain ⟨k, hk⟩ := hsep
    have := (s2 k (k + 1)).2 ⟨hk, rfl⟩
    rw [List.length_eq_zero_iff.1 h] at this
    cases this
  rw [if_neg (by omega), if_neg hS]
  refine ⟨_, rfl, fun i j => ?_⟩
  have hget : ∀ n, n < S.length → S[n]? = some (S.getD n (0, 0)) := by
    intro n hn
    rw [List.getD_eq_getElem?_getD, List.getElem?_eq_getElem hn]
    rfl
  have hpair : ∀ n, n < S.length → SepAt p s (S.getD n (0, 0)).1 ∧ (S.getD n (0, 0)).2 = (S.getD n (0, 0)).1 + 1 := by
    intro n hn
    exact (s2 _ _).1 (List.mem_of_getElem? (hget n hn))
  have hlt : ∀ n m, n < m → m < S.length → (S.getD n (0, 0)).1 < (S.getD m (0, 0)).1 := by
    intro n m hnm hm
    have := (List.pairwise_iff_getElem.1 s1) n m (by omega) hm hnm
    rw [List.getD_eq_getElem?_getD, List.getElem?_eq_getElem (by omega : n < S.length), List.getD_eq_getElem?_getD,
      List.getElem?_eq_getElem hm]
    exact this
  rw [List.mem_flatMap]
  constructor
  · rintro ⟨n, hn, hm⟩
    rw [List.mem_range] at hn
    rw [ngramCharHelper_eq _ _ _ _ h2, List.mem_map] at hm
    obtain ⟨q, hq, he⟩ := hm
    rw [List.mem_range] at hq
    obtain ⟨p1, p2⟩ := hpair n (by omega)
    obtain ⟨p3, p4⟩ := hpair (n + 1) (by omega)
    have hab := hlt n (n + 1) (by omega) (by omega)
    cases he
    refine ⟨by omega, _, _, hab, p1, p3, fun k k1 k2 hk => ?_, by omega, by omega⟩
    obtain ⟨m, hm, hme⟩ := List.getElem_of_mem ((s2 k (k + 1)).2 ⟨hk, rfl⟩)
    have hmk : (S.getD m (0, 0)).1 = k := by
      rw [List.getD_eq_getElem?_getD, List.getElem?_eq_getElem hm, hme]
      rfl
    rcases Nat.lt_trichotomy m n with h | h | h
    · have := hlt m n h (by omega); omega
    · subst h; omega
    · rcases Nat.lt_or_ge m (n + 1) with h' | h'
      · omega
      · rcases Nat.lt_or_eq_of_le h' with h' | h'
        · have := hlt (n + 1) m h' hm; omega
        · subst h'; omega
  · rintro ⟨rfl, a, b, hab, ha, hb, hno, hi1, hi2⟩
    obtain ⟨n, hn, hne⟩ := List.getElem_of_mem ((s2 a (a + 1)).2 ⟨ha, rfl⟩)
    obtain ⟨m, hm, hme⟩ := List.getElem_of_mem ((s2 b (b + 1)).2 ⟨hb, rfl⟩)
    have hna : (S.getD n (0, 0)).1 = a := by
      rw [List.getD_eq_getElem?_getD, List.getElem?_eq_getElem hn, hne]
      rfl
    have hmb : (S.getD m (0, 0)).1 = b := by
      rw [List.getD_eq_getElem?_getD, List.getElem?_eq_getElem hm, hme]
      rfl
    have hmn : m = n + 1 := by
      rcases Nat.lt_trichotomy m (n + 1) with h | h | h
      · rcases Nat.lt_or_eq_of_le (Nat.le_of_lt_succ h) with h' | h'
        · have := hlt m n h' hn; omega
        · subst h'; omega
      · exact h
      · exfalso
        have l1 := hlt n (n + 1) (by omega) (by omega)
        have l2 := hlt (n + 1) m h hm
        exact hno _ (by omega) (by omega) (hpair (n + 1) (by omega)).1
    subst hmn
    refine ⟨n, by rw [List.mem_range]; omega, ?_⟩
    rw [ngramCharHelper_eq _ _ _ _ h2, List.mem_map, (hpair (n + 1) hm).2, hna, hmb]
    refine ⟨i - a, by rw [List.mem_range]; omega, ?_⟩
    rw [show a + (i - a) = i by omega]

/-- **C43 (no separator).**  On a text without separators the program has undefined behaviour (it reads past the end of an
empty vector). -/
theorem C43_no_separator_undefined (p : A → Bool) (lo hi : Nat) (s : List A) (h1 : 1 ≤ lo) (h2 : lo ≤ hi)
    (hsep : ∀ k, ¬ SepAt p s k) : parseNgramCharwb p lo hi s = .error .ub := by
  obtain ⟨_, s2⟩ := separators_spec p s s [] rfl
  simp only [List.length_nil, Nat.zero_le, true_and] at s2
  unfold parseNgramCharwb
  simp only
  rcases hS : separators p s 0 with _ | ⟨⟨k, k'⟩, l⟩
  · rw [if_neg (by omega)]
    rfl
  · rw [hS] at s2
    exact absurd ((s2 k k').1 (by simp)).1 (hsep k)

/-- **C43 (padding).**  The padded text always has a separator; padding keeps the words and adds at most one blank at
each end; an empty text throws. -/
theorem C43_padding (s : List UInt8) :
    (s = [] → stringPadding s = .error .outOfRange) ∧
    (s ≠ [] → ∃ t a b, stringPadding s = .ok t ∧ t = a ++ s ++ b ∧ (a = [] ∨ a = [32]) ∧ (b = [] ∨ b = [32]) ∧
      SepAt isSpace t 0 ∧ SepAt isSpace t (t.length - 1)) := by
  constructor
  · rintro rfl; rfl
  · intro hne
    obtain ⟨x, l, rfl⟩ := List.exists_cons_of_ne_nil hne
    have hlast : (x :: l).getLast? = some ((x :: l).getLast hne) := List.getLast?_eq_some_getLast hne
    unfold stringPadding
    rw [List.head?_cons, hlast]
    simp only
    have sp : isSpace 32 = true := by decide
    have hend : ∀ t : List UInt8, SepAt isSpace (t ++ [32]) ((t ++ [32]).length - 1) := by
      intro t
      exact ⟨32, by simp, sp⟩
    have hend2 : ∀ a : List UInt8, isSpace ((x :: l).getLast hne) = true →
        SepAt isSpace (a ++ (x :: l)) ((a ++ (x :: l)).length - 1) := by
      intro a h
      refine ⟨(x :: l).getLast hne, ?_, h⟩
      rw [← List.getLast?_eq_getElem?, List.getLast?_append, hlast]
      rfl
    by_cases h1 : isSpace x <;> by_cases h2 : isSpace ((x :: l).getLast hne)
    · refine ⟨x :: l, [], [], by simp [h1, h2], by simp, .inl rfl, .inl rfl, ⟨x, rfl, h1⟩, ?_⟩
      exact hend2 [] h2
    · refine ⟨(x :: l) ++ [32], [], [32], by simp [h1, h2], by simp, .inl rfl, .inr rfl, ⟨x, rfl, h1⟩, hend _⟩
    · refine ⟨[32] ++ (x :: l), [32], [], by simp [h1, h2], by simp, .inr rfl, .inl rfl, ⟨32, rfl, sp⟩, hend2 _ h2⟩
    · refine ⟨[32] ++ (x :: l) ++ [32], [32], [32], by simp [h1, h2], by simp, .inr rfl, .inr rfl, ⟨32, rfl, sp⟩,
        hend _⟩

/-! Non-vacuity: "ab  c d" (with 0 as the separator). -/

example : parseWords (· == 0) [1, 2, 0, 0, 3, 0, 4] = [(0, 2), (4, 5), (6, 7)] := by decide +kernel
example : parseWords (· == 0) [0, 0] = [] := by decide +kernel
example : trim (· == 0) [0, 0, 1, 0, 2, 0] = [1, 0, 2] := by decide +kernel
example : parseNgramWord (· == 0) 1 2 [1, 2, 0, 0, 3, 0, 4] = .ok [(0, 2), (4, 5), (6, 7), (0, 5), (4, 7)] := by rfl
example : parseNgramChar 2 3 [1, 2, 3, 4] = .ok [(0, 2), (1, 3), (2, 4)] := by rfl
example : parseNgramCharwb (· == 0) 3 4 [0, 1, 2, 0, 3, 0] = .ok [(0, 3), (1, 4), (3, 6)] := by rfl

end Feat
