import Verif.Spec.Tokens
import Mathlib.Data.List.Induction
/-
C64: the tokens of a document.
-/
namespace Feat
variable {A : Type}

/-! ### Characters -/

private theorem allBytes {P : UInt8 → Prop} (h : ∀ n < 256, P (UInt8.ofNat n)) (c : UInt8) : P c := by
  have := h c.toNat c.toNat_lt
  rwa [UInt8.ofNat_toNat] at this

/-- **C64 (characters).**  White space, punctuation and letters are those of ASCII. -/
theorem C64_characters :
    (∀ c, isSpace c = true ↔ c ∈ whiteSpace) ∧ (∀ c, isPunct c = true ↔ c ∈ punctuation) ∧
    (∀ c, toLowerChar c = (((upperCase.zip lowerCase).lookup c).getD c)) ∧
    (∀ c, toUpperChar c = (((lowerCase.zip upperCase).lookup c).getD c)) := by
  refine ⟨?_, ?_, ?_, ?_⟩
  · exact allBytes (by decide +kernel)
  · exact allBytes (by decide +kernel)
  · exact allBytes (by decide +kernel)
  · exact allBytes (by decide +kernel)

private theorem isSpace_eq (c : UInt8) : isSpace c = decide (c ∈ whiteSpace) := by
  have := C64_characters.1 c
  by_cases h : c ∈ whiteSpace
  · simp [h, this.2 h]
  · simp only [h, decide_false]
    exact Bool.eq_false_iff.2 fun h' => h (this.1 h')

private theorem isPunct_eq (c : UInt8) : isPunct c = decide (c ∈ punctuation) := by
  have := C64_characters.2.1 c
  by_cases h : c ∈ punctuation
  · simp [h, this.2 h]
  · simp only [h, decide_false]
    exact Bool.eq_false_iff.2 fun h' => h (this.1 h')

/-! ### Cleaning -/

private theorem rds_eq (r : List UInt8) : ∀ a : UInt8,
    removeDuplicateSpace (isSpace a) r
      = ((List.range r.length).filter fun i =>
          decide ¬ ((a :: r).getD i 0 ∈ whiteSpace ∧ r.getD i 0 ∈ whiteSpace)).map fun i => r.getD i 0 := by
  induction r with
  | nil => intro a; rfl
  | cons c cs ih =>
    intro a
    rw [List.length_cons, List.range_succ_eq_map, List.filter_cons, List.filter_map]
    simp only [removeDuplicateSpace]
    have h0 : ((a :: c :: cs).getD 0 0 ∈ whiteSpace ∧ (c :: cs).getD 0 0 ∈ whiteSpace)
        ↔ (isSpace c && isSpace a) = true := by
      rw [isSpace_eq, isSpace_eq]
      simp
      tauto
    have hrest : (List.map Nat.succ (List.filter ((fun i => decide ¬((a :: c :: cs).getD i 0 ∈ whiteSpace ∧
        (c :: cs).getD i 0 ∈ whiteSpace)) ∘ Nat.succ) (List.range cs.length))).map (fun i => (c :: cs).getD i 0)
        = removeDuplicateSpace (isSpace c) cs := by
      rw [ih c, List.map_map]
      rfl
    by_cases h : (isSpace c && isSpace a) = true
    · rw [if_pos h, if_neg (by rw [decide_eq_true_eq, not_not]; exact h0.2 h)]
      exact hrest.symm
    · rw [if_neg h, if_pos (by rw [decide_eq_true_eq]; exact fun hh => h (h0.1 hh)), List.map_cons, hrest]
      rfl

private theorem clean_eq (s : List UInt8) : replaceAndDeDuplicate s = cleaned s := by
  unfold replaceAndDeDuplicate cleaned
  have hmap : (s.map fun c => if isPunct c then (32 : UInt8) else c) = s.map fun c => if c ∈ punctuation then 32 else c := by
    apply List.map_congr_left
    intro c _
    rw [isPunct_eq]
    simp
  rw [hmap]
  generalize (s.map fun c => if c ∈ punctuation then (32 : UInt8) else c) = r
  simp only
  cases r with
  | nil => rfl
  | cons c cs =>
    have := rds_eq (c :: cs) 0
    rw [show isSpace 0 = false from rfl] at this
    rw [this]
    congr 1
    apply List.filter_congr
    intro i _
    rw [decide_eq_decide]
    cases i with
    | zero =>
      have : (0 : UInt8) ∉ whiteSpace := by decide
      simp [this]
    | succ i => simp

private theorem rds_mem (b : Bool) (r : List UInt8) : ∀ c ∈ removeDuplicateSpace b r, c ∈ r := by
  induction r generalizing b with
  | nil => intro c h; exact h
  | cons d ds ih =>
    intro c h
    simp only [removeDuplicateSpace] at h
    split at h
    · exact List.mem_cons_of_mem _ (ih _ c h)
    · rcases List.mem_cons.1 h with rfl | h
      · simp
      · exact List.mem_cons_of_mem _ (ih _ c h)

private theorem rds_chain (r : List UInt8) : ∀ b : Bool,
    (removeDuplicateSpace b r).IsChain (fun c d => ¬ (isSpace c = true ∧ isSpace d = true)) ∧
    (b = true → ∀ c ∈ (removeDuplicateSpace b r).head?, isSpace c = false) := by
  induction r with
  | nil => intro b; exact ⟨.nil, by simp [removeDuplicateSpace]⟩
  | cons d ds ih =>
    intro b
    simp only [removeDuplicateSpace]
    by_cases h : (isSpace d && b) = true
    · rw [if_pos h]
      have hd : isSpace d = true := by simp at h; exact h.1
      refine ⟨(ih _).1, fun _ => ?_⟩
      rw [hd]
      exact (ih true).2 rfl
    · rw [if_neg h]
      refine ⟨?_, ?_⟩
      · have h1 := (ih (isSpace d)).1
        have h2 := (ih (isSpace d)).2
        generalize removeDuplicateSpace (isSpace d) ds = l at h1 h2
        rcases l with _ | ⟨e, es⟩
        · exact .singleton _
        · refine .cons_cons ?_ h1
          rintro ⟨h3, h4⟩
          rw [h2 h3 e (by simp)] at h4
          cases h4
      · rintro rfl c hc
        simp at h hc
        rw [← hc]
        exact h

/-- **C64 (cleaning).**  The cleaned text has no punctuation and no two white-space characters in a row; it is what the
specification `cleaned` says. -/
theorem C64_cleaning (s : List UInt8) :
    replaceAndDeDuplicate s = cleaned s ∧ (∀ c ∈ cleaned s, c ∉ punctuation) ∧
    (cleaned s).IsChain (fun c d => ¬ (c ∈ whiteSpace ∧ d ∈ whiteSpace)) ∧
    (cleaned s).filter (fun c => decide (c ∉ whiteSpace))
      = s.filter (fun c => decide (c ∉ whiteSpace ∧ c ∉ punctuation)) := by
  rw [← clean_eq]
  refine ⟨rfl, ?_, ?_, ?_⟩
  · intro c hc
    have := rds_mem _ _ c hc
    obtain ⟨d, _, rfl⟩ := List.mem_map.1 this
    rw [isPunct_eq]
    by_cases h : d ∈ punctuation
    · simp only [h, decide_true, if_true]
      decide
    · simp [h]
  · refine ((rds_chain _ _).1).imp fun c d h => ?_
    rw [isSpace_eq, isSpace_eq] at h
    simpa using h
  · have key : ∀ (r : List UInt8) (b : Bool), (removeDuplicateSpace b r).filter (fun c => decide (c ∉ whiteSpace))
        = r.filter (fun c => decide (c ∉ whiteSpace)) := by
      intro r
      induction r with
      | nil => intro b; rfl
      | cons d ds ih =>
        intro b
        simp only [removeDuplicateSpace]
        split
        · rename_i h
          rw [ih, List.filter_cons]
          have : d ∈ whiteSpace := by
            simp only [Bool.and_eq_true] at h
            exact (C64_characters.1 d).1 h.1
          simp [this]
        · rw [List.filter_cons, ih, List.filter_cons]
    unfold replaceAndDeDuplicate
    rw [key, List.filter_map]
    induction s with
    | nil => rfl
    | cons c cs ih =>
      rw [List.filter_cons, List.filter_cons]
      simp only [Function.comp] at ih ⊢
      have sp : (32 : UInt8) ∈ whiteSpace := by decide
      by_cases h1 : c ∈ punctuation
      · have h2 : isPunct c = true := (C64_characters.2.1 c).2 h1
        simp only [h2, if_true, sp, not_true_eq_false, decide_false, h1, and_false]
        exact ih
      · have h2 : isPunct c = false := by rw [isPunct_eq]; simpa using h1
        by_cases h3 : c ∈ whiteSpace
        · simp [h2, h1, h3]
          simpa [Function.comp_def] using ih
        · simp [h2, h1, h3]
          simpa [Function.comp_def] using ih

/-! ### Words -/

private theorem pieces_ne (p : A → Bool) (s : List A) : ∃ w ws, pieces p s = w :: ws := by
  cases s with
  | nil => exact ⟨_, _, rfl⟩
  | cons c cs =>
    simp only [pieces]
    split <;> exact ⟨_, _, rfl⟩

private theorem words_from (p : A → Bool) (t : List A) : ∀ (cs : List A),
    (∀ l r, t.drop l = cs → (parseFrom p true cs l r).map (between t) = wordsOf p cs) ∧
    (∀ l r, l < r → t.drop r = cs → (t.take r).length = r →
      (parseFrom p false cs l r).map (between t)
        = ((between t (l, r) ++ (pieces p cs).headD []) :: (pieces p cs).tail).filter fun w => !w.isEmpty) := by
  intro cs
  induction cs with
  | nil =>
    refine ⟨fun l r _ => rfl, fun l r hlr h hl => ?_⟩
    simp only [parseFrom, pieces, List.headD_cons, List.append_nil, List.tail_cons]
    have hlen : (between t (l, r)).length = r - l := by
      unfold between
      rw [List.length_drop, hl]
    have : between t (l, r) ≠ [] := by
      intro h'
      rw [h'] at hlen
      simp at hlen
      omega
    rw [if_pos (by omega)]
    simp [this]
  | cons c cs ih =>
    have hdrop : ∀ k, t.drop k = c :: cs → t.drop (k + 1) = cs ∧ (t.take (k + 1)).length = k + 1 ∧
        ∀ l, l ≤ k → between t (l, k + 1) = between t (l, k) ++ [c] := by
      intro k hk
      have hlt : k < t.length := by
        rcases Nat.lt_or_ge k t.length with h | h
        · exact h
        · rw [List.drop_eq_nil_of_le h] at hk
          cases hk
      have hd : t.drop (k + 1) = cs := by
        rw [← List.drop_drop, hk]
        rfl
      refine ⟨hd, by rw [List.length_take]; omega, fun l hl => ?_⟩
      unfold between
      have hc : t[k] = c := by
        have := List.drop_eq_getElem_cons hlt
        rw [hk] at this
        exact (List.cons.inj this).1.symm
      rw [List.take_succ_eq_append_getElem hlt, hc, List.drop_append_of_le_length (by rw [List.length_take]; omega)]
    constructor
    · intro l r h
      obtain ⟨h1, h2, h3⟩ := hdrop l h
      simp only [parseFrom, wordsOf, pieces]
      split
      · rw [ih.1 _ _ h1]
        simp [wordsOf]
      · rw [ih.2 l (l + 1) (by omega) h1 h2, h3 l (Nat.le_refl _)]
        have : between t (l, l) = [] := by
          unfold between
          apply List.drop_eq_nil_of_le
          rw [List.length_take]
          exact Nat.min_le_left _ _
        rw [this]
        rfl
    · intro l r hlr h hl
      obtain ⟨h1, h2, h3⟩ := hdrop r h
      simp only [parseFrom, pieces]
      split
      · rw [List.map_cons, ih.1 _ _ h1]
        have hne : between t (l, r) ≠ [] := by
          intro h'
          have hlen : (between t (l, r)).length = r - l := by
            unfold between
            rw [List.length_drop, hl]
          rw [h'] at hlen
          simp at hlen
          omega
        simp [wordsOf, hne]
      · rw [ih.2 l (r + 1) (by omega) h1 h2, h3 l (by omega)]
        simp

/-- **C64 (words).**  Splitting a text yields its words, in order. -/
theorem C64_words (p : A → Bool) (s : List A) : (parseWords p s).map (between s) = wordsOf p s :=
  (words_from p s s).1 0 0 rfl

private theorem wordsOf_good (p : A → Bool) (s : List A) : ∀ w ∈ wordsOf p s, w ≠ [] ∧ ∀ c ∈ w, p c = false := by
  have key : ∀ w ∈ pieces p s, ∀ c ∈ w, p c = false := by
    induction s with
    | nil => intro w hw; simp [pieces] at hw; subst hw; simp
    | cons c cs ih =>
      obtain ⟨u, us, hu⟩ := pieces_ne p cs
      rw [hu] at ih
      intro w hw
      simp only [pieces, hu, List.headD_cons, List.tail_cons] at hw
      split at hw
      · rcases List.mem_cons.1 hw with rfl | hw
        · simp
        · exact ih w hw
      · rename_i hc
        rcases List.mem_cons.1 hw with rfl | hw
        · intro d hd
          rcases List.mem_cons.1 hd with rfl | hd
          · simpa using hc
          · exact ih u (by simp) d hd
        · exact ih w (by simp [hw])
  intro w hw
  unfold wordsOf at hw
  rw [List.mem_filter] at hw
  exact ⟨by simpa using hw.2, key w hw.1⟩

private theorem pieces_map (p q : A → Bool) (g : A → A) (s : List A) (h : ∀ c ∈ s, p (g c) = q c)
    (h2 : ∀ c ∈ s, q c = false → g c = c) : pieces p (s.map g) = pieces q s := by
  induction s with
  | nil => rfl
  | cons c cs ih =>
    have := ih (fun d hd => h d (by simp [hd])) (fun d hd => h2 d (by simp [hd]))
    simp only [List.map_cons, pieces, this, h c (by simp)]
    split
    · rfl
    · rename_i hq
      rw [h2 c (by simp) (by simpa using hq)]

private theorem join_cons (c : UInt8) (w : List UInt8) (ws : List (List UInt8)) :
    joinWords ((c :: w) :: ws) = c :: joinWords (w :: ws) := by
  cases ws <;> rfl

private theorem rds_shape (cs : List UInt8) (hb : ∀ c ∈ cs, isSpace c = true → c = 32) :
    (∃ tr, (tr = [] ∨ tr = [32]) ∧ (wordsOf isSpace cs = [] → tr = []) ∧
      removeDuplicateSpace true cs = joinWords (wordsOf isSpace cs) ++ tr) ∧
    (∃ tr, (tr = [] ∨ tr = [32]) ∧
      removeDuplicateSpace false cs
        = joinWords ((pieces isSpace cs).headD [] :: (pieces isSpace cs).tail.filter fun w => !w.isEmpty) ++ tr) := by
  induction cs with
  | nil => exact ⟨⟨[], .inl rfl, fun _ => rfl, rfl⟩, ⟨[], .inl rfl, rfl⟩⟩
  | cons c cs ih =>
    obtain ⟨⟨t1, a1, a2, a3⟩, ⟨t2, b1, b2⟩⟩ := ih fun d hd => hb d (by simp [hd])
    obtain ⟨u, us, hu⟩ := pieces_ne isSpace cs
    by_cases hc : isSpace c = true
    · have hc32 := hb c (by simp) hc
      have hw : wordsOf isSpace (c :: cs) = wordsOf isSpace cs := by
        simp [wordsOf, pieces, hc]
      constructor
      · refine ⟨t1, a1, ?_, ?_⟩
        · rw [hw]; exact a2
        · rw [hw, ← a3]
          simp [removeDuplicateSpace, hc]
      · simp only [removeDuplicateSpace, hc, Bool.and_false, if_false, pieces, if_true, List.headD_cons, List.tail_cons,
          Bool.false_eq_true]
        rw [a3]
        show ∃ tr, (tr = [] ∨ tr = [32]) ∧ c :: (joinWords (wordsOf isSpace cs) ++ t1) = joinWords ([] :: wordsOf isSpace cs) ++ tr
        rcases hws : wordsOf isSpace cs with _ | ⟨w, ws⟩
        · refine ⟨[32], .inr rfl, ?_⟩
          rw [a2 hws, hc32]
          rfl
        · refine ⟨t1, a1, ?_⟩
          rw [hc32]
          rfl
    · have hc' : isSpace c = false := by simpa using hc
      have hw : wordsOf isSpace (c :: cs) = (c :: u) :: us.filter fun w => !w.isEmpty := by
        simp [wordsOf, pieces, hc', hu]
      rw [hu] at b2
      simp only [List.headD_cons, List.tail_cons] at b2
      constructor
      · refine ⟨t2, b1, ?_, ?_⟩
        · rw [hw]; intro h; cases h
        · rw [hw, join_cons, List.cons_append, ← b2]
          simp [removeDuplicateSpace, hc']
      · refine ⟨t2, b1, ?_⟩
        simp only [pieces, hc', hu, Bool.false_eq_true, if_false, List.headD_cons, List.tail_cons]
        rw [join_cons, List.cons_append, ← b2]
        simp [removeDuplicateSpace, hc']

/-- The cleaned text is its words with a blank between neighbours, and possibly a blank at either end. -/
private theorem cleaned_shape (s : List UInt8) (hb : OnlyBlanks s) :
    ∃ ld tr, (ld = [] ∨ ld = [32]) ∧ (tr = [] ∨ tr = [32]) ∧ cleaned s = ld ++ joinWords (textWords s) ++ tr ∧
      (textWords s = [] → ld = []) := by
  rw [← clean_eq]
  unfold replaceAndDeDuplicate
  have hw : pieces isSpace (s.map fun c => if isPunct c then (32 : UInt8) else c)
      = pieces (fun c => decide (c ∈ whiteSpace ∨ c ∈ punctuation)) s := by
    have sp : (32 : UInt8) ∈ whiteSpace := by decide
    apply pieces_map
    · intro c _
      rw [isPunct_eq, isSpace_eq]
      by_cases h : c ∈ punctuation <;> simp [h, sp]
    · intro c _ h
      rw [isPunct_eq]
      simp only [decide_eq_false_iff_not, not_or] at h
      simp [h.2]
  have hb' : ∀ c ∈ (s.map fun c => if isPunct c then (32 : UInt8) else c), isSpace c = true → c = 32 := by
    intro c hc h
    obtain ⟨d, hd, rfl⟩ := List.mem_map.1 hc
    split
    · rfl
    · rename_i h'
      rw [if_neg h'] at h
      exact hb d hd ((C64_characters.1 d).1 h)
  obtain ⟨tr, h1, h2⟩ := (rds_shape _ hb').2
  rw [hw] at h2
  rw [h2]
  unfold textWords wordsOf
  obtain ⟨u, us, hu⟩ := pieces_ne (fun c => decide (c ∈ whiteSpace ∨ c ∈ punctuation)) s
  rw [hu]
  simp only [List.headD_cons, List.tail_cons]
  rcases u with _ | ⟨c, u⟩
  · rcases hus : us.filter (fun w => !w.isEmpty) with _ | ⟨w, ws⟩
    · exact ⟨[], tr, .inl rfl, h1, by simp [hus, joinWords], fun _ => rfl⟩
    · refine ⟨[32], tr, .inr rfl, h1, by simp [hus, joinWords], ?_⟩
      intro h
      simp [hus] at h
  · exact ⟨[], tr, .inl rfl, h1, by simp, fun _ => rfl⟩

/-! ### Where the words are -/

/-- The ranges of words separated by one character, the first starting at `off`. -/
private def ranges (off : Nat) : List (List UInt8) → List (Nat × Nat)
  | [] => []
  | w :: ws => (off, off + w.length) :: ranges (off + w.length + 1) ws

private theorem parse_word (p : UInt8 → Bool) (w rest : List UInt8) (hw : ∀ c ∈ w, p c = false) : ∀ l r,
    parseFrom p false (w ++ rest) l r = parseFrom p false rest l (r + w.length) := by
  induction w with
  | nil => intro l r; rfl
  | cons c cs ih =>
    intro l r
    simp only [List.cons_append, parseFrom, hw c (by simp), Bool.false_eq_true, if_false]
    rw [ih (fun d hd => hw d (by simp [hd]))]
    simp only [List.length_cons]
    congr 1
    omega

private theorem parse_join (p : UInt8 → Bool) (h32 : p 32 = true) (tr : List UInt8) (htr : tr = [] ∨ tr = [32])
    (ws : List (List UInt8)) (hw : ∀ w ∈ ws, w ≠ [] ∧ ∀ c ∈ w, p c = false) :
    ∀ off r, parseFrom p true (joinWords ws ++ tr) off r = ranges off ws := by
  induction ws with
  | nil =>
    intro off r
    rcases htr with rfl | rfl
    · rfl
    · simp [joinWords, parseFrom, h32, ranges]
  | cons w ws ih =>
    intro off r
    obtain ⟨hne, hc⟩ := hw w (by simp)
    obtain ⟨c, w', rfl⟩ := List.exists_cons_of_ne_nil hne
    have ih' := ih fun v hv => hw v (by simp [hv])
    have hw' : ∀ d ∈ w', p d = false := fun d hd => hc d (by simp [hd])
    rw [join_cons]
    simp only [List.cons_append, parseFrom, hc c (by simp), Bool.false_eq_true, if_false, ranges]
    cases ws with
    | nil =>
      simp only [joinWords]
      rw [parse_word p w' tr hw']
      rcases htr with rfl | rfl
      · simp only [parseFrom, ranges, List.length_cons]
        rw [if_pos (by omega)]
        congr 2
        omega
      · simp only [parseFrom, h32, ranges, List.length_cons, if_true]
        congr 2
        omega
    | cons v vs =>
      simp only [joinWords]
      rw [List.append_assoc, parse_word p w' _ hw']
      simp only [List.cons_append, parseFrom, h32, if_true]
      rw [ih', List.length_cons]
      congr 2 <;> omega

private theorem windows_short {B : Type} (n : Nat) (l : List B) (h : l.length < n) : windows n l = [] := by
  unfold windows
  rw [show l.length + 1 - n = 0 by omega]
  rfl

private theorem windows_cons {B : Type} (n : Nat) (x : B) (l : List B) (h : n ≤ l.length + 1) :
    windows n (x :: l) = (x :: l).take n :: windows n l := by
  unfold windows
  rw [List.length_cons, show l.length + 1 + 1 - n = (l.length + 1 - n) + 1 by omega, List.range_succ_eq_map,
    List.map_cons, List.map_map]
  rfl

private theorem ranges_length (ws : List (List UInt8)) : ∀ off, (ranges off ws).length = ws.length := by
  induction ws with
  | nil => intro off; rfl
  | cons w ws ih => intro off; simp [ranges, ih]

private theorem ranges_take (ws : List (List UInt8)) : ∀ off n, (ranges off ws).take n = ranges off (ws.take n) := by
  induction ws with
  | nil => intro off n; simp [ranges]
  | cons w ws ih =>
    intro off n
    cases n with
    | zero => rfl
    | succ n => simp [ranges, ih]

private theorem span_ranges (ws : List (List UInt8)) : ∀ off, ws ≠ [] →
    spanOf (ranges off ws) = (off, off + (joinWords ws).length) := by
  induction ws with
  | nil => intro off h; exact absurd rfl h
  | cons w ws ih =>
    intro off _
    cases ws with
    | nil => simp [ranges, spanOf, joinWords]
    | cons v vs =>
      have := ih (off + w.length + 1) (by simp)
      unfold spanOf at this ⊢
      have h2 := (Prod.mk.inj this).2
      rw [Prod.mk.injEq]
      refine ⟨rfl, ?_⟩
      simp only [ranges, joinWords] at h2 ⊢
      rw [List.getLast?_cons_cons, h2]
      simp only [List.length_append, List.length_cons]
      omega

private theorem join_take (ws : List (List UInt8)) : ∀ n, 1 ≤ n → ∃ rest, joinWords ws = joinWords (ws.take n) ++ rest := by
  induction ws with
  | nil => intro n _; exact ⟨[], by simp [joinWords]⟩
  | cons w ws ih =>
    intro n hn
    obtain ⟨n, rfl⟩ : ∃ m, n = m + 1 := ⟨n - 1, by omega⟩
    cases ws with
    | nil => exact ⟨[], by simp [joinWords]⟩
    | cons v vs =>
      cases n with
      | zero => exact ⟨32 :: joinWords (v :: vs), by simp [joinWords]⟩
      | succ n =>
        obtain ⟨rest, h⟩ := ih (n + 1) (by omega)
        refine ⟨rest, ?_⟩
        simp only [joinWords, List.take_succ_cons]
        rw [h]
        simp

private theorem ngrams_join (t post : List UInt8) (n : Nat) (hn : 1 ≤ n) (ws : List (List UInt8)) : ∀ off,
    t.drop off = joinWords ws ++ post →
    (windows n (ranges off ws)).map (fun x => between t (spanOf x)) = (windows n ws).map joinWords := by
  induction ws with
  | nil =>
    intro off _
    rw [windows_short n [] (by simp; omega), windows_short n (ranges off []) (by simp [ranges]; omega)]
    rfl
  | cons w ws ih =>
    intro off h
    by_cases hlen : n ≤ ws.length + 1
    · rw [windows_cons n w ws hlen, ranges, windows_cons n _ _ (by rw [ranges_length]; exact hlen), List.map_cons,
        List.map_cons]
      congr 1
      · have e : ((off, off + w.length) :: ranges (off + w.length + 1) ws).take n = ranges off ((w :: ws).take n) := by
          rw [← ranges_take]
          rfl
        rw [e, span_ranges _ _ (by cases n <;> simp_all)]
        unfold between
        simp only
        rw [List.drop_take, h, Nat.add_sub_cancel_left]
        obtain ⟨rest, hr⟩ := join_take (w :: ws) n hn
        rw [hr, List.append_assoc, List.take_left]
      · cases ws with
        | nil =>
          rw [windows_short n [] (by simp; omega), windows_short n (ranges _ []) (by simp [ranges]; omega)]
          rfl
        | cons v vs =>
          apply ih
          rw [Nat.add_assoc, ← List.drop_drop, h]
          simp only [joinWords, List.append_assoc, List.cons_append]
          rw [← List.drop_drop, List.drop_left]
          rfl
    · rw [windows_short n (w :: ws) (by simp; omega),
        windows_short n (ranges off (w :: ws)) (by rw [ranges_length]; simp; omega)]
      rfl

private theorem seps_word (p : UInt8 → Bool) (w rest : List UInt8) (hw : ∀ c ∈ w, p c = false) : ∀ pos,
    separators p (w ++ rest) pos = separators p rest (pos + w.length) := by
  induction w with
  | nil => intro pos; rfl
  | cons c cs ih =>
    intro pos
    simp only [List.cons_append, separators, hw c (by simp), Bool.false_eq_true, if_false]
    rw [ih (fun d hd => hw d (by simp [hd])), List.length_cons]
    congr 1
    omega

/-- The blanks after each of the words, the first starting at `pos`. -/
private def marks (pos : Nat) : List (List UInt8) → List (Nat × Nat)
  | [] => []
  | w :: ws => (pos + w.length, pos + w.length + 1) :: marks (pos + w.length + 1) ws

private theorem seps_join (p : UInt8 → Bool) (h32 : p 32 = true) (ws : List (List UInt8))
    (hw : ∀ w ∈ ws, w ≠ [] ∧ ∀ c ∈ w, p c = false) : ∀ pos, ws ≠ [] →
    separators p (joinWords ws ++ [32]) pos = marks pos ws := by
  induction ws with
  | nil => intro pos h; exact absurd rfl h
  | cons w ws ih =>
    intro pos _
    obtain ⟨_, hc⟩ := hw w (by simp)
    cases ws with
    | nil =>
      simp only [joinWords]
      rw [seps_word p w _ hc]
      simp [separators, h32, marks]
    | cons v vs =>
      simp only [joinWords, List.append_assoc]
      rw [seps_word p w _ hc]
      simp only [List.cons_append, separators, h32, if_true, marks]
      rw [ih (fun u hu => hw u (by simp [hu])) _ (by simp)]
      rfl

private def between2 {B : Type} (f : Nat → Nat → List B) (S : List (Nat × Nat)) : List B :=
  (List.range (S.length - 1)).flatMap fun i => f (S.getD i (0, 0)).1 (S.getD (i + 1) (0, 0)).2

private theorem between2_cons {B : Type} (f : Nat → Nat → List B) (x y : Nat × Nat) (l : List (Nat × Nat)) :
    between2 f (x :: y :: l) = f x.1 y.2 ++ between2 f (y :: l) := by
  unfold between2
  simp only [List.length_cons, Nat.add_sub_cancel, List.range_succ_eq_map, List.flatMap_cons, List.flatMap_map]
  rfl

private theorem charwb_join (t : List UInt8) (lo hi : Nat) (h : lo ≤ hi) (ws : List (List UInt8)) : ∀ a,
    ws ≠ [] → t.drop a = 32 :: (joinWords ws ++ [32]) →
    (between2 (fun a b => ngramCharHelper a b lo hi) ((a, a + 1) :: marks (a + 1) ws)).map (between t)
      = ws.flatMap fun w => windows lo (32 :: w ++ [32]) := by
  induction ws with
  | nil => intro a h; exact absurd rfl h
  | cons w ws ih =>
    intro a _ ht
    have hpre : ∃ rest, t.drop a = (32 :: w ++ [32]) ++ rest := by
      rw [ht]
      cases ws with
      | nil => exact ⟨[], by simp [joinWords]⟩
      | cons v vs => exact ⟨joinWords (v :: vs) ++ [32], by simp [joinWords]⟩
    have hhead : (ngramCharHelper a (a + 1 + w.length + 1) lo hi).map (between t) = windows lo (32 :: w ++ [32]) := by
      obtain ⟨rest, hr⟩ := hpre
      rw [ngramCharHelper_eq _ _ _ _ h, List.map_map]
      unfold windows
      have hl : (32 :: w ++ [32]).length = w.length + 2 := by simp
      rw [hl, show a + 1 + w.length + 1 - a + 1 = w.length + 2 + 1 by omega]
      apply List.map_congr_left
      intro i hi'
      rw [List.mem_range] at hi'
      simp only [Function.comp, between]
      rw [List.drop_take, ← List.drop_drop, hr, List.drop_append_of_le_length (by rw [hl]; omega),
        List.take_append_of_le_length (by rw [List.length_drop, hl]; omega), Nat.add_sub_cancel_left]
    rw [marks, between2_cons, List.map_append, hhead, List.flatMap_cons]
    congr 1
    cases ws with
    | nil => rfl
    | cons v vs =>
      rw [show a + 1 + w.length = a + (1 + w.length) by omega]
      apply ih _ (by simp)
      rw [← List.drop_drop, ht, Nat.add_comm 1, List.drop_succ_cons]
      simp only [joinWords, List.append_assoc]
      rw [List.drop_left]
      rfl

private theorem join_ends (p : UInt8 → Bool) (ws : List (List UInt8))
    (hw : ∀ w ∈ ws, w ≠ [] ∧ ∀ c ∈ w, p c = false) : ws ≠ [] →
    ∃ a b, (joinWords ws).head? = some a ∧ (joinWords ws).getLast? = some b ∧ p a = false ∧ p b = false := by
  induction ws with
  | nil => intro h; exact absurd rfl h
  | cons w ws ih =>
    intro _
    obtain ⟨hne, hc⟩ := hw w (by simp)
    cases ws with
    | nil =>
      exact ⟨w.head hne, w.getLast hne, List.head?_eq_some_head hne, List.getLast?_eq_some_getLast hne,
        hc _ (List.head_mem hne), hc _ (List.getLast_mem hne)⟩
    | cons v vs =>
      obtain ⟨a, b, h1, h2, h3, h4⟩ := ih (fun u hu => hw u (by simp [hu])) (by simp)
      refine ⟨w.head hne, b, ?_, ?_, hc _ (List.head_mem hne), h4⟩
      · simp only [joinWords]
        rw [List.head?_append, List.head?_eq_some_head hne]
        rfl
      · simp only [joinWords]
        rw [List.getLast?_append, List.getLast?_cons, h2]
        rfl

/-! ### The tokens -/

/-- **C64 (words).**  Single words: the words of the document as it is, separated by white space; punctuation stays. -/
theorem C64_single_words (c : TextConfig) (s : Str) (h1 : c.analyzer = .word) (h2 : c.regex = none) (h3 : c.lo = 1)
    (h4 : c.hi = 1) :
    c.tokens s = .ok ((wordsOf (fun a => decide (a ∈ whiteSpace)) s.chars).map Str.mk) := by
  have : isSpace = fun a => decide (a ∈ whiteSpace) := funext isSpace_eq
  rw [← this, ← C64_words]
  simp [TextConfig.tokens, TextConfig.prepare, TextConfig.parse, h1, h2, h3, h4, List.map_map, Function.comp_def]

/-- **C64 (regular expression).**  What the regular expression finds in the document as it is. -/
theorem C64_regex (c : TextConfig) (s : Str) (f : Str → Except Err (List (Nat × Nat))) (h1 : c.analyzer = .word)
    (h2 : c.regex = some f) :
    c.tokens s = (f s).map fun rs => rs.map fun r => ⟨between s.chars r⟩ := by
  simp only [TextConfig.tokens, TextConfig.prepare, TextConfig.parse, h1, h2, Option.isNone_some, Bool.false_and,
    Bool.false_eq_true, if_false]
  cases f s <;> rfl

/-- **C64 (word n-grams).**  For every size in the range in turn, all runs of that many neighbouring words joined by
blanks, where punctuation separates words; `invalid_argument` when the range is invalid or exceeds the number of words. -/
theorem C64_word_ngrams (c : TextConfig) (s : Str) (h1 : c.analyzer = .word) (h2 : c.regex = none)
    (h3 : ¬ (c.lo = 1 ∧ c.hi = 1)) (hb : OnlyBlanks s.chars) :
    (1 ≤ c.lo → c.lo ≤ c.hi → c.hi ≤ (textWords s.chars).length →
      c.tokens s = .ok ((List.range' c.lo (c.hi + 1 - c.lo)).flatMap fun n =>
        (windows n (textWords s.chars)).map fun ws => ⟨joinWords ws⟩)) ∧
    (c.lo = 0 ∨ c.hi < c.lo ∨ (textWords s.chars).length < c.hi → c.tokens s = .error .invalidArgument) := by
  obtain ⟨ld, tr, a1, a2, a3, a4⟩ := cleaned_shape s.chars hb
  have hgood : ∀ w ∈ textWords s.chars, w ≠ [] ∧ ∀ d ∈ w, isSpace d = false := by
    intro w hw
    obtain ⟨g1, g2⟩ := wordsOf_good _ _ w hw
    refine ⟨g1, fun d hd => ?_⟩
    have := g2 d hd
    rw [isSpace_eq]
    simp only [decide_eq_false_iff_not, not_or] at this
    simp [this.1]
  have hparse : parseWords isSpace (cleaned s.chars) = ranges ld.length (textWords s.chars) := by
    rw [a3]
    have h := parse_join isSpace rfl tr a2 _ hgood
    rcases a1 with rfl | rfl
    · simpa [parseWords] using h 0 0
    · simp only [parseWords, List.cons_append, List.nil_append, parseFrom, show isSpace 32 = true from rfl, if_true]
      exact h 1 1
  have hdrop : (cleaned s.chars).drop ld.length = joinWords (textWords s.chars) ++ tr := by
    rw [a3, List.append_assoc, List.drop_left]
  have hcond2 : (c.lo == 1 && c.hi == 1) = false := by
    rw [Bool.eq_false_iff]
    intro h
    simp only [Bool.and_eq_true, beq_iff_eq] at h
    exact h3 h
  have htok : c.tokens s = match parseNgramWord isSpace c.lo c.hi (cleaned s.chars) with
      | .error e => .error e
      | .ok rs => .ok (rs.map fun r => ⟨between (cleaned s.chars) r⟩) := by
    simp only [TextConfig.tokens, TextConfig.prepare, h1, TextConfig.parse, h2, hcond2, Option.isNone_none,
      Bool.true_and, Bool.not_false, if_true, Bool.false_eq_true, if_false, clean_eq]
    rcases parseNgramWord isSpace c.lo c.hi (cleaned s.chars) <;> rfl
  obtain ⟨n1, n2⟩ := C42_word_ngrams isSpace c.lo c.hi (cleaned s.chars)
  rw [hparse] at n1 n2
  rw [htok]
  constructor
  · intro g1 g2 g3
    rw [n2 g1 g2 (by rw [ranges_length]; exact g3)]
    simp only [List.map_flatMap, List.map_map]
    congr 1
    apply List.flatMap_congr
    intro n hn
    have hn1 : 1 ≤ n := by
      have := (List.mem_range'_1.1 hn).1
      omega
    have := ngrams_join (cleaned s.chars) tr n hn1 (textWords s.chars) ld.length hdrop
    have := congrArg (List.map Str.mk) this
    simpa [List.map_map, Function.comp_def] using this
  · intro hbad
    rw [n1.2 (by
      rw [ranges_length]
      rcases hbad with h | h | h
      · exact .inr (.inl h)
      · exact .inr (.inr (.inl h))
      · exact .inr (.inr (.inr h)))]

/-- **C64 (character n-grams).**  All substrings of the cleaned document of the smallest length. -/
theorem C64_char_ngrams (c : TextConfig) (s : Str) (h1 : c.analyzer = .char) :
    (1 ≤ c.lo → c.lo ≤ c.hi → c.hi ≤ (cleaned s.chars).length →
      c.tokens s = .ok ((windows c.lo (cleaned s.chars)).map Str.mk)) ∧
    (c.lo = 0 ∨ c.hi < c.lo ∨ (cleaned s.chars).length < c.hi → c.tokens s = .error .invalidArgument) := by
  simp only [TextConfig.tokens, TextConfig.prepare, TextConfig.parse, h1, clean_eq]
  obtain ⟨n1, n2⟩ := C43_exact c.lo c.hi (cleaned s.chars)
  constructor
  · intro g1 g2 g3
    obtain ⟨rs, r1, r2⟩ := n2 g1 g2 g3
    rw [r1, ← r2]
    simp [List.map_map, Function.comp_def]
  · intro h
    rw [n1.2 h]

/-- **C64 (character n-grams within words).**  For every word of the document, all substrings of the smallest length of
the word with a blank at both ends; a document without characters throws. -/
theorem C64_charwb_ngrams (c : TextConfig) (s : Str) (h1 : c.analyzer = .charwb) (hb : OnlyBlanks s.chars)
    (h2 : 1 ≤ c.lo) (h3 : c.lo ≤ c.hi) :
    (s.chars ≠ [] →
      c.tokens s = .ok ((textWords s.chars).flatMap fun w => (windows c.lo (32 :: w ++ [32])).map Str.mk)) ∧
    (s.chars = [] → c.tokens s = .error .outOfRange) := by
  simp only [TextConfig.tokens, TextConfig.prepare, TextConfig.parse, h1, clean_eq]
  constructor
  · intro hne
    obtain ⟨ld, tr, a1, a2, a3, a4⟩ := cleaned_shape s.chars hb
    have hcne : cleaned s.chars ≠ [] := by
      rw [← clean_eq]
      obtain ⟨x, l, hx⟩ := List.exists_cons_of_ne_nil hne
      rw [hx]
      simp [replaceAndDeDuplicate, removeDuplicateSpace]
    have hgood : ∀ w ∈ textWords s.chars, w ≠ [] ∧ ∀ d ∈ w, isSpace d = false := by
      intro w hw
      obtain ⟨g1, g2⟩ := wordsOf_good _ _ w hw
      refine ⟨g1, fun d hd => ?_⟩
      have := g2 d hd
      rw [isSpace_eq]
      simp only [decide_eq_false_iff_not, not_or] at this
      simp [this.1]
    rcases hws : textWords s.chars with _ | ⟨w, ws⟩
    · rw [hws, a4 hws] at a3
      have : cleaned s.chars = [32] := by
        rw [a3]
        rcases a2 with rfl | rfl
        · rw [a3] at hcne; exact absurd rfl hcne
        · rfl
      rw [this]
      have : stringPadding [32] = .ok [32] := rfl
      rw [this]
      have hs : separators isSpace [32] 0 = [(0, 1)] := rfl
      simp only [Except.map, parseNgramCharwb, hs]
      rw [if_neg (by omega), if_neg (by simp)]
      rfl
    · rw [hws] at a3 hgood
      obtain ⟨a, b, e1, e2, e3, e4⟩ := join_ends isSpace _ hgood (by simp)
      have hJ : joinWords (w :: ws) ≠ [] := by
        intro h
        rw [h] at e1
        cases e1
      have hpad : stringPadding (cleaned s.chars) = .ok (32 :: (joinWords (w :: ws) ++ [32])) := by
        have sp : isSpace 32 = true := rfl
        rw [a3]
        unfold stringPadding
        rcases a1 with rfl | rfl <;> rcases a2 with rfl | rfl
        · simp only [List.nil_append, List.append_nil, e1, e2, e3, e4]
          rfl
        · rw [List.nil_append, List.head?_append, e1, List.getLast?_concat]
          simp only [Option.some_or, e3, sp]
          rfl
        · rw [List.append_nil, List.getLast?_append, e2]
          simp only [List.cons_append, List.head?_cons, List.nil_append, Option.some_or, sp, e4]
          rfl
        · rw [List.getLast?_concat]
          simp only [List.cons_append, List.head?_cons, List.nil_append, sp]
          rfl
      rw [hpad]
      simp only [Except.map]
      have hsep : separators isSpace (32 :: (joinWords (w :: ws) ++ [32])) 0 = (0, 1) :: marks 1 (w :: ws) := by
        simp only [separators, show isSpace 32 = true from rfl, if_true]
        rw [seps_join isSpace rfl _ hgood _ (by simp)]
      simp only [parseNgramCharwb, hsep]
      rw [if_neg (by omega), if_neg (by simp)]
      simp only
      have := charwb_join (32 :: (joinWords (w :: ws) ++ [32])) c.lo c.hi h3 (w :: ws) 0 (by simp) rfl
      have := congrArg (List.map Str.mk) this
      rw [List.map_map, List.map_flatMap] at this
      rw [← this]
      rfl
  · intro h
    rw [h]
    rfl

/-- **C64 (failing documents).**  A document that cannot be parsed throws and leaves the statistics as they were. -/
theorem C64_failed_document {F : Type} (c : DocConfig F) (doc : Str) (st : DocState) (e : Err)
    (h : c.text.tokens doc = .error e) : c.fit doc st = (.error e, st) := by
  unfold DocConfig.fit
  rw [h]

/-! ### Examples -/

/-- "Hi, the-re you  ": three or four words. -/
private def hello : Str := ⟨bytesOf "Hi, the-re you  "⟩

example : OnlyBlanks hello.chars ∧ (textWords hello.chars).length = 4 := by
  unfold OnlyBlanks
  decide +kernel

example : (⟨.word, none, 1, 1⟩ : TextConfig).tokens hello
    = .ok (["Hi,", "the-re", "you"].map fun w => ⟨bytesOf w⟩) := by
  rw [C64_single_words _ _ rfl rfl rfl rfl]
  decide +kernel

example : (⟨.word, none, 2, 3⟩ : TextConfig).tokens hello
    = .ok (["Hi the", "the re", "re you", "Hi the re", "the re you"].map fun w => ⟨bytesOf w⟩) := by
  rw [(C64_word_ngrams _ _ rfl rfl (by decide) (by unfold OnlyBlanks; decide +kernel)).1 (by decide) (by decide)
    (by decide +kernel)]
  decide +kernel

example : (⟨.charwb, none, 4, 5⟩ : TextConfig).tokens hello
    = .ok ([" Hi ", " the", "the ", " re ", " you", "you "].map fun w => ⟨bytesOf w⟩) := by
  rw [(C64_charwb_ngrams _ _ rfl (by unfold OnlyBlanks; decide +kernel) (by decide) (by decide)).1 (by decide +kernel)]
  decide +kernel

example : (⟨.char, none, 6, 6⟩ : TextConfig).tokens ⟨bytesOf "a..b  c!"⟩
    = .ok (["a b c "].map fun w => ⟨bytesOf w⟩) := by
  rw [(C64_char_ngrams _ _ rfl).1 (by decide) (by decide) (by decide +kernel)]
  decide +kernel

/-- A document with fewer words than the range asks for throws. -/
example : (⟨.word, none, 2, 5⟩ : TextConfig).tokens hello = .error .invalidArgument :=
  (C64_word_ngrams _ _ rfl rfl (by decide) (by unfold OnlyBlanks; decide +kernel)).2 (by decide +kernel)

end Feat
