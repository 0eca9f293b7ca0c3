import Verif.Spec.DocStats
import Verif.Proofs.Categorical
import Verif.Props.Categorical
import Mathlib.Data.List.Count
/-
Lemmas about document statistics.
-/
namespace Feat
variable {F : Type}

/-! ### Ordered sets -/

/-- A comparison function that is a strict total order. -/
structure StrictTotal {K : Type} (lt : K → K → Bool) : Prop where
  irrefl : ∀ a, lt a a = false
  trans : ∀ a b c, lt a b = true → lt b c = true → lt a c = true
  total : ∀ a b, lt a b = false → lt b a = false → a = b

theorem mem_setInsert {K : Type} {lt : K → K → Bool} (h : StrictTotal lt) (x y : K) (l : List K) :
    y ∈ setInsert lt x l ↔ y = x ∨ y ∈ l := by
  induction l with
  | nil => simp [setInsert]
  | cons z l ih =>
    unfold setInsert
    split
    · simp
    · split
      · simp only [List.mem_cons, ih]; tauto
      · rename_i h1 h2
        have := h.total x z (by simpa using h1) (by simpa using h2)
        subst this
        simp

theorem sorted_setInsert {K : Type} {lt : K → K → Bool} (h : StrictTotal lt) (x : K) (l : List K)
    (hl : l.Pairwise fun a b => lt a b = true) : (setInsert lt x l).Pairwise fun a b => lt a b = true := by
  induction l with
  | nil => simp [setInsert]
  | cons z l ih =>
    unfold setInsert
    rw [List.pairwise_cons] at hl
    split
    · rename_i h1
      rw [List.pairwise_cons, List.pairwise_cons]
      refine ⟨?_, hl⟩
      intro a ha
      rcases List.mem_cons.1 ha with rfl | ha
      · exact h1
      · exact h.trans x z a h1 (hl.1 a ha)
    · split
      · rename_i h1 h2
        rw [List.pairwise_cons]
        refine ⟨?_, ih hl.2⟩
        intro a ha
        rcases (mem_setInsert h x a l).1 ha with rfl | ha
        · exact h2
        · exact hl.1 a ha
      · exact List.pairwise_cons.2 hl

/-- Inserting a list of elements: the set has exactly these elements, once each. -/
theorem insertAll_props {K : Type} {lt : K → K → Bool} (h : StrictTotal lt) (xs s : List K)
    (hs : s.Pairwise fun a b => lt a b = true) :
    (xs.foldl (fun s t => setInsert lt t s) s).Pairwise (fun a b => lt a b = true) ∧
      ∀ y, y ∈ xs.foldl (fun s t => setInsert lt t s) s ↔ y ∈ s ∨ y ∈ xs := by
  induction xs generalizing s with
  | nil => simpa using hs
  | cons x xs ih =>
    rw [List.foldl_cons]
    obtain ⟨h1, h2⟩ := ih _ (sorted_setInsert h x s hs)
    refine ⟨h1, fun y => ?_⟩
    rw [h2, mem_setInsert h, List.mem_cons]
    tauto

theorem StrictTotal.nodup {K : Type} {lt : K → K → Bool} (h : StrictTotal lt) {l : List K}
    (hl : l.Pairwise fun a b => lt a b = true) : l.Nodup := by
  refine hl.imp ?_
  rintro a b hab rfl
  rw [h.irrefl] at hab
  cases hab

theorem strictTotal_order {K : Type} [LinearOrder K] : StrictTotal (fun a b : K => decide (a < b)) where
  irrefl a := by simp
  trans a b c h1 h2 := by
    simp only [decide_eq_true_eq] at *
    exact lt_trans h1 h2
  total a b h1 h2 := by
    simp only [decide_eq_false_iff_not, not_lt] at *
    exact le_antisymm h2 h1

private theorem charsLess_irrefl (a : List UInt8) : charsLess a a = false := by
  induction a with
  | nil => rfl
  | cons a as ih =>
    unfold charsLess
    have : ¬ a.toInt8 < a.toInt8 := by simp
    rw [if_neg this, if_neg this, ih]

private theorem charsLess_trans (a b c : List UInt8) (h1 : charsLess a b = true) (h2 : charsLess b c = true) :
    charsLess a c = true := by
  induction a generalizing b c with
  | nil => simp [charsLess] at h1
  | cons a as ih =>
    match b, c, h1, h2 with
    | [], _, h1, _ => simp [charsLess] at h1
    | b :: bs, [], _, h2 => simp [charsLess] at h2
    | b :: bs, c :: cs, h1, h2 =>
      unfold charsLess at h1 h2 ⊢
      simp only [Int8.lt_iff_toInt_lt] at *
      split at h1
      · cases h1
      · split at h2
        · cases h2
        · by_cases hab : a.toInt8.toInt < b.toInt8.toInt
          · rw [if_neg (by omega), if_pos (by omega)]
          · by_cases hbc : b.toInt8.toInt < c.toInt8.toInt
            · rw [if_neg (by omega), if_pos (by omega)]
            · rw [if_neg hab] at h1
              rw [if_neg hbc] at h2
              rw [if_neg (by omega), if_neg (by omega)]
              exact ih bs cs h1 h2

private theorem charsLess_total (a b : List UInt8) (hl : a.length = b.length) (h1 : charsLess a b = false)
    (h2 : charsLess b a = false) : a = b := by
  induction a generalizing b with
  | nil => cases b with
    | nil => rfl
    | cons b bs => simp at hl
  | cons a as ih =>
    cases b with
    | nil => simp at hl
    | cons b bs =>
      unfold charsLess at h1 h2
      simp only [Int8.lt_iff_toInt_lt] at *
      split at h1
      · rw [if_neg (by omega), if_pos (by omega)] at h2; cases h2
      · split at h1
        · cases h1
        · rw [if_neg (by omega), if_neg (by omega)] at h2
          have hab : a.toInt8 = b.toInt8 := by
            rw [← Int8.toInt_inj]; omega
          have hab : a = b := by
            have := congrArg Int8.toUInt8 hab
            simpa using this
          rw [hab, ih bs (by simpa using hl) h1 h2]

/-- The comparison of ranges used for sets and maps of ranges is a strict total order on their contents. -/
theorem strictTotal_range : StrictTotal rangeLess where
  irrefl a := by
    unfold rangeLess
    rw [if_neg (Nat.lt_irrefl _), if_neg (Nat.lt_irrefl _), charsLess_irrefl]
  trans a b c h1 h2 := by
    unfold rangeLess at *
    split at h1
    · split at h2
      · rw [if_pos (by omega)]
      · split at h2
        · cases h2
        · rw [if_pos (by omega)]
    · split at h1
      · cases h1
      · split at h2
        · rw [if_pos (by omega)]
        · split at h2
          · cases h2
          · rw [if_neg (by omega), if_neg (by omega)]
            exact charsLess_trans _ _ _ h1 h2
  total a b h1 h2 := by
    unfold rangeLess at *
    split at h1
    · cases h1
    · split at h1
      · rw [if_pos (by omega)] at h2; cases h2
      · rw [if_neg (by omega), if_neg (by omega)] at h2
        have := charsLess_total a.chars b.chars (by omega) h1 h2
        cases a; cases b; simp_all

/-- The set of terms of a document: its terms, once each. -/
theorem distinct_props (c : DocConfig F) (ts : List Str) :
    (c.distinct ts).Nodup ∧ ∀ t, t ∈ c.distinct ts ↔ t ∈ ts.map (c.decorator.getD id) := by
  unfold DocConfig.distinct
  rcases hd : c.decorator with _ | d
  · have := insertAll_props strictTotal_range ts [] (by simp)
    simp only [Option.getD_none, List.map_id, List.not_mem_nil, false_or] at this ⊢
    exact ⟨strictTotal_range.nodup this.1, this.2⟩
  · have := insertAll_props (strictTotal_order (K := Str)) (ts.map d) [] (by simp)
    simp only [Option.getD_some, List.not_mem_nil, false_or] at this ⊢
    exact ⟨strictTotal_order.nodup this.1, this.2⟩

/-! ### Counting -/

/-- The terms counted for a document. -/
def DocConfig.counted (c : DocConfig F) (doc : Str) : List Str :=
  match c.text.tokens doc with
  | .ok ts => c.distinct ts
  | .error _ => []

theorem counted_props (c : DocConfig F) (doc : Str) :
    (c.counted doc).Nodup ∧ ∀ t, t ∈ c.counted doc ↔ t ∈ c.termsOf doc := by
  unfold DocConfig.counted DocConfig.termsOf
  rcases c.text.tokens doc with e | ts
  · simp
  · exact distinct_props c ts

theorem fitAll_docs {F : Type} (it : IterOrder Str UInt32) (nth : NthElement) (fl : FloatOps F)
    (c : DocConfig F) (docs : List Str) (hp : ∀ d ∈ docs, ∃ ts, c.text.tokens d = .ok ts) (s : DocState) :
    (docStatsPolicy it nth fl c).fitAll docs s =
      (.ok (), ⟨(docs.flatMap c.counted).foldl histStep s.termFrequency, s.total + UInt32.ofNat docs.length⟩) := by
  induction docs generalizing s with
  | nil => simp [Policy.fitAll]
  | cons d docs ih =>
    obtain ⟨ts, hts⟩ := hp d (by simp)
    unfold Policy.fitAll
    have hf : (docStatsPolicy it nth fl c).fit d s = (.ok (), ⟨(c.distinct ts).foldl histStep s.termFrequency, s.total + 1⟩) := by
      simp only [docStatsPolicy, DocConfig.fit, hts]
      rfl
    rw [hf]
    simp only
    rw [ih (fun d hd => hp d (by simp [hd]))]
    have hc : c.counted d = c.distinct ts := by simp only [DocConfig.counted, hts]
    rw [List.flatMap_cons, List.foldl_append, hc, List.length_cons]
    congr 2
    rw [UInt32.ofNat_add, UInt32.add_assoc, UInt32.add_comm 1]
    rfl

theorem count_flatMap (c : DocConfig F) (docs : List Str) (t : Str) :
    (docs.flatMap c.counted).count t = docFreq c docs t := by
  unfold docFreq
  induction docs with
  | nil => rfl
  | cons d docs ih =>
    obtain ⟨hn, hm⟩ := counted_props c d
    rw [List.flatMap_cons, List.count_append, ih, List.countP_cons]
    by_cases h : t ∈ c.termsOf d
    · rw [List.count_eq_one_of_mem hn ((hm t).2 h)]
      simp [h]; omega
    · rw [List.count_eq_zero_of_not_mem (fun h' => h ((hm t).1 h'))]
      simp [h]

theorem docFreq_le (c : DocConfig F) (docs : List Str) (t : Str) : docFreq c docs t ≤ docs.length :=
  List.countP_le_length

theorem mem_flatMap_counted (c : DocConfig F) (docs : List Str) (t : Str) :
    t ∈ docs.flatMap c.counted ↔ 1 ≤ docFreq c docs t := by
  rw [← count_flatMap]
  constructor
  · intro h; exact List.count_pos_iff.2 h
  · intro h; exact List.count_pos_iff.1 h

/-- The frequencies after training on fewer than 2³² documents. -/
theorem frequencies (c : DocConfig F) (docs : List Str) (hn : docs.length < 2 ^ 32) (t : Str) (f : UInt32) :
    (t, f) ∈ ((docs.flatMap c.counted).foldl histStep UMap.empty).entries ↔
      1 ≤ docFreq c docs t ∧ f.toNat = docFreq c docs t := by
  rw [← UMap.find?_eq_some, hist_fold_find, UMap.find?_empty, count_flatMap]
  have hlt := Nat.lt_of_le_of_lt (docFreq_le c docs t) hn
  by_cases h : t ∈ docs.flatMap c.counted
  · rw [if_pos h]
    rw [mem_flatMap_counted] at h
    simp only [Option.getD_none, UInt32.zero_add, Option.some.injEq, h, true_and]
    rw [← UInt32.toNat_inj, UInt32.toNat_ofNat_of_lt' hlt]
    exact eq_comm
  · rw [if_neg h]
    rw [mem_flatMap_counted] at h
    simp [h]

/-! ### The most frequent terms -/

private theorem getD_getElem (l : List UInt32) {i : Nat} (h : i < l.length) : l.getD i 0 = l[i] := by
  simp [List.getD, h]

private theorem countP_split (l : List UInt32) (t : UInt32) (h : ∀ x ∈ l, t ≤ x) :
    l.countP (fun x => decide (t < x)) + l.count t = l.length := by
  induction l with
  | nil => rfl
  | cons x l ih =>
    have hx := h x (by simp)
    have := ih (fun y hy => h y (by simp [hy]))
    rw [List.countP_cons, List.count_cons, List.length_cons]
    rw [UInt32.le_iff_toNat_le] at hx
    by_cases he : x = t
    · subst he
      simp
      omega
    · have hne : ¬ x.toNat = t.toNat := fun hh => he (UInt32.toNat_inj.1 hh)
      have h1 : t < x := by rw [UInt32.lt_iff_toNat_lt]; omega
      have h2 : (x == t) = false := by simpa using he
      simp [h1, h2]
      omega

private theorem filter_notMem_drop {K : Type} [DecidableEq K] (l : List K) (h : l.Nodup) (r : Nat) :
    l.filter (fun x => !decide (x ∈ l.drop r)) = l.take r := by
  have hd : (l.take r).Disjoint (l.drop r) := by
    have h' : (l.take r ++ l.drop r).Nodup := by rw [List.take_append_drop]; exact h
    exact List.disjoint_of_nodup_append h'
  have : ∀ m, l.drop r = m → (l.take r ++ l.drop r).filter (fun x => !decide (x ∈ m)) = l.take r := by
    intro m hm
    subst hm
    rw [List.filter_append]
    have h1 : (l.take r).filter (fun x => !decide (x ∈ l.drop r)) = l.take r := by
      rw [List.filter_eq_self]
      intro a ha
      simpa using hd ha
    have h2 : (l.drop r).filter (fun x => !decide (x ∈ l.drop r)) = [] := by
      rw [List.filter_eq_nil_iff]
      intro a ha
      simpa using ha
    rw [h1, h2, List.append_nil]
  have h0 := this _ rfl
  rwa [List.take_append_drop] at h0

/-- The trimming to the `k` most frequent terms. -/
theorem trimTopK_props (it : IterOrder Str UInt32) (nth : NthElement) (k : UInt32) (hk0 : k ≠ 0) (hk : k.toNat < 2 ^ 31)
    (m : UMap Str UInt32) :
    ∃ m', trimTopK it nth (some k) m = .ok m' ∧ (∀ e ∈ m'.entries, e ∈ m.entries) ∧ m'.entries.length ≤ k.toNat ∧
      ∀ e ∈ m.entries, e ∉ m'.entries → m'.entries.length = k.toNat ∧
        ∀ a ∈ m'.entries, e.2 < a.2 ∨ (e.2 = a.2 ∧ a.1 < e.1) := by
  unfold trimTopK
  simp only
  have hkpos : 0 < k.toNat := by
    rcases Nat.eq_zero_or_pos k.toNat with h | h
    · exact absurd (UInt32.toNat_inj.1 (by simpa using h)) hk0
    · exact h
  by_cases hsz : m.size = 0 ∨ k.toNat ≥ m.size
  · rw [if_pos hsz]
    refine ⟨m, rfl, fun _ h => h, ?_, fun e he he' => absurd he he'⟩
    unfold UMap.size at hsz
    omega
  · rw [if_neg hsz, if_neg (by omega)]
    have hn : k.toNat < m.entries.length := by unfold UMap.size at hsz; omega
    refine ⟨_, rfl, ?_⟩
    have hvals : ((it.order m.entries).map (·.2)).Perm (m.entries.map (·.2)) := (it.perm m.entries).map _
    generalize hl : (it.order m.entries).map (·.2) = vals at *
    have hlen : vals.length = m.entries.length := by rw [hvals.length_eq, List.length_map]
    have hvp := nth.perm vals (k.toNat - 1)
    have hbef := nth.before vals (k.toNat - 1)
    have haft := nth.after vals (k.toNat - 1)
    generalize nth.run vals (k.toNat - 1) = v at *
    have hvl : v.length = m.entries.length := by rw [hvp.length_eq, hlen]
    generalize ht : v.getD (k.toNat - 1) 0 = t at *
    have hge : ∀ x ∈ v.take k.toNat, t ≤ x := by
      intro x hx
      obtain ⟨i, hi, rfl⟩ := List.getElem_of_mem hx
      rw [List.length_take] at hi
      rw [List.getElem_take]
      rcases Nat.lt_or_ge i (k.toNat - 1) with h | h
      · have := hbef i (by omega) h
        rw [getD_getElem v (by omega)] at this
        exact this
      · have : i = k.toNat - 1 := by omega
        subst this
        rw [← ht, getD_getElem v (by omega)]
        exact UInt32.le_refl _
    have hle : ∀ x ∈ v.drop k.toNat, x ≤ t := by
      intro x hx
      obtain ⟨i, hi, rfl⟩ := List.getElem_of_mem hx
      rw [List.length_drop] at hi
      rw [List.getElem_drop]
      have := haft (k.toNat + i) (by omega) (by omega)
      rw [getD_getElem v (by omega)] at this
      exact this
    have hsplit := countP_split (v.take k.toNat) t hge
    generalize hr : (v.take k.toNat).count t = r at *
    rw [List.length_take, Nat.min_eq_left (by omega)] at hsplit
    -- the number of more frequent entries
    have hgt : m.entries.countP (fun e => decide (t < e.2)) = k.toNat - r := by
      have h1 : m.entries.countP (fun e => decide (t < e.2)) = v.countP (fun x => decide (t < x)) := by
        rw [(hvp.trans hvals).countP_eq, List.countP_map]
        rfl
      have h2 : v.countP (fun x => decide (t < x)) = (v.take k.toNat).countP (fun x => decide (t < x)) := by
        conv_lhs => rw [← List.take_append_drop k.toNat v]
        rw [List.countP_append]
        have : (v.drop k.toNat).countP (fun x => decide (t < x)) = 0 := by
          rw [List.countP_eq_zero]
          intro x hx
          have := hle x hx
          rw [UInt32.le_iff_toNat_le] at this
          simp only [decide_eq_true_eq, UInt32.lt_iff_toNat_lt]
          omega
        omega
      omega
    -- the entries with the target frequency
    have heq : r ≤ (m.entries.filter fun e => e.2 == t).length := by
      have h1 : (m.entries.filter fun e => e.2 == t).length = v.count t := by
        rw [← List.countP_eq_length_filter, List.count, (hvp.trans hvals).countP_eq, List.countP_map]
        rfl
      have h2 : (v.take k.toNat).count t ≤ v.count t := (List.take_sublist _ _).count_le _
      omega
    generalize hm' : m.filter (fun e => !decide (e.2 < t)) = m' at *
    have hm'e : m'.entries = m.entries.filter (fun e => !decide (e.2 < t)) := by rw [← hm']; rfl
    have hf' : m'.entries.filter (fun e => e.2 == t) = m.entries.filter (fun e => e.2 == t) := by
      rw [hm'e, List.filter_filter]
      apply List.filter_congr
      intro e _
      by_cases h : e.2 = t
      · simp [h]
      · simp [h]
    -- the sorted candidates
    have hcp : (((it.order m'.entries).filter fun e => e.2 == t).map (·.1)).Perm
        ((m.entries.filter fun e => e.2 == t).map (·.1)) := by
      rw [← hf']
      exact ((it.perm m'.entries).filter _).map _
    have hsp := (List.perm_insertionSort (· ≤ ·) (((it.order m'.entries).filter fun e => e.2 == t).map (·.1))).trans hcp
    have hss := List.pairwise_insertionSort (· ≤ ·) (((it.order m'.entries).filter fun e => e.2 == t).map (·.1))
    generalize ((((it.order m'.entries).filter fun e => e.2 == t).map (·.1)).insertionSort (· ≤ ·)) = S at *
    have hSn : S.Nodup := by
      rw [hsp.nodup_iff]
      exact (List.filter_sublist.map _).nodup m.nodup
    have hSl : S.length = (m.entries.filter fun e => e.2 == t).length := by rw [hsp.length_eq, List.length_map]
    have hSm : ∀ x, x ∈ S ↔ (x, t) ∈ m.entries := by
      intro x
      rw [hsp.mem_iff, List.mem_map]
      constructor
      · rintro ⟨⟨a, b⟩, he, rfl⟩
        rw [List.mem_filter] at he
        have : b = t := by simpa using he.2
        subst this
        exact he.1
      · intro h
        exact ⟨(x, t), List.mem_filter.2 ⟨h, by simp⟩, rfl⟩
    -- the result
    have hres : (m'.filter fun e => !decide (e.1 ∈ S.drop r)).entries
        = m.entries.filter (fun e => !decide (e.2 < t) && !decide (e.1 ∈ S.drop r)) := by
      show m'.entries.filter _ = _
      rw [hm'e, List.filter_filter]
      apply List.filter_congr
      intro e _
      rw [Bool.and_comm]
    rw [hres]
    have hresl : (m.entries.filter (fun e => !decide (e.2 < t) && !decide (e.1 ∈ S.drop r))).length = k.toNat := by
      have h1 : ∀ l : List (Str × UInt32), (∀ e ∈ l, e ∈ m.entries) →
          (l.filter (fun e => !decide (e.2 < t) && !decide (e.1 ∈ S.drop r))).length
          = l.countP (fun e => decide (t < e.2)) +
            ((l.filter fun e => e.2 == t).map (·.1)).countP (fun x => !decide (x ∈ S.drop r)) := by
        intro l
        induction l with
        | nil => intro _; rfl
        | cons e l ih =>
          intro hsub
          have ih := ih (fun e he => hsub e (by simp [he]))
          have hee := hsub e (by simp)
          rw [List.filter_cons, List.countP_cons, List.filter_cons]
          by_cases h1 : e.2 = t
          · have h2 : ¬ e.2 < t := by rw [h1]; exact UInt32.lt_irrefl t
            have h3 : ¬ t < e.2 := by rw [h1]; exact UInt32.lt_irrefl t
            by_cases h4 : e.1 ∈ S.drop r
            · simp only [h1, h4, decide_true, Bool.not_true, Bool.and_false, Bool.false_eq_true, if_false,
                UInt32.lt_irrefl, decide_false, beq_self_eq_true, if_true, List.map_cons, List.countP_cons]
              omega
            · simp only [h1, h4, Bool.false_eq_true, if_false, UInt32.lt_irrefl, decide_false, beq_self_eq_true, if_true,
                List.map_cons, List.countP_cons, Bool.not_false, Bool.and_self, List.length_cons]
              omega
          · have hb : (e.2 == t) = false := by simpa using h1
            have hne : ¬ e.2.toNat = t.toNat := fun hh => h1 (UInt32.toNat_inj.1 hh)
            have h4 : ¬ e.1 ∈ S.drop r := by
              intro h
              have := (hSm e.1).1 (List.mem_of_mem_drop h)
              have h5 := (m.find?_eq_some e.1 t).2 this
              have h6 := (m.find?_eq_some e.1 e.2).2 hee
              rw [h5] at h6
              exact h1 (Option.some.inj h6).symm
            by_cases h2 : e.2 < t
            · have h3 : ¬ t < e.2 := by
                rw [UInt32.lt_iff_toNat_lt] at *; omega
              simp only [h2, h3, hb, decide_true, Bool.not_true, Bool.false_and, Bool.false_eq_true, if_false,
                decide_false]
              omega
            · have h3 : t < e.2 := by
                rw [UInt32.lt_iff_toNat_lt] at *; omega
              simp only [h2, h3, hb, h4, decide_true, Bool.not_false, Bool.and_self, Bool.false_eq_true, if_false,
                decide_false, if_true, List.length_cons]
              omega
      rw [h1 _ (fun _ h => h), hgt, ← hsp.countP_eq, List.countP_eq_length_filter, filter_notMem_drop S hSn, List.length_take]
      omega
    refine ⟨fun e he => (List.mem_filter.1 he).1, Nat.le_of_eq hresl, ?_⟩
    intro e he hne
    refine ⟨hresl, ?_⟩
    intro a ha
    obtain ⟨ham, hap⟩ := List.mem_filter.1 ha
    rw [List.mem_filter] at hne
    simp only [Bool.and_eq_true, Bool.not_eq_true', decide_eq_false_iff_not] at hap
    simp only [he, true_and, Bool.and_eq_true, Bool.not_eq_true', decide_eq_false_iff_not, not_and,
      Decidable.not_not] at hne
    by_cases hlt : e.2 < t
    · left
      have := hap.1
      rw [UInt32.lt_iff_toNat_lt] at *
      omega
    · have hed := hne hlt
      have het : e.2 = t := by
        have h5 := (m.find?_eq_some e.1 t).2 ((hSm e.1).1 (List.mem_of_mem_drop hed))
        have h6 := (m.find?_eq_some e.1 e.2).2 he
        rw [h5] at h6
        exact (Option.some.inj h6).symm
      by_cases hat : a.2 = t
      · right
        refine ⟨het.trans hat.symm, ?_⟩
        have haS : a.1 ∈ S := (hSm a.1).2 (by rw [← hat]; exact ham)
        rw [← List.take_append_drop r S, List.mem_append] at haS
        rcases haS with haS | haS
        · have hss' : (S.take r ++ S.drop r).Pairwise (· ≤ ·) := by rw [List.take_append_drop]; exact hss
          have h7 := (List.pairwise_append.1 hss').2.2 a.1 haS e.1 hed
          refine lt_of_le_of_ne h7 ?_
          intro h8
          rw [h8] at hap
          exact hap.2 hed
        · exact absurd haS hap.2
      · left
        have hne' : ¬ a.2.toNat = t.toNat := fun hh => hat (UInt32.toNat_inj.1 hh)
        have := hap.1
        rw [het]
        rw [UInt32.lt_iff_toNat_lt] at *
        omega

end Feat
