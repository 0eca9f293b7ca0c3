import Verif.Model.Categorical
import Verif.Proofs.Components
/-
Lemmas about histogram, order map, index map and mode.
-/
namespace Feat
variable {K : Type}

/-! ### Histogram -/

/-- One step of `histogramPolicy.fit`. -/
def histStep [DecidableEq K] (m : UMap K UInt32) (k : K) : UMap K UInt32 :=
  (match m.find? k with
    | some _ => m
    | none => m.emplace k 0).update k (· + 1)

theorem histStep_find [DecidableEq K] (m : UMap K UInt32) (k k' : K) :
    (histStep m k).find? k' =
      if k' = k then some ((m.find? k).getD 0 + 1) else m.find? k' := by
  unfold histStep
  rw [UMap.find?_update]
  rcases hf : m.find? k with _ | v
  · simp only [UMap.find?_emplace]
    by_cases h : k' = k
    · subst h; simp [hf]
    · simp only [h, if_false]
      rcases m.find? k' <;> rfl
  · simp only
    by_cases h : k' = k
    · subst h; simp [hf]
    · simp [h]

theorem hist_fold_find [DecidableEq K] (xs : List K) (m : UMap K UInt32) (k : K) :
    (xs.foldl histStep m).find? k =
      if k ∈ xs then some ((m.find? k).getD 0 + UInt32.ofNat (xs.count k)) else m.find? k := by
  induction xs generalizing m with
  | nil => simp
  | cons x xs ih =>
    rw [List.foldl_cons, ih, histStep_find]
    by_cases hx : k = x
    · subst hx
      simp only [if_true, List.mem_cons, true_or, Option.getD_some, List.count_cons_self]
      by_cases hm : k ∈ xs
      · simp only [hm, if_true, Option.some.injEq]
        rw [UInt32.ofNat_add, UInt32.add_assoc, UInt32.add_comm (UInt32.ofNat _)]
        rfl
      · simp [hm, List.count_eq_zero_of_not_mem hm]
    · have hx' : ¬ x = k := fun h => hx h.symm
      simp [hx, hx']

/-- The counts of distinct keys that cover a list add up to its length. -/
theorem sum_count_eq [DecidableEq K] (ks data : List K) (hn : ks.Nodup) (hc : ∀ x ∈ data, x ∈ ks) :
    (ks.map (fun k => data.count k)).sum = data.length := by
  induction data with
  | nil => induction ks <;> simp_all
  | cons x xs ih =>
    have ihx := ih (fun y hy => hc y (by simp [hy]))
    rw [List.length_cons, ← ihx]
    have hx := hc x (by simp)
    clear ihx ih hc
    induction ks with
    | nil => simp at hx
    | cons k ks ih =>
      rw [List.nodup_cons] at hn
      simp only [List.map_cons, List.sum_cons, List.count_cons]
      by_cases hk : x = k
      · subst hk
        have : ks.map (fun k => xs.count k + if (x == k) then 1 else 0)
            = ks.map (fun k => xs.count k) := by
          apply List.map_congr_left
          intro a ha
          have : ¬ x = a := fun h => hn.1 (h ▸ ha)
          simp [this]
        rw [this]
        simp only [beq_self_eq_true, if_true]
        omega
      · have hx' : x ∈ ks := by
          rcases List.mem_cons.1 hx with h | h
          · exact absurd h hk
          · exact h
        have := ih hn.2 hx'
        simp only [List.count_cons] at this
        have hk' : (x == k) = false := by simpa using hk
        rw [this, hk']
        simp only [Bool.false_eq_true, if_false]
        omega

/-! ### Order map -/

/-- One step of `orderPolicy.fit`. -/
def orderStep [DecidableEq K] (m : UMap K UInt32) (k : K) : UMap K UInt32 :=
  m.emplace k (UInt32.ofNat m.size)

/-- The distinct values in order of first occurrence. -/
def firstSeen [DecidableEq K] : List K → List K
  | [] => []
  | x :: xs => x :: (firstSeen xs).filter (· ≠ x)

theorem mem_firstSeen [DecidableEq K] (xs : List K) (k : K) : k ∈ firstSeen xs ↔ k ∈ xs := by
  induction xs with
  | nil => simp [firstSeen]
  | cons x xs ih =>
    simp only [firstSeen, List.mem_cons, List.mem_filter, ih, decide_eq_true_eq]
    by_cases h : k = x <;> simp [h]

/-- `indexKeys` without the map. -/
theorem emplaceAll_find [DecidableEq K] (xs : List K) (m : UMap K UInt32) (k : K) :
    (∀ v, m.find? k = some v → (xs.foldl orderStep m).find? k = some v) ∧
    (k ∉ xs → (xs.foldl orderStep m).find? k = m.find? k) ∧
    (m.find? k = none → k ∈ xs →
      (xs.foldl orderStep m).find? k = some (UInt32.ofNat (m.size +
        ((firstSeen xs).filter (fun y => (m.find? y).isNone)).idxOf k))) := by
  induction xs generalizing m with
  | nil => simp
  | cons x xs ih =>
    obtain ⟨i1, i2, i3⟩ := ih (orderStep m x)
    have hstep : ∀ y, (orderStep m x).find? y = match m.find? y with
      | some w => some w
      | none => if y = x then some (UInt32.ofNat m.size) else none := by
        intro y
        have := UMap.find?_emplace m x (UInt32.ofNat m.size) y
        unfold orderStep
        rw [this]
        rcases m.find? y <;> rfl
    rw [List.foldl_cons]
    refine ⟨?_, ?_, ?_⟩
    · intro v hv
      exact i1 v (by rw [hstep, hv])
    · intro hk
      simp only [List.mem_cons, not_or] at hk
      rw [i2 hk.2, hstep]
      rcases m.find? k with _ | _
      · simp [hk.1]
      · rfl
    · intro hnone hk
      by_cases hkx : k = x
      · subst hkx
        rw [i1 (UInt32.ofNat m.size) (by rw [hstep, hnone]; simp)]
        simp only [firstSeen, List.filter_cons, hnone, Option.isNone_none, if_true,
          List.idxOf_cons_self, Nat.add_zero]
      · have hk' : k ∈ xs := by
          rcases List.mem_cons.1 hk with h | h
          · exact absurd h hkx
          · exact h
        have hn' : (orderStep m x).find? k = none := by rw [hstep, hnone]; simp [hkx]
        rw [i3 hn' hk']
        have hxk : (x == k) = false := by simpa using fun h : x = k => hkx h.symm
        have hfil : (firstSeen xs).filter (fun y => ((orderStep m x).find? y).isNone)
            = ((firstSeen xs).filter (· ≠ x)).filter (fun y => (m.find? y).isNone) := by
          rw [List.filter_filter]
          apply List.filter_congr
          intro y _
          rw [hstep]
          rcases m.find? y with _ | _
          · by_cases hy : y = x <;> simp [hy]
          · simp
        rw [hfil]
        rcases hx : m.find? x with _ | w
        · have hsz : (orderStep m x).size = m.size + 1 := by
            unfold orderStep
            rw [UMap.size_emplace, if_neg ((m.find?_eq_none x).1 hx)]
          simp only [firstSeen, List.filter_cons, hx, Option.isNone_none, if_true, hsz,
            List.idxOf_cons, hxk]
          congr 2
          simp only [cond_false]
          omega
        · have hsz : (orderStep m x).size = m.size := by
            unfold orderStep
            rw [UMap.size_emplace, if_pos]
            apply Decidable.byContradiction
            intro h
            rw [(m.find?_eq_none x).2 h] at hx
            cases hx
          simp [firstSeen, hx, hsz]

theorem indexKeys_eq [DecidableEq K] (ks : List K) (m : UMap K UInt32) :
    indexKeys ks m = ks.foldl orderStep m := by
  induction ks generalizing m with
  | nil => rfl
  | cons k ks ih => simp only [indexKeys, List.foldl_cons]; exact ih _

theorem firstSeen_nodup [DecidableEq K] (xs : List K) (h : xs.Nodup) : firstSeen xs = xs := by
  induction xs with
  | nil => rfl
  | cons x xs ih =>
    rw [List.nodup_cons] at h
    simp only [firstSeen, ih h.2, List.cons.injEq, true_and]
    rw [List.filter_eq_self]
    intro a ha
    have : a ≠ x := fun hh => h.1 (hh ▸ ha)
    simpa using this

theorem firstSeen_idx [DecidableEq K] (xs : List K) (a b : K) (ha : a ∈ xs) (hb : b ∈ xs) :
    (firstSeen xs).idxOf a < (firstSeen xs).idxOf b ↔ xs.idxOf a < xs.idxOf b := by
  have key : ∀ (l : List K) (p : K → Bool) (a b : K), p a = true → p b = true →
      a ∈ l → b ∈ l → ((l.filter p).idxOf a < (l.filter p).idxOf b ↔ l.idxOf a < l.idxOf b) := by
    intro l p a b pa pb ha hb
    induction l with
    | nil => simp at ha
    | cons x l ih =>
      by_cases hxa : x = a
      · subst hxa
        simp only [List.filter_cons, pa, if_true, List.idxOf_cons_self]
        by_cases hxb : x = b
        · subst hxb; simp
        · have : (x == b) = false := by simpa using hxb
          simp [List.idxOf_cons, this]
      · have hxa' : (x == a) = false := by simpa using hxa
        have ha' : a ∈ l := by
          rcases List.mem_cons.1 ha with h | h
          · exact absurd h.symm hxa
          · exact h
        by_cases hxb : x = b
        · subst hxb
          simp [pb]
        · have hxb' : (x == b) = false := by simpa using hxb
          have hb' : b ∈ l := by
            rcases List.mem_cons.1 hb with h | h
            · exact absurd h.symm hxb
            · exact h
          have := ih ha' hb'
          by_cases px : p x = true
          · simp [px, List.idxOf_cons, hxa', hxb', this]
          · simp [px, List.idxOf_cons, hxa', hxb', this]
  induction xs with
  | nil => simp at ha
  | cons x xs ih =>
    by_cases hxa : x = a
    · subst hxa
      by_cases hxb : x = b
      · subst hxb; simp
      · have : (x == b) = false := by simpa using hxb
        simp [firstSeen, List.idxOf_cons, this]
    · have hxa' : (x == a) = false := by simpa using hxa
      have ha' : a ∈ xs := by
        rcases List.mem_cons.1 ha with h | h
        · exact absurd h.symm hxa
        · exact h
      by_cases hxb : x = b
      · subst hxb; simp [firstSeen]
      · have hxb' : (x == b) = false := by simpa using hxb
        have hb' : b ∈ xs := by
          rcases List.mem_cons.1 hb with h | h
          · exact absurd h.symm hxb
          · exact h
        have h1 := ih ha' hb'
        have h2 := key (firstSeen xs) (fun y => decide (y ≠ x)) a b
          (by simpa using fun h : a = x => hxa h.symm) (by simpa using fun h : b = x => hxb h.symm)
          ((mem_firstSeen xs a).2 ha') ((mem_firstSeen xs b).2 hb')
        simp only [firstSeen, List.idxOf_cons, hxa', hxb', cond_false, Nat.add_lt_add_iff_right]
        exact h2.trans h1

/-- The index of a value among the values in order of first occurrence is small. -/
theorem firstSeen_idx_lt [DecidableEq K] (xs : List K) (a : K) (ha : a ∈ xs) :
    (firstSeen xs).idxOf a < xs.length := by
  have h1 : (firstSeen xs).length ≤ xs.length := by
    clear ha
    induction xs with
    | nil => simp [firstSeen]
    | cons x xs ih =>
      simp only [firstSeen, List.length_cons]
      have := List.length_filter_le (fun y => decide (y ≠ x)) (firstSeen xs)
      omega
  have := List.idxOf_lt_length_of_mem ((mem_firstSeen xs a).2 ha)
  omega

theorem order_fold_find [DecidableEq K] (xs : List K) (k : K) :
    (xs.foldl orderStep UMap.empty).find? k =
      if k ∈ xs then some (UInt32.ofNat ((firstSeen xs).idxOf k)) else none := by
  obtain ⟨_, h2, h3⟩ := emplaceAll_find xs (UMap.empty : UMap K UInt32) k
  by_cases h : k ∈ xs
  · rw [h3 rfl h, if_pos h]
    have : (firstSeen xs).filter (fun y => ((UMap.empty : UMap K UInt32).find? y).isNone)
        = firstSeen xs := by
      rw [List.filter_eq_self]; intro _ _; rfl
    rw [this]
    simp [UMap.empty, UMap.size]
  · rw [h2 h, if_neg h]; rfl

/-! ### Trained estimators -/

/-- The histogram of the data. -/
def histOf [DecidableEq K] (data : List K) : UMap K UInt32 := data.foldl histStep UMap.empty

/-- The order map of the data. -/
def orderOf [DecidableEq K] (data : List K) : UMap K UInt32 := data.foldl orderStep UMap.empty

theorem histOf_mem [DecidableEq K] (data : List K) (hlen : data.length < 2 ^ 32) (k : K) (v : UInt32) :
    (k, v) ∈ (histOf data).entries ↔ k ∈ data ∧ v.toNat = data.count k := by
  rw [← UMap.find?_eq_some, histOf, hist_fold_find]
  have hle : data.count k ≤ data.length := List.count_le_length
  by_cases hk : k ∈ data
  · simp only [hk, if_true, true_and, UMap.find?_empty, Option.getD_none, UInt32.zero_add,
      Option.some.injEq]
    have : (UInt32.ofNat (data.count k)).toNat = data.count k :=
      UInt32.toNat_ofNat_of_lt' (Nat.lt_of_le_of_lt hle hlen)
    constructor
    · rintro rfl; exact this
    · intro h; rw [← h] at this ⊢; simp
  · simp [hk, UMap.find?_empty]

theorem histogram_trained [DecidableEq K] (col cap : Nat) (hcap : 0 < cap) (batches : List (List K))
    (hb : NoEmptyBatch batches) (maps : AnnotationMaps (CatAnnot K)) (hcol : col < maps.length)
    (hnone : getAnnotation CatAnnot.isHistogram maps col "HistogramEstimator" = .ok none) :
    trainEstimator histogramPolicy (histogramConfig col) cap UMap.empty batches maps
      = (.ok (), (addAnnotation (some (.histogram (histOf (batches.flatten.take cap)))) col
          "HistogramEstimator" maps).2) := by
  rw [trainEstimator_fold histogramPolicy (histStep (K := K)) (fun _ _ => rfl)
    (fun _ _ => rfl) (histogramConfig col) cap hcap UMap.empty batches hb maps hcol rfl hnone]
  exact (addAnnotation_ok maps _ col _ hcol).1

theorem order_trained [DecidableEq K] (col cap : Nat) (hcap : 0 < cap) (batches : List (List K))
    (hb : NoEmptyBatch batches) (maps : AnnotationMaps (CatAnnot K)) (hcol : col < maps.length)
    (hnone : getAnnotation CatAnnot.isOrder maps col "OrderEstimator" = .ok none) :
    trainEstimator orderPolicy (orderConfig col) cap UMap.empty batches maps
      = if batches.flatten.take cap = [] then (.error .invalidArgument, maps)
        else (.ok (), (addAnnotation (some (.order (orderOf (batches.flatten.take cap)))) col
          "OrderEstimator" maps).2) := by
  rw [trainEstimator_fold orderPolicy (orderStep (K := K)) (fun _ _ => rfl)
    (fun _ _ => rfl) (orderConfig col) cap hcap UMap.empty batches hb maps hcol rfl hnone]
  simp only [orderPolicy]
  have hsz : ((batches.flatten.take cap).foldl orderStep (UMap.empty : UMap K UInt32)).size = 0 ↔
      batches.flatten.take cap = [] := by
    generalize batches.flatten.take cap = data
    constructor
    · intro h
      cases data with
      | nil => rfl
      | cons x xs =>
        have hf := order_fold_find (x :: xs) x
        rw [if_pos (by simp)] at hf
        unfold UMap.size at h
        unfold UMap.find? at hf
        rw [List.length_eq_zero_iff.1 h] at hf
        simp at hf
    · rintro rfl; rfl
  by_cases h : batches.flatten.take cap = []
  · rw [if_pos (hsz.2 h), if_pos h]
  · rw [if_neg (fun hh => h (hsz.1 hh)), if_neg h]
    exact (addAnnotation_ok maps _ col _ hcol).1

end Feat
