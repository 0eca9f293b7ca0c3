import Verif.Model.Numeric
import Verif.Proofs.Components
/-
Invariant of the two heaps.
-/
namespace Feat
variable {V : Type}

/-- What holds after feeding `xs`: `smaller` reversed followed by `larger` is `xs` sorted, and the sizes differ
by at most one. -/
structure HeapsInv [LinearOrder V] (xs : List V) (h : Heaps V) : Prop where
  perm : (h.smaller.reverse ++ h.larger).Perm xs
  sorted : (h.smaller.reverse ++ h.larger).Pairwise (· ≤ ·)
  size : h.smaller.length = h.larger.length ∨ h.smaller.length = h.larger.length + 1

private theorem insert_desc [LinearOrder V] (x : V) (l : List V) (h : l.Pairwise (· ≥ ·)) :
    (l.orderedInsert (· ≥ ·) x).Pairwise (· ≥ ·) := by
  induction l with
  | nil => simp
  | cons y ys ih =>
    rw [List.pairwise_cons] at h
    simp only [List.orderedInsert]
    split
    · rename_i hxy
      exact List.pairwise_cons.2 ⟨by
        intro z hz
        rcases List.mem_cons.1 hz with rfl | hz
        · exact hxy
        · exact le_trans (h.1 z hz) hxy, List.pairwise_cons.2 h⟩
    · rename_i hxy
      refine List.pairwise_cons.2 ⟨?_, ih h.2⟩
      intro z hz
      rcases List.mem_cons.1 ((List.perm_orderedInsert _ _ _).mem_iff.1 hz) with rfl | hz
      · exact le_of_lt (not_le.1 hxy)
      · exact h.1 z hz

private theorem insert_asc [LinearOrder V] (x : V) (l : List V) (h : l.Pairwise (· ≤ ·)) :
    (l.orderedInsert (· ≤ ·) x).Pairwise (· ≤ ·) := by
  induction l with
  | nil => simp
  | cons y ys ih =>
    rw [List.pairwise_cons] at h
    simp only [List.orderedInsert]
    split
    · rename_i hxy
      exact List.pairwise_cons.2 ⟨by
        intro z hz
        rcases List.mem_cons.1 hz with rfl | hz
        · exact hxy
        · exact le_trans hxy (h.1 z hz), List.pairwise_cons.2 h⟩
    · rename_i hxy
      refine List.pairwise_cons.2 ⟨?_, ih h.2⟩
      intro z hz
      rcases List.mem_cons.1 ((List.perm_orderedInsert _ _ _).mem_iff.1 hz) with rfl | hz
      · exact le_of_lt (not_le.1 hxy)
      · exact h.1 z hz

/-- The sortedness of the two parts. -/
private theorem sorted_iff [LinearOrder V] (h : Heaps V) :
    (h.smaller.reverse ++ h.larger).Pairwise (· ≤ ·) ↔
      h.smaller.Pairwise (· ≥ ·) ∧ h.larger.Pairwise (· ≤ ·) ∧
        ∀ a ∈ h.smaller, ∀ b ∈ h.larger, a ≤ b := by
  rw [List.pairwise_append, List.pairwise_reverse]
  simp only [List.mem_reverse]

private theorem push_inv [LinearOrder V] (xs : List V) (h : Heaps V) (hi : HeapsInv xs h) (x : V) :
    ((h.push x).smaller.reverse ++ (h.push x).larger).Perm (xs ++ [x]) ∧
    ((h.push x).smaller.reverse ++ (h.push x).larger).Pairwise (· ≤ ·) ∧
    (((h.push x).smaller.length = h.smaller.length + 1 ∧ (h.push x).larger.length = h.larger.length) ∨
     ((h.push x).smaller.length = h.smaller.length ∧ (h.push x).larger.length = h.larger.length + 1)) := by
  obtain ⟨hp, hs, hsz⟩ := hi
  rw [sorted_iff] at hs
  obtain ⟨h1, h2, h3⟩ := hs
  have hperm : ∀ (s l : List V), s.Perm (x :: h.smaller) → l = h.larger →
      (s.reverse ++ l).Perm (xs ++ [x]) := by
    rintro s l hs rfl
    refine List.Perm.trans ?_ (List.perm_append_singleton x xs).symm
    refine ((s.reverse_perm.trans hs).append_right _).trans ?_
    exact (((h.smaller.reverse_perm.symm.append_right _).trans hp).cons x)
  have hperm' : ∀ (s l : List V), l.Perm (x :: h.larger) → s = h.smaller →
      (s.reverse ++ l).Perm (xs ++ [x]) := by
    rintro s l hl rfl
    refine List.Perm.trans ?_ (List.perm_append_singleton x xs).symm
    exact ((hl.append_left _).trans List.perm_middle).trans (hp.cons x)
  unfold Heaps.push
  split
  · rename_i he
    have hl : h.larger = [] := by
      rcases hsz with h | h <;> simp [he] at h
      exact List.length_eq_zero_iff.1 h.symm
    refine ⟨hperm _ _ (List.perm_orderedInsert _ _ _) rfl, ?_, .inl ⟨by
      simp [List.orderedInsert_length], rfl⟩⟩
    rw [sorted_iff]
    exact ⟨insert_desc x _ h1, h2, by simp [hl]⟩
  · rename_i t rest ht
    have htop : ∀ b ∈ h.larger, t ≤ b := fun b hb => h3 t (by simp [ht]) b hb
    split
    · rename_i hx
      refine ⟨hperm _ _ (List.perm_orderedInsert _ _ _) rfl, ?_, .inl ⟨by
        simp [List.orderedInsert_length], rfl⟩⟩
      rw [sorted_iff]
      refine ⟨insert_desc x _ h1, h2, ?_⟩
      intro a ha b hb
      rcases List.mem_cons.1 ((List.perm_orderedInsert _ _ _).mem_iff.1 ha) with rfl | ha
      · exact le_trans hx (htop b hb)
      · exact h3 a ha b hb
    · rename_i hx
      have hx : t < x := not_le.1 hx
      refine ⟨hperm' _ _ (List.perm_orderedInsert _ _ _) rfl, ?_, .inr ⟨rfl, by
        simp [List.orderedInsert_length]⟩⟩
      rw [sorted_iff]
      refine ⟨h1, insert_asc x _ h2, ?_⟩
      intro a ha b hb
      rcases List.mem_cons.1 ((List.perm_orderedInsert _ _ _).mem_iff.1 hb) with rfl | hb
      · rw [ht] at ha h1
        rcases List.mem_cons.1 ha with rfl | ha
        · exact le_of_lt hx
        · exact le_trans ((List.pairwise_cons.1 h1).1 a ha) (le_of_lt hx)
      · exact h3 a ha b hb

private theorem rebalance_content [LinearOrder V] (h : Heaps V)
    (hs : (h.smaller.reverse ++ h.larger).Pairwise (· ≤ ·)) :
    h.rebalance.smaller.reverse ++ h.rebalance.larger = h.smaller.reverse ++ h.larger := by
  have hs' := (sorted_iff h).1 hs
  obtain ⟨h1, h2, h3⟩ := hs'
  unfold Heaps.rebalance
  split
  · split
    · rfl
    · rename_i t rest ht
      have : h.larger.orderedInsert (· ≤ ·) t = t :: h.larger := by
        cases hl : h.larger with
        | nil => rfl
        | cons y ys =>
          rw [List.orderedInsert_cons, if_pos (h3 t (by simp [ht]) y (by simp [hl]))]
      simp [this, ht]
  · split
    · split
      · rfl
      · rename_i t rest ht
        have : h.smaller.orderedInsert (· ≥ ·) t = t :: h.smaller := by
          cases hl : h.smaller with
          | nil => rfl
          | cons y ys =>
            rw [List.orderedInsert_cons, if_pos (h3 y (by simp [hl]) t (by simp [ht]))]
        simp [this, ht]
    · rfl

private theorem rebalance_size [LinearOrder V] (h : Heaps V) :
    (h.smaller.length = h.larger.length + 2 →
      h.rebalance.smaller.length = h.rebalance.larger.length) ∧
    (h.larger.length = h.smaller.length + 1 →
      h.rebalance.smaller.length = h.rebalance.larger.length + 1) ∧
    (h.smaller.length = h.larger.length ∨ h.smaller.length = h.larger.length + 1 →
      h.rebalance = h) := by
  unfold Heaps.rebalance
  refine ⟨?_, ?_, ?_⟩
  · intro hh
    rw [if_pos (by omega)]
    split
    · rename_i he; rw [he] at hh; simp at hh
    · rename_i t rest ht
      rw [ht] at hh
      simp [List.orderedInsert_length] at hh ⊢
      omega
  · intro hh
    rw [if_neg (by omega), if_pos (by omega)]
    split
    · rename_i he; rw [he] at hh; simp at hh
    · rename_i t rest ht
      rw [ht] at hh
      simp [List.orderedInsert_length] at hh ⊢
      omega
  · intro hh
    rw [if_neg (by omega), if_neg (by omega)]

/-- Feeding one value keeps the invariant. -/
theorem heaps_step [LinearOrder V] (xs : List V) (h : Heaps V) (hi : HeapsInv xs h) (x : V) :
    HeapsInv (xs ++ [x]) (h.push x).rebalance := by
  obtain ⟨hp, hs, hsz⟩ := push_inv xs h hi x
  have hc := rebalance_content _ hs
  refine ⟨by rw [hc]; exact hp, by rw [hc]; exact hs, ?_⟩
  obtain ⟨r1, r2, r3⟩ := rebalance_size (h.push x)
  have hz := hi.size
  rcases hsz with ⟨a, b⟩ | ⟨a, b⟩
  · rcases hz with hz | hz
    · right
      have := r3 (by omega)
      rw [this]; omega
    · left; exact r1 (by omega)
  · rcases hz with hz | hz
    · right; exact r2 (by omega)
    · left
      have := r3 (by omega)
      rw [this]; omega

/-- The non-null values, converted. -/
def nonNull {T : Type} (cast : T → V) (xs : List (Option T)) : List V :=
  xs.filterMap (fun x => x.map cast)

/-- Feeding a list. -/
theorem heaps_fold [LinearOrder V] {T : Type} (cast : T → V) (xs : List (Option T)) (seen : List V)
    (h : Heaps V) (hi : HeapsInv seen h) :
    HeapsInv (seen ++ nonNull cast xs)
      (xs.foldl (fun s x => match x with
        | none => s
        | some x => (s.push (cast x)).rebalance) h) := by
  induction xs generalizing seen h with
  | nil => simpa [nonNull] using hi
  | cons x xs ih =>
    cases x with
    | none =>
      simp only [List.foldl_cons, nonNull, List.filterMap_cons, Option.map_none]
      exact ih seen h hi
    | some x =>
      simp only [List.foldl_cons, nonNull, List.filterMap_cons, Option.map_some]
      have := ih (seen ++ [cast x]) _ (heaps_step seen h hi (cast x))
      simpa [nonNull] using this

end Feat
