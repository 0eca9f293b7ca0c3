import Verif.Model.Traits
/-
`std::unordered_map` operations used by the estimators (find, counting, in-place update).
-/
namespace Feat
variable {K V : Type}

/-- The empty map. -/
def UMap.empty : UMap K V := ⟨[], by simp⟩

/-- `std::unordered_map::find` followed by reading the value. -/
def UMap.find? [DecidableEq K] (m : UMap K V) (k : K) : Option V :=
  (m.entries.find? (fun e => e.1 == k)).map (·.2)

/-- `std::unordered_map::size`. -/
def UMap.size (m : UMap K V) : Nat := m.entries.length

/-- Assigning through `iter->second` of the entry with key `k`. -/
def UMap.update [DecidableEq K] (m : UMap K V) (k : K) (f : V → V) : UMap K V :=
  ⟨m.entries.map (fun e => if e.1 = k then (e.1, f e.2) else e), by
    have : (m.entries.map (fun e => if e.1 = k then (e.1, f e.2) else e)).map (·.1)
        = m.entries.map (·.1) := by
      rw [List.map_map]; apply List.map_congr_left; intro e _
      simp only [Function.comp]; split <;> rfl
    rw [this]; exact m.nodup⟩

theorem UMap.find?_empty [DecidableEq K] (k : K) : (UMap.empty : UMap K V).find? k = none := rfl

private theorem find?_none_iff [DecidableEq K] (l : List (K × V)) (k : K) :
    l.find? (fun e => e.1 == k) = none ↔ k ∉ l.map (·.1) := by
  simp only [List.find?_eq_none, List.mem_map, not_exists, not_and, beq_iff_eq]

theorem UMap.find?_eq_none [DecidableEq K] (m : UMap K V) (k : K) :
    m.find? k = none ↔ k ∉ m.entries.map (·.1) := by
  unfold UMap.find?
  rw [Option.map_eq_none_iff, find?_none_iff]

private theorem find?_some_iff [DecidableEq K] (l : List (K × V)) (h : (l.map (·.1)).Nodup) (k : K) (v : V) :
    (l.find? (fun e => e.1 == k)).map (·.2) = some v ↔ (k, v) ∈ l := by
  induction l with
  | nil => simp
  | cons e l ih =>
    obtain ⟨k', v'⟩ := e
    simp only [List.map_cons, List.nodup_cons] at h
    by_cases hk : k' = k
    · subst hk
      simp only [List.find?_cons, beq_self_eq_true, Option.map_some, Option.some.injEq,
        List.mem_cons, Prod.mk.injEq, true_and]
      constructor
      · rintro rfl; exact .inl rfl
      · rintro (rfl | hm)
        · rfl
        · exact absurd (List.mem_map.2 ⟨_, hm, rfl⟩) h.1
    · have : (k' == k) = false := by simpa using hk
      simp only [List.find?_cons, this, ih h.2, List.mem_cons, Prod.mk.injEq]
      constructor
      · exact .inr
      · rintro (⟨h1, _⟩ | h1)
        · exact absurd h1.symm hk
        · exact h1

/-- Looking up a key finds exactly its entry. -/
theorem UMap.find?_eq_some [DecidableEq K] (m : UMap K V) (k : K) (v : V) :
    m.find? k = some v ↔ (k, v) ∈ m.entries := find?_some_iff m.entries m.nodup k v

theorem UMap.find?_emplace [DecidableEq K] (m : UMap K V) (k : K) (v : V) (k' : K) :
    (m.emplace k v).find? k' =
      match m.find? k' with
      | some w => some w
      | none => if k' = k then some v else none := by
  unfold UMap.emplace
  split
  · rename_i h
    rcases hf : m.find? k' with _ | w
    · have := (m.find?_eq_none k').1 hf
      have hne : ¬ k' = k := fun hh => this (hh ▸ h)
      simp only [hne, if_false]
    · rfl
  · rename_i h
    unfold UMap.find?
    simp only [List.find?_append]
    rcases hf : m.entries.find? (fun e => e.1 == k') with _ | w
    · simp only [hf, Option.none_or, Option.map_none]
      by_cases hk : k' = k
      · simp [hk]
      · have : (k == k') = false := by simpa using fun hh : k = k' => hk hh.symm
        simp [this, hk]
    · simp [hf]

theorem UMap.find?_update [DecidableEq K] (m : UMap K V) (k : K) (f : V → V) (k' : K) :
    (m.update k f).find? k' = if k' = k then (m.find? k').map f else m.find? k' := by
  unfold UMap.update UMap.find?
  simp only
  generalize m.entries = l
  induction l with
  | nil => simp
  | cons e l ih =>
    obtain ⟨a, v⟩ := e
    simp only [List.map_cons, List.find?_cons]
    by_cases hak : a = k
    · subst hak
      simp only [if_true]
      by_cases h : a = k'
      · subst h; simp
      · have : (a == k') = false := by simpa using h
        simp only [this]; exact ih
    · simp only [hak, if_false]
      by_cases h : a = k'
      · subst h; simp [hak]
      · have : (a == k') = false := by simpa using h
        simp only [this]; exact ih

theorem UMap.size_emplace [DecidableEq K] (m : UMap K V) (k : K) (v : V) :
    (m.emplace k v).size = if k ∈ m.entries.map (·.1) then m.size else m.size + 1 := by
  unfold UMap.emplace UMap.size
  split <;> simp [*]

theorem UMap.size_update [DecidableEq K] (m : UMap K V) (k : K) (f : V → V) :
    (m.update k f).size = m.size := by simp [UMap.update, UMap.size]

/-- Iteration order of an unordered container: some permutation of its entries, decided by the standard
library (hash function, bucket count, history). -/
structure IterOrder (K V : Type) where
  order : List (K × V) → List (K × V)
  perm : ∀ l, (order l).Perm l

/-- Insertion order (used in examples only). -/
def IterOrder.id : IterOrder K V := ⟨fun l => l, fun l => List.Perm.refl l⟩

/-- Reverse insertion order (used in examples only). -/
def IterOrder.reverse : IterOrder K V := ⟨List.reverse, List.reverse_perm⟩

end Feat
