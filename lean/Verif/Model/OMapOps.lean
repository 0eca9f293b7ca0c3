import Verif.Model.Traits
/-
`std::map` operations used by the estimators and transformers: `find`, assignment through `operator[]` or an iterator.
-/
namespace Feat
variable {K V : Type}

/-- The empty map. -/
def OMap.empty [LinearOrder K] : OMap K V := ⟨[], by simp⟩

/-- `std::map::find` followed by reading the value. -/
def OMap.find? [LinearOrder K] (m : OMap K V) (k : K) : Option V :=
  (m.entries.find? (fun e => e.1 == k)).map (·.2)

/-- Assigning the value of a key, at the sorted position. -/
def setSorted [LinearOrder K] (k : K) (v : V) : List (K × V) → List (K × V)
  | [] => [(k, v)]
  | (k', v') :: rest =>
    if k < k' then (k, v) :: (k', v') :: rest
    else if k = k' then (k, v) :: rest
    else (k', v') :: setSorted k v rest

theorem setSorted_mem_fst [LinearOrder K] (k : K) (v : V) (l : List (K × V)) :
    ∀ e ∈ setSorted k v l, e.1 = k ∨ e ∈ l := by
  induction l with
  | nil => simp [setSorted]
  | cons e rest ih =>
    obtain ⟨k', v'⟩ := e
    intro e he
    simp only [setSorted] at he
    split at he
    · rcases List.mem_cons.1 he with rfl | h
      · exact .inl rfl
      · exact .inr h
    · split at he
      · rcases List.mem_cons.1 he with rfl | h
        · exact .inl rfl
        · exact .inr (by simp [h])
      · rcases List.mem_cons.1 he with rfl | h
        · exact .inr (by simp)
        · rcases ih e h with h | h
          · exact .inl h
          · exact .inr (by simp [h])

theorem setSorted_sorted [LinearOrder K] (k : K) (v : V) (l : List (K × V))
    (h : l.Pairwise (fun a b => a.1 < b.1)) : (setSorted k v l).Pairwise (fun a b => a.1 < b.1) := by
  induction l with
  | nil => simp [setSorted]
  | cons e rest ih =>
    obtain ⟨k', v'⟩ := e
    rw [List.pairwise_cons] at h
    simp only [setSorted]
    split
    · rename_i hlt
      rw [List.pairwise_cons]
      refine ⟨?_, List.pairwise_cons.2 h⟩
      intro e he
      rcases List.mem_cons.1 he with rfl | he
      · exact hlt
      · exact lt_trans hlt (h.1 e he)
    · split
      · rename_i h1 h2
        subst h2
        rw [List.pairwise_cons]
        exact h
      · rename_i h1 h2
        rw [List.pairwise_cons]
        refine ⟨?_, ih h.2⟩
        intro e he
        rcases setSorted_mem_fst k v rest e he with he | he
        · rw [he]; exact lt_of_le_of_ne (not_lt.1 h1) (Ne.symm h2)
        · exact h.1 e he

/-- `m[k] = v`. -/
def OMap.set [LinearOrder K] (m : OMap K V) (k : K) (v : V) : OMap K V :=
  ⟨setSorted k v m.entries, setSorted_sorted k v _ m.sorted⟩

theorem OMap.find?_empty [LinearOrder K] (k : K) : (OMap.empty : OMap K V).find? k = none := rfl

private theorem find_none_of_lt [LinearOrder K] (l : List (K × V)) (k : K) (h : ∀ e ∈ l, k < e.1) :
    l.find? (fun e => e.1 == k) = none := by
  rw [List.find?_eq_none]
  intro e he
  have := h e he
  simp [ne_of_gt this]

theorem OMap.find?_set_self [LinearOrder K] (m : OMap K V) (k : K) (v : V) : (m.set k v).find? k = some v := by
  obtain ⟨l, hl⟩ := m
  simp only [OMap.set, OMap.find?]
  clear hl
  induction l with
  | nil => simp [setSorted]
  | cons e rest ih =>
    obtain ⟨k', v'⟩ := e
    simp only [setSorted]
    split
    · simp
    · split
      · simp
      · rename_i h1 h2
        rw [List.find?_cons_of_neg (by simpa using Ne.symm h2)]
        exact ih

theorem OMap.find?_set_other [LinearOrder K] (m : OMap K V) (k j : K) (v : V) (h : j ≠ k) :
    (m.set k v).find? j = m.find? j := by
  obtain ⟨l, hl⟩ := m
  simp only [OMap.set, OMap.find?]
  clear hl
  induction l with
  | nil => simp [setSorted, Ne.symm h]
  | cons e rest ih =>
    obtain ⟨k', v'⟩ := e
    simp only [setSorted]
    split
    · rw [List.find?_cons_of_neg (by simpa using Ne.symm h)]
    · split
      · rename_i h1 h2
        subst h2
        rw [List.find?_cons_of_neg (by simpa using Ne.symm h), List.find?_cons_of_neg (by simpa using Ne.symm h)]
      · by_cases hj : k' = j
        · subst hj; simp
        · rw [List.find?_cons_of_neg (by simpa using hj), List.find?_cons_of_neg (by simpa using hj)]
          exact ih

theorem OMap.mem_of_find? [LinearOrder K] (m : OMap K V) (k : K) (v : V) (h : m.find? k = some v) :
    (k, v) ∈ m.entries := by
  unfold OMap.find? at h
  rcases hf : m.entries.find? (fun e => e.1 == k) with _ | ⟨k', v'⟩
  · rw [hf] at h; simp at h
  · rw [hf] at h
    simp only [Option.map_some, Option.some.injEq] at h
    subst h
    have h1 := List.mem_of_find?_eq_some hf
    have h2 := List.find?_some hf
    simp only [beq_iff_eq] at h2
    subst h2
    exact h1

theorem OMap.find?_of_mem [LinearOrder K] (m : OMap K V) (k : K) (v : V) (h : (k, v) ∈ m.entries) :
    m.find? k = some v := by
  obtain ⟨l, hl⟩ := m
  simp only [OMap.find?] at h ⊢
  induction l with
  | nil => simp at h
  | cons e rest ih =>
    obtain ⟨k', v'⟩ := e
    rw [List.pairwise_cons] at hl
    rcases List.mem_cons.1 h with h | h
    · cases h; simp
    · have : k' ≠ k := ne_of_lt (hl.1 _ h)
      rw [List.find?_cons_of_neg (by simpa using this)]
      exact ih hl.2 h

theorem OMap.find?_eq_some [LinearOrder K] (m : OMap K V) (k : K) (v : V) :
    m.find? k = some v ↔ (k, v) ∈ m.entries := ⟨m.mem_of_find? k v, m.find?_of_mem k v⟩

/-- Iterating over the entries and keeping only what belongs to one key. -/
theorem OMap.filter_flatMap [LinearOrder K] {A : Type} (m : OMap K (List A)) (key : A → K) (k : K)
    (h : ∀ e ∈ m.entries, ∀ a ∈ e.2, key a = e.1) :
    (m.entries.flatMap (·.2)).filter (fun a => key a == k) = (m.find? k).getD [] := by
  obtain ⟨l, hl⟩ := m
  simp only [OMap.find?] at h ⊢
  induction l with
  | nil => rfl
  | cons e rest ih =>
    obtain ⟨k', v'⟩ := e
    rw [List.pairwise_cons] at hl
    have ih := ih hl.2 (fun e he => h e (List.mem_cons_of_mem _ he))
    rw [List.flatMap_cons, List.filter_append, ih]
    by_cases hk : k' = k
    · subst hk
      have h1 : v'.filter (fun a => key a == k') = v' := by
        rw [List.filter_eq_self]
        intro a ha
        simp [h _ (List.mem_cons_self) a ha]
      rw [h1, find_none_of_lt rest k' (fun e he => hl.1 e he)]
      simp
    · have h1 : v'.filter (fun a => key a == k) = [] := by
        rw [List.filter_eq_nil_iff]
        intro a ha
        rw [h _ (List.mem_cons_self) a ha]
        simpa using hk
      rw [h1, List.find?_cons_of_neg (by simpa using hk)]
      simp

end Feat
