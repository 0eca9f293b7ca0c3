import Verif.Model.Windows
/-
The circular buffer represents the list of its newest items.
-/
namespace Feat

variable {A : Type}

/-- The last `c` items of a list (all of them if it has fewer). -/
def lastN (c : Nat) (l : List A) : List A := l.drop (l.length - c)

theorem lastN_length (c : Nat) (l : List A) : (lastN c l).length = min l.length c := by
  unfold lastN; rw [List.length_drop]; omega

theorem lastN_append (c : Nat) (l : List A) (x : A) : lastN c (lastN c l ++ [x]) = lastN c (l ++ [x]) := by
  unfold lastN
  apply List.ext_getElem?
  intro i
  simp only [List.getElem?_drop, List.length_append, List.length_drop, List.length_singleton,
    List.getElem?_append]
  by_cases hc : c ≤ l.length
  · by_cases h : i + 1 < c
    · rw [if_pos (by omega), if_pos (by omega)]; congr 1; omega
    · rw [if_neg (by omega), if_neg (by omega)]; congr 1; omega
  · by_cases h : i < l.length
    · rw [if_pos (by omega), if_pos (by omega)]; congr 1; omega
    · rw [if_neg (by omega), if_neg (by omega)]; congr 1; omega

/-- The buffer `b` holds the items `l`, oldest first. -/
structure Rep (b : CBuf A) (l : List A) : Prop where
  len : b.data.length = l.length
  le : l.length ≤ b.max
  start : b.start < b.max
  zero : l.length < b.max → b.start = 0
  items : ∀ k < l.length, b.data[(b.start + k) % b.max]? = l[k]?

theorem rep_clear {b : CBuf A} (hm : 0 < b.max) : Rep b.clear [] :=
  ⟨rfl, Nat.zero_le _, hm, fun _ => rfl, fun _ hk => absurd hk (Nat.not_lt_zero _)⟩

theorem push_max (b : CBuf A) (x : A) : (b.push x).max = b.max := by
  unfold CBuf.push; split <;> rfl

theorem rep_push {b : CBuf A} {l : List A} (h : Rep b l) (x : A) : Rep (b.push x) (lastN b.max (l ++ [x])) := by
  obtain ⟨hlen, hle, hs, hz, hi⟩ := h
  unfold CBuf.push lastN
  by_cases hf : b.data.length = b.max
  · rw [if_pos hf]
    refine ⟨?_, ?_, ?_, ?_, ?_⟩
    · simp; omega
    · simp; omega
    · exact Nat.mod_lt _ (by omega)
    · intro h; simp at h; omega
    · intro k hk
      simp only [List.length_drop, List.length_append, List.length_singleton] at hk
      simp only [List.getElem?_drop, List.length_append, List.length_singleton]
      have e1 : ((b.start + 1) % b.max + k) % b.max = (b.start + (k + 1)) % b.max := by
        rw [Nat.mod_add_mod]; congr 1; omega
      rw [e1]
      by_cases hk1 : k + 1 < b.max
      · have e2 : (b.start + (k + 1)) % b.max ≠ b.start := by
          by_cases hw : b.start + (k + 1) < b.max
          · rw [Nat.mod_eq_of_lt hw]; omega
          · rw [Nat.mod_eq_sub_mod (by omega), Nat.mod_eq_of_lt (by omega)]; omega
        rw [List.getElem?_set_ne (Ne.symm e2), hi _ (by omega), List.getElem?_append_left (by omega)]
        congr 1; omega
      · have e3 : k + 1 = b.max := by omega
        rw [e3, Nat.add_mod_right, Nat.mod_eq_of_lt hs, List.getElem?_set_self (by omega),
          List.getElem?_append_right (by omega)]
        have e4 : l.length + 1 - b.max + k - l.length = 0 := by omega
        rw [e4]; rfl
  · rw [if_neg hf]
    have hlt : l.length < b.max := by omega
    have e0 : (l ++ [x]).length - b.max = 0 := by simp; omega
    rw [e0, List.drop_zero]
    have hz' := hz hlt
    refine ⟨?_, ?_, ?_, ?_, ?_⟩
    · simp [hlen]
    · simp; omega
    · exact hs
    · intro _; exact hz'
    · intro k hk
      simp only [List.length_append, List.length_singleton] at hk
      simp only [hz', Nat.zero_add]
      rw [Nat.mod_eq_of_lt (by omega)]
      by_cases hk1 : k < l.length
      · have h1 := hi k hk1
        rw [hz', Nat.zero_add, Nat.mod_eq_of_lt (by omega)] at h1
        rw [List.getElem?_append_left (by omega), List.getElem?_append_left (by omega), h1]
      · rw [List.getElem?_append_right (by omega), List.getElem?_append_right (by omega), hlen]

theorem pushAll_max (xs : List A) : ∀ b : CBuf A, (b.pushAll xs).max = b.max := by
  induction xs with
  | nil => intro b; rfl
  | cons x xs ih => intro b; exact (ih (b.push x)).trans (push_max b x)

theorem lastN_of_le {c : Nat} {l : List A} (h : l.length ≤ c) : lastN c l = l := by
  unfold lastN; rw [Nat.sub_eq_zero_of_le h]; rfl

/-- After pushing a sequence, the buffer holds the newest items. -/
theorem rep_pushAll (b : CBuf A) (l : List A) (h : Rep b (lastN b.max l)) (xs : List A) :
    Rep (b.pushAll xs) (lastN b.max (l ++ xs)) := by
  induction xs generalizing b l with
  | nil => simpa [CBuf.pushAll] using h
  | cons x xs ih =>
    have h1 := rep_push h x
    rw [lastN_append] at h1
    have h2 := ih (b.push x) (l ++ [x]) (by rw [push_max]; exact h1)
    rw [push_max, List.append_assoc] at h2
    exact h2

/-- Walking from the iterator `j` increments after the start of a sub-range. -/
theorem walkFrom_rep {b : CBuf A} {l : List A} (h : Rep b l) (n off endIdx sz : Nat) (hn : n + off ≤ l.length)
    (he : endIdx = (b.start + off + n) % b.max) :
    ∀ (m j : Nat), j + m = n →
      b.walkFrom ⟨false, sz, endIdx, 0, 0⟩ m ⟨false, b.max, (b.start + off + j) % b.max, n, j⟩
        = .ok ((l.drop (off + j)).take m) := by
  intro m
  induction m with
  | zero =>
    intro j hj
    unfold CBuf.walkFrom
    have : j = n := by omega
    subst this
    rw [if_pos (by simp [CIter.eq, CIter.atEnd, he])]
    simp
  | succ m ih =>
    intro j hj
    unfold CBuf.walkFrom
    rw [if_neg (by simp [CIter.eq, CIter.atEnd]; omega)]
    have hlt : off + j < l.length := by omega
    have hd : b.deref ⟨false, b.max, (b.start + off + j) % b.max, n, j⟩ = .ok l[off + j] := by
      unfold CBuf.deref
      rw [if_neg (by simp; omega)]
      have := h.items (off + j) hlt
      rw [← Nat.add_assoc] at this
      simp only [this, List.getElem?_eq_getElem hlt]
    simp only [hd]
    have hnx : CIter.next ⟨false, b.max, (b.start + off + j) % b.max, n, j⟩
        = .ok ⟨false, b.max, (b.start + off + (j + 1)) % b.max, n, j + 1⟩ := by
      unfold CIter.next
      rw [if_neg (by simp; omega)]
      simp only [Nat.mod_add_mod]
      rfl
    simp only [hnx, ih (j + 1) (by omega)]
    congr 1
    rw [List.drop_eq_getElem_cons hlt, List.take_succ_cons]
    rfl

/-- `range` inside the held items, walked. -/
theorem range_walk {b : CBuf A} {l : List A} (h : Rep b l) (n off : Nat) (hn : n + off ≤ b.max) :
    ∃ r, b.range n off = .ok r ∧ b.walk r = .ok ((l.drop off).take n) := by
  obtain ⟨hlen, hle, hs, hz, hi⟩ := id h
  have hmax : b.max ≠ 0 := by omega
  unfold CBuf.range
  rw [if_neg (by omega)]
  by_cases h0 : b.data.length = 0
  · rw [if_pos h0]
    have : l = [] := List.length_eq_zero_iff.1 (by omega)
    subst this
    refine ⟨_, rfl, ?_⟩
    unfold CBuf.walk CBuf.walkFrom
    simp [CIter.eq, CIter.none, CIter.atEnd]
  · rw [if_neg h0]
    have hend : b.endIt = .ok ⟨false, b.max, (b.start + l.length) % b.max, 0, 0⟩ := by
      unfold CBuf.endIt CIter.new
      rw [if_neg h0, if_neg hmax, if_neg (by omega)]
      by_cases hf : b.data.length = b.max
      · rw [if_pos hf, ← hlen, hf, Nat.add_mod_right, Nat.mod_eq_of_lt hs]
      · rw [if_neg hf, hz (by omega), Nat.zero_add, Nat.mod_eq_of_lt (by omega), hlen]
    by_cases h1 : off > b.data.length
    · rw [if_pos h1, hend]
      refine ⟨_, rfl, ?_⟩
      rw [List.drop_of_length_le (by omega)]
      unfold CBuf.walk CBuf.walkFrom
      simp [CIter.eq]
    · rw [if_neg h1]
      by_cases h2 : n + off > b.data.length
      · rw [if_pos h2, hend]
        unfold CIter.new
        rw [if_neg hmax, if_neg (by omega)]
        refine ⟨_, rfl, ?_⟩
        unfold CBuf.walk
        have := walkFrom_rep h (l.length - off) off ((b.start + l.length) % b.max) b.max (by omega)
          (by congr 1; omega) (l.length - off) 0 (by omega)
        rw [Nat.add_zero] at this
        simp only [hlen, Nat.sub_zero]
        rw [this, List.take_of_length_le (by simp), List.take_of_length_le (by simp; omega)]
        rfl
      · rw [if_neg h2]
        unfold CIter.new
        rw [if_neg hmax, if_neg (by omega), if_neg hmax, if_neg (by omega)]
        refine ⟨_, rfl, ?_⟩
        unfold CBuf.walk
        have := walkFrom_rep h n off ((b.start + n + off) % b.max) b.max (by omega)
          (by congr 1; omega) n 0 (by omega)
        rw [Nat.add_zero] at this
        simp only [Nat.sub_zero]
        rw [this]
        rfl

end Feat
