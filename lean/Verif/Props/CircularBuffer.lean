import Verif.Proofs.Windows
/-
**C29** The circular buffer keeps the newest items in order.

Specification: `lastN c xs` is the list of the last `c` items of `xs` (all if there are fewer).  Iterating is the loop
`while(first != last) f(*first++)`, modelled by `CBuf.walk`.
-/
namespace Feat

variable {A : Type}

/-- **C29** For every capacity and push sequence: the number of items held, fullness, what a full iteration sees, and what
iterating over a sub-range of at most the capacity sees (the slice, cut off at the newest item).  No iteration
reads outside the buffer or violates an assertion. -/
theorem C29_circular_buffer (c : Nat) (hc : 0 < c) (xs : List A) :
    ∃ b₀ : CBuf A, CBuf.new c = .ok b₀ ∧
      let b := b₀.pushAll xs
      b.data.length = min xs.length c ∧
      (b.isFull = true ↔ c ≤ xs.length) ∧
      (∃ first last, b.begin = .ok first ∧ b.endIt = .ok last ∧ b.walk (first, last) = .ok (lastN c xs)) ∧
      (∀ n offset, n + offset ≤ c →
        ∃ r, b.range n offset = .ok r ∧ b.walk r = .ok (((lastN c xs).drop offset).take n)) ∧
      b.clear = b₀ := by
  refine ⟨⟨c, 0, []⟩, by unfold CBuf.new; rw [if_neg (by omega)], ?_⟩
  have hrep : Rep (CBuf.pushAll ⟨c, 0, []⟩ xs) (lastN c xs) := by
    have h0 : Rep (⟨c, 0, []⟩ : CBuf A) (lastN c []) := by
      rw [lastN_of_le (Nat.zero_le _)]
      exact rep_clear (b := (⟨c, 0, []⟩ : CBuf A)) hc
    exact rep_pushAll (A := A) ⟨c, 0, []⟩ [] h0 xs
  have hmax : (CBuf.pushAll (A := A) ⟨c, 0, []⟩ xs).max = c := pushAll_max xs _
  intro b
  change Rep b _ at hrep
  change b.max = c at hmax
  clear_value b
  have hlen : b.data.length = min xs.length c := by rw [hrep.len, lastN_length]
  refine ⟨hlen, ?_, ?_, ?_, ?_⟩
  · show decide _ = true ↔ _
    rw [decide_eq_true_iff, hlen, hmax]; omega
  · by_cases h0 : b.data.length = 0
    · refine ⟨.none, .none, by unfold CBuf.begin; rw [if_pos h0], by unfold CBuf.endIt; rw [if_pos h0], ?_⟩
      have : lastN c xs = [] := List.length_eq_zero_iff.1 (by rw [← hrep.len]; exact h0)
      rw [this]
      unfold CBuf.walk CBuf.walkFrom
      simp [CIter.eq]
    · have hle := hrep.le
      have hs := hrep.start
      rw [hmax] at hle hs
      have hl := hrep.len
      refine ⟨⟨false, b.max, b.start, b.data.length, 0⟩,
        ⟨false, b.max, (b.start + 0 + b.data.length) % b.max, 0, 0⟩, ?_, ?_, ?_⟩
      · unfold CBuf.begin CIter.new
        rw [if_neg h0, if_neg (by rw [hmax]; omega), if_neg (by rw [hmax, hl]; omega)]
      · unfold CBuf.endIt CIter.new
        rw [if_neg h0, if_neg (by rw [hmax]; omega), if_neg (by omega)]
        by_cases hf : b.data.length = b.max
        · rw [if_pos hf, hf, Nat.add_mod_right, Nat.add_zero, Nat.mod_eq_of_lt hrep.start]
        · rw [if_neg hf, hrep.zero (by omega), Nat.zero_add, Nat.mod_eq_of_lt (by omega)]
      · unfold CBuf.walk
        have := walkFrom_rep hrep b.data.length 0 ((b.start + 0 + b.data.length) % b.max) b.max
          (by omega) rfl b.data.length 0 (by omega)
        simp only [Nat.add_zero, List.drop_zero, Nat.mod_eq_of_lt hrep.start] at this
        simp only [Nat.sub_zero, Nat.add_zero]
        rw [this, List.take_of_length_le (by omega)]
  · intro n off hn
    exact range_walk hrep n off (by rw [hmax]; exact hn)
  · show (⟨_, 0, []⟩ : CBuf A) = ⟨c, 0, []⟩
    rw [hmax]

/-- **C29** A buffer without capacity cannot be constructed. -/
theorem C29_zero_capacity : CBuf.new (A := A) 0 = .error .invalidArgument := rfl

/-- `j` times `++`. -/
def CIter.advance : Nat → CIter → Except Err CIter
  | 0, it => .ok it
  | j + 1, it =>
    match it.next with
    | .error e => .error e
    | .ok it => CIter.advance j it

private theorem advance_new (c n : Nat) (hc : 0 < c) : ∀ (j k i : Nat), k + j ≤ n →
    CIter.advance j ⟨false, c, (i + k) % c, n, k⟩ = .ok ⟨false, c, (i + (k + j)) % c, n, k + j⟩ := by
  intro j
  induction j with
  | zero => intro k i _; rfl
  | succ j ih =>
    intro k i h
    have : CIter.next ⟨false, c, (i + k) % c, n, k⟩ = .ok ⟨false, c, (i + (k + 1)) % c, n, k + 1⟩ := by
      unfold CIter.next
      rw [if_neg (by simp only; omega)]
      simp only [Nat.mod_add_mod]
      rfl
    unfold CIter.advance
    rw [this]
    simp only
    rw [ih (k + 1) i (by omega), show k + 1 + j = k + (j + 1) by omega]

/-- **C29 (positions)** In a sub-range of `n` held items, an iterator can be incremented `n` times; two iterators of the
sub-range compare equal exactly if they were incremented equally often, and an iterator is equal to the end exactly after `n`
increments. -/
theorem C29_iterators (c : Nat) (hc : 0 < c) (xs : List A) (n offset : Nat) (h : n + offset ≤ min xs.length c) (hn : 0 < n) :
    ∃ b₀ first last, CBuf.new (A := A) c = .ok b₀ ∧ (b₀.pushAll xs).range n offset = .ok (first, last) ∧
      ∃ at_ : Nat → CIter, (∀ j ≤ n, CIter.advance j first = .ok (at_ j)) ∧
        (∀ j ≤ n, ∀ k ≤ n, (at_ j).eq (at_ k) = true ↔ j = k) ∧ ∀ j ≤ n, (at_ j).eq last = true ↔ j = n := by
  obtain ⟨b₀, h0, hlen, -⟩ := C29_circular_buffer (A := A) c hc xs
  have hb : b₀ = ⟨c, 0, []⟩ := by
    unfold CBuf.new at h0
    rw [if_neg (by omega)] at h0
    exact (Except.ok.inj h0).symm
  have hmax : (b₀.pushAll xs).max = c := by rw [pushAll_max, hb]
  obtain ⟨b, hbb⟩ : ∃ b, b₀.pushAll xs = b := ⟨_, rfl⟩
  rw [hbb] at hmax hlen
  have hr : (b₀.pushAll xs).range n offset = .ok (⟨false, c, (b.start + offset) % c, n, 0⟩,
      ⟨false, c, (b.start + n + offset) % c, 0, 0⟩) := by
    rw [hbb]
    unfold CBuf.range
    rw [if_neg (by omega), if_neg (by omega), if_neg (by omega), if_neg (by omega), hmax]
    unfold CIter.new
    rw [if_neg (by omega), if_neg (by omega), if_neg (by omega), if_neg (by omega)]
    rfl
  refine ⟨b₀, _, _, h0, hr, fun j => ⟨false, c, (b.start + offset + j) % c, n, j⟩, ?_, ?_, ?_⟩
  · intro j hj
    have := advance_new c n hc j 0 (b.start + offset) (by omega)
    simpa using this
  · intro j hj k hk
    constructor
    · intro he
      simp only [CIter.eq, CIter.atEnd] at he
      by_contra hne
      by_cases h1 : j = n
      · subst h1
        have : k ≠ j := fun h => hne h.symm
        simp [this] at he
      · by_cases h2 : k = n
        · subst h2; simp [hne] at he
        · simp [h1, h2] at he
          have d1 := Nat.div_add_mod (b.start + offset + j) c
          have d2 := Nat.div_add_mod (b.start + offset + k) c
          rw [he] at d1
          generalize (b.start + offset + j) / c = q1 at d1
          generalize (b.start + offset + k) / c = q2 at d2
          rcases Nat.lt_trichotomy q1 q2 with hq | hq | hq
          · have := Nat.mul_le_mul_left c (show q1 + 1 ≤ q2 from hq)
            rw [Nat.mul_succ] at this
            omega
          · subst hq; omega
          · have := Nat.mul_le_mul_left c (show q2 + 1 ≤ q1 from hq)
            rw [Nat.mul_succ] at this
            omega
    · rintro rfl
      simp [CIter.eq]
  · intro j hj
    constructor
    · intro he
      simp only [CIter.eq, CIter.atEnd] at he
      by_contra hne
      simp [hne] at he
    · rintro rfl
      simp [CIter.eq, CIter.atEnd, Nat.add_assoc, Nat.add_comm offset]

example : ∃ b₀ first last, CBuf.new (A := Nat) 3 = .ok b₀ ∧ (b₀.pushAll [1, 2, 3, 4, 5]).range 2 1 = .ok (first, last) ∧
    ∃ at_ : Nat → CIter, (∀ j ≤ 2, CIter.advance j first = .ok (at_ j)) ∧
      (∀ j ≤ 2, ∀ k ≤ 2, (at_ j).eq (at_ k) = true ↔ j = k) ∧ ∀ j ≤ 2, (at_ j).eq last = true ↔ j = 2 :=
  C29_iterators 3 (by decide) [1, 2, 3, 4, 5] 2 1 (by decide) (by decide)

/-! Non-vacuity: capacity 3, five pushes (the buffer has wrapped around), and a sub-range. -/
example : ∃ b₀ : CBuf Nat, CBuf.new 3 = .ok b₀ ∧
    ∃ r, (b₀.pushAll [1, 2, 3, 4, 5]).range 2 1 = .ok r ∧
      (b₀.pushAll [1, 2, 3, 4, 5]).walk r = .ok [4, 5] := by
  obtain ⟨b₀, h, _, _, _, hr, _⟩ := C29_circular_buffer 3 (by decide) [1, 2, 3, 4, 5]
  exact ⟨b₀, h, hr 2 1 (by decide)⟩

end Feat
