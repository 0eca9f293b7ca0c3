import Verif.Model.PointerTable
import Mathlib.Data.List.Induction

/-!
# C51: the handle table
-/

namespace Feat

theorem UMap.find?_erase {K V : Type} [DecidableEq K] (m : UMap K V) (k k' : K) :
    (m.erase k).find? k' = if k' = k then none else m.find? k' := by
  unfold UMap.erase UMap.find?
  simp only
  generalize m.entries = l
  induction l with
  | nil => simp
  | cons e l ih =>
    by_cases he : e.1 = k
    · rw [List.filter_cons_of_neg (by simpa using he), ih]
      split_ifs with hk
      · rfl
      · have : (e.1 == k') = false := by
          rw [beq_eq_false_iff_ne, he]
          exact fun h => hk h.symm
        rw [List.find?_cons, this]
    · rw [List.filter_cons_of_pos (by simpa using he), List.find?_cons, List.find?_cons]
      by_cases hk : e.1 = k'
      · have : (e.1 == k') = true := by simpa using hk
        have hne : ¬ k' = k := fun h => he (hk.trans h)
        rw [this, if_neg hne]
      · have : (e.1 == k') = false := by simpa using hk
        rw [this]
        exact ih

namespace PTable

/-- Specification: after the events `es`, the handle `i` is live and stands for the pointer `p`: it
was handed out for `p` and has not been removed since. -/
def Live (es : List Event) (i p : Nat) : Prop :=
  ∃ pre post, es = pre ++ Event.added p i :: post ∧ Event.removed i ∉ post

/-- The generator delivers numbers from 1 to 2^64 - 1. -/
def DrawsOk (os : List Op) : Prop :=
  ∀ p draws, Op.add p draws ∈ os → ∀ d ∈ draws, 1 ≤ d ∧ d < 2 ^ 64

theorem freeIndex_spec {t : PTable} {draws : List Nat} {i : Nat} (h : freeIndex t draws = some i) :
    i ∈ draws ∧ t.find? i = none := by
  induction draws with
  | nil => exact absurd h (by simp [freeIndex])
  | cons d ds ih =>
    unfold freeIndex at h
    split_ifs at h with hd
    · injection h with h
      subst h
      exact ⟨by simp, hd⟩
    · exact ⟨List.mem_cons_of_mem _ (ih h).1, (ih h).2⟩

theorem freeIndex_none {t : PTable} {draws : List Nat} (h : freeIndex t draws = none) :
    ∀ d ∈ draws, t.find? d ≠ none := by
  induction draws with
  | nil => simp
  | cons d ds ih =>
    unfold freeIndex at h
    split_ifs at h with hd
    intro x hx
    rcases List.mem_cons.1 hx with rfl | hx
    · exact hd
    · exact ih h x hx

theorem run_snoc (t : PTable) (os : List Op) (o : Op) :
    run t (os ++ [o]) = ((run t os).1 ++ [(step (run t os).2 o).1], (step (run t os).2 o).2) := by
  induction os generalizing t with
  | nil => rfl
  | cons x xs ih =>
    simp only [List.cons_append, run]
    rw [ih]

/-- An event that neither hands out nor removes the handle leaves it as it was. -/
theorem live_snoc_other {es : List Event} {e : Event} {i p : Nat} (h1 : e ≠ .added p i)
    (h2 : e ≠ .removed i) : Live (es ++ [e]) i p ↔ Live es i p := by
  constructor
  · rintro ⟨pre, post, hp, hn⟩
    rcases List.eq_nil_or_concat post with rfl | ⟨post', x, rfl⟩
    · have := List.append_inj' hp rfl
      have := this.2
      simp at this
      exact absurd this h1
    · rw [List.concat_eq_append] at hp hn
      have : es ++ [e] = (pre ++ Event.added p i :: post') ++ [x] := by simpa using hp
      obtain ⟨a, b⟩ := List.append_inj' this rfl
      exact ⟨pre, post', a, fun h => hn (List.mem_append_left _ h)⟩
  · rintro ⟨pre, post, hp, hn⟩
    refine ⟨pre, post ++ [e], by rw [hp]; simp, ?_⟩
    intro h
    rcases List.mem_append.1 h with h | h
    · exact hn h
    · have := List.mem_singleton.1 h
      exact h2 this.symm

theorem live_snoc_removed {es : List Event} {i p : Nat} : ¬ Live (es ++ [.removed i]) i p := by
  rintro ⟨pre, post, hp, hn⟩
  rcases List.eq_nil_or_concat post with rfl | ⟨post', x, rfl⟩
  · have := (List.append_inj' hp rfl).2
    simp at this
  · rw [List.concat_eq_append] at hp hn
    have : es ++ [.removed i] = (pre ++ Event.added p i :: post') ++ [x] := by simpa using hp
    have := (List.append_inj' this rfl).2
    simp at this
    apply hn
    simp [this]

/-- The table holds exactly the live handles. -/
theorem run_live (os : List Op) (hd : DrawsOk os) :
    (∀ i p, (run UMap.empty os).2.find? i = some p ↔ Live (run UMap.empty os).1 i p) ∧
    (∀ i p, (run UMap.empty os).2.find? i = some p → 1 ≤ i ∧ i < 2 ^ 64 ∧ p ≠ 0) := by
  induction os using List.reverseRecOn with
  | nil =>
    constructor
    · intro i p
      constructor
      · intro h; exact absurd h (by simp [run, UMap.find?_empty])
      · rintro ⟨pre, post, h, _⟩
        simp [run] at h
    · intro i p h; exact absurd h (by simp [run, UMap.find?_empty])
  | append_singleton os o ih =>
    have hd' : DrawsOk os := fun p ds h => hd p ds (List.mem_append_left _ h)
    obtain ⟨ih1, ih2⟩ := ih hd'
    rw [run_snoc]
    simp only
    generalize hes : (run UMap.empty os).1 = es at *
    generalize ht : (run UMap.empty os).2 = t at *
    -- a step that changes nothing
    have same : ∀ e : Event, (∀ i p, e ≠ .added p i) → (∀ i, e ≠ .removed i) →
        (∀ i p, t.find? i = some p ↔ Live (es ++ [e]) i p) ∧
        (∀ i p, t.find? i = some p → 1 ≤ i ∧ i < 2 ^ 64 ∧ p ≠ 0) := by
      intro e h1 h2
      refine ⟨fun i p => ?_, ih2⟩
      rw [live_snoc_other (h1 i p) (h2 i)]
      exact ih1 i p
    cases o with
    | get i =>
      unfold step get
      by_cases h0 : i = 0
      · simp only [h0, if_true]
        exact same _ (by simp) (by simp)
      · simp only [h0, if_false]
        rcases t.find? i with _ | p
        · exact same _ (by simp) (by simp)
        · exact same _ (by simp) (by simp)
    | remove i =>
      unfold step remove
      by_cases h0 : i = 0
      · simp only [h0, if_true]
        exact same _ (by simp) (by simp)
      · simp only [h0, if_false]
        rcases hf : t.find? i with _ | q
        · exact same _ (by simp) (by simp)
        · simp only
          constructor
          · intro j p
            rw [UMap.find?_erase]
            by_cases hj : j = i
            · subst hj
              rw [if_pos rfl]
              constructor
              · intro h; exact absurd h (by simp)
              · intro h; exact absurd h live_snoc_removed
            · rw [if_neg hj, live_snoc_other (by simp) (by
                intro h; injection h with h; exact hj h.symm)]
              exact ih1 j p
          · intro j p h
            rw [UMap.find?_erase] at h
            split_ifs at h
            exact ih2 j p h
    | add p ds =>
      unfold step add
      by_cases h0 : p = 0
      · simp only [h0, if_true]
        exact same _ (by simp) (by simp)
      · simp only [h0, if_false]
        rcases hf : freeIndex t ds with _ | k
        · exact same _ (by simp) (by simp)
        · simp only
          obtain ⟨f1, f2⟩ := freeIndex_spec hf
          have hk := hd p ds (by simp) k f1
          constructor
          · intro j q
            rw [UMap.find?_emplace]
            by_cases hj : j = k
            · subst hj
              rw [f2]
              simp only [if_true]
              constructor
              · intro h
                injection h with h
                subst h
                exact ⟨es, [], rfl, by simp⟩
              · intro h
                by_cases hqp : q = p
                · rw [hqp]
                · rw [live_snoc_other (by
                    intro h; injection h with h _; exact hqp h.symm) (by simp)] at h
                  have := (ih1 j q).2 h
                  rw [f2] at this
                  exact absurd this (by simp)
            · have hne : (Event.added p k) ≠ .added q j := by
                intro h; injection h with _ h; exact hj h.symm
              rw [live_snoc_other hne (by simp)]
              rw [← ih1 j q]
              rcases t.find? j with _ | w
              · simp [hj]
              · simp
          · intro j q h
            rw [UMap.find?_emplace] at h
            rcases hfj : t.find? j with _ | w
            · rw [hfj] at h
              simp only at h
              split_ifs at h with hj
              injection h with h
              subst h hj
              exact ⟨hk.1, hk.2, h0⟩
            · rw [hfj] at h
              simp only at h
              exact ih2 j q (by rw [hfj, h])

/-- C51: after any history, a live handle is a non-zero 64-bit number, stands for one non-null
pointer, and looking it up finds that pointer. -/
theorem C51_live (os : List Op) (hd : DrawsOk os) (i p : Nat)
    (h : Live (run UMap.empty os).1 i p) :
    1 ≤ i ∧ i < 2 ^ 64 ∧ p ≠ 0 ∧ (∀ q, Live (run UMap.empty os).1 i q → q = p) ∧
    (step (run UMap.empty os).2 (.get i)).1 = .got i p ∧
    (step (run UMap.empty os).2 (.remove i)).1 = .removed i := by
  obtain ⟨h1, h2⟩ := run_live os hd
  have hf := (h1 i p).2 h
  obtain ⟨a, b, c⟩ := h2 i p hf
  have hi : ¬ i = 0 := by omega
  refine ⟨a, b, c, ?_, ?_, ?_⟩
  · intro q hq
    have := (h1 i q).2 hq
    rw [hf] at this
    injection this with this
    exact this.symm
  · unfold step get
    simp only [hi, if_false, hf]
  · unfold step remove
    simp only [hi, if_false, hf]

/-- C51: after any history, a handle that is not live is rejected. -/
theorem C51_rejects (os : List Op) (hd : DrawsOk os) (i : Nat)
    (h : ∀ p, ¬ Live (run UMap.empty os).1 i p) :
    (step (run UMap.empty os).2 (.get i)).1 = .getRejected i ∧
    (step (run UMap.empty os).2 (.remove i)).1 = .removeRejected i := by
  obtain ⟨h1, -⟩ := run_live os hd
  have hf : (run UMap.empty os).2.find? i = none := by
    rcases hf : (run UMap.empty os).2.find? i with _ | p
    · rfl
    · exact absurd ((h1 i p).1 hf) (h p)
  unfold step get remove
  by_cases hi : i = 0 <;> simp [hi, hf]

/-- C51: after any history, a null pointer is rejected; a call that stores another pointer hands out
a handle that is not live yet; and a call that is still searching has drawn live handles only. -/
theorem C51_add (os : List Op) (hd : DrawsOk os) (p : Nat) (draws : List Nat) :
    (p = 0 → (step (run UMap.empty os).2 (.add p draws)).1 = .addRejected p) ∧
    (p ≠ 0 →
      (∃ i, (step (run UMap.empty os).2 (.add p draws)).1 = .added p i ∧ i ∈ draws ∧
        (∀ q, ¬ Live (run UMap.empty os).1 i q) ∧
        Live (run UMap.empty (os ++ [.add p draws])).1 i p ∧
        ∀ j q, j ≠ i → (Live (run UMap.empty (os ++ [.add p draws])).1 j q ↔
          Live (run UMap.empty os).1 j q)) ∨
      ((step (run UMap.empty os).2 (.add p draws)).1 = .addPending p ∧
        ∀ d ∈ draws, ∃ q, Live (run UMap.empty os).1 d q)) := by
  obtain ⟨h1, h2⟩ := run_live os hd
  constructor
  · rintro rfl
    simp [step, add]
  · intro hp
    rcases hf : freeIndex (run UMap.empty os).2 draws with _ | i
    · right
      constructor
      · simp [step, add, hp, hf]
      · intro d hdm
        have := freeIndex_none hf d hdm
        obtain ⟨q, hq⟩ := Option.ne_none_iff_exists'.1 this
        exact ⟨q, (h1 d q).1 hq⟩
    · left
      obtain ⟨f1, f2⟩ := freeIndex_spec hf
      have hs : (step (run UMap.empty os).2 (.add p draws)).1 = .added p i := by
        simp [step, add, hp, hf]
      refine ⟨i, hs, f1, ?_, ?_, ?_⟩
      · intro q hq
        have := (h1 i q).2 hq
        rw [f2] at this
        exact absurd this (by simp)
      · rw [run_snoc, hs]
        exact ⟨_, [], rfl, by simp⟩
      · intro j q hj
        rw [run_snoc, hs]
        exact live_snoc_other (by intro h; injection h with _ h; exact hj h.symm) (by simp)

/-- A history in which the generator repeats a live handle: the loop skips it, and the removed handle
may be handed out again. -/
example : (run UMap.empty
    [.add 10 [7], .add 11 [7, 7, 9], .get 7, .remove 7, .get 7, .add 0 [3], .add 12 [9, 7], .get 7,
      .remove 5]).1 =
    [.added 10 7, .added 11 9, .got 7 10, .removed 7, .getRejected 7, .addRejected 0, .added 12 7,
      .got 7 12, .removeRejected 5] := by decide

end PTable

end Feat
