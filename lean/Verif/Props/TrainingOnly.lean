import Verif.Model.TrainingOnly
import Verif.Spec.Training
/-
C12 training-only estimators.
-/
namespace Feat
variable {σ ι α : Type}

/-- What training is supposed to publish, in terms of the policy alone: begin, take the items one by one,
complete, and add the resulting annotation (estimators that do not require training only complete). The second component is the annotation store afterwards. -/
def publishes (p : Policy σ ι α) (c : TrainingOnlyConfig α) (items : List ι) (s : σ)
    (maps : AnnotationMaps α) : Except Err Unit × AnnotationMaps α :=
  match (if c.requiresTraining then p.begin (maps.getD c.col []) s else (.ok false, s)) with
  | (.error x, _) => (.error x, maps)
  | (.ok b, s) =>
    match (if b then p.fitAll items s else (.ok (), s)) with
    | (.error x, _) => (.error x, maps)
    | (.ok (), s) =>
      match p.complete maps s with
      | (.error x, _) => (.error x, maps)
      | (.ok a, _) => addAnnotation (some a) c.col c.name maps

private theorem fitAll_append (p : Policy σ ι α) (xs ys : List ι) (s : σ) :
    p.fitAll (xs ++ ys) s = match p.fitAll xs s with
      | (.ok (), s') => p.fitAll ys s'
      | (.error e, s') => (.error e, s') := by
  induction xs generalizing s with
  | nil => rfl
  | cons x xs ih =>
    simp only [List.cons_append, Policy.fitAll]
    rcases p.fit x s with ⟨_ | _, s'⟩
    · rfl
    · exact ih s'

/-- Offering batches to an estimator in the Training state with `remaining > 0`. -/
private theorem offer_eq (p : Policy σ ι α) (c : TrainingOnlyConfig α) (bs : List (List ι))
    (hb : ∀ b ∈ bs, b ≠ []) (e : Est (TrainingOnly σ α)) (hs : e.state = .training)
    (hr : 0 < e.inner.remaining) :
    match p.fitAll (bs.flatten.take e.inner.remaining) e.inner.policy with
    | (.error x, _) =>
      (offer (trainingOnlyHooks p c) bs e).1 = .error x ∧
      (offer (trainingOnlyHooks p c) bs e).2.inner.maps = e.inner.maps
    | (.ok (), s) =>
      offer (trainingOnlyHooks p c) bs e = (.ok (), { e with
        state := if e.inner.remaining ≤ bs.flatten.length then .finished else .training
        inner := { e.inner with
          policy := s
          remaining := e.inner.remaining - bs.flatten.length } }) := by
  induction bs generalizing e with
  | nil =>
    obtain ⟨st, cr, t⟩ := e
    simp only at hs hr
    subst hs
    have : ¬ t.remaining ≤ 0 := by omega
    simp [Policy.fitAll, offer, this]
  | cons b bs ih =>
    obtain ⟨st, cr, t⟩ := e
    simp only at hs hr
    subst hs
    have hne : ¬ b.length = 0 := by
      have := hb b (by simp); simpa using this
    have htake : ((b :: bs).flatten.take t.remaining)
        = b.take (min t.remaining b.length) ++ bs.flatten.take (t.remaining - b.length) := by
      rw [List.flatten_cons, List.take_append]
      congr 1
      rw [← List.take_take, List.take_of_length_le (Nat.le_refl b.length)]
    simp only [htake, fitAll_append]
    simp only [offer, if_true, Est.fit, ne_eq, not_true_eq_false, if_false, hne, trainingOnlyHooks]
    rcases hf : p.fitAll (b.take (min t.remaining b.length)) t.policy with ⟨x | _, s⟩
    · simp
    · by_cases hlt : b.length < t.remaining
      · have hm : min t.remaining b.length = b.length := by omega
        have hn : ¬ (t.remaining - b.length = 0) := by omega
        have := ih (fun b hb' => hb b (by simp [hb']))
          { state := .training, created := cr,
            inner := { t with policy := s, remaining := t.remaining - b.length } } rfl
          (by simp only; omega)
        simp only [hm, hn, not_false_eq_true, if_true]
        simp only at this
        have e1 : t.remaining - b.length ≤ bs.flatten.length ↔
            t.remaining ≤ (b :: bs).flatten.length := by
          rw [List.flatten_cons, List.length_append]; omega
        have e2 : t.remaining - b.length - bs.flatten.length
            = t.remaining - (b :: bs).flatten.length := by
          rw [List.flatten_cons, List.length_append]; omega
        simp only [e1, e2] at this
        exact this
      · have hm : min t.remaining b.length = t.remaining := by omega
        have hz : t.remaining - b.length = 0 := by omega
        have e1 : t.remaining ≤ (b :: bs).flatten.length := by
          rw [List.flatten_cons, List.length_append]; omega
        have e2 : t.remaining - (b :: bs).flatten.length = 0 := by
          rw [List.flatten_cons, List.length_append]; omega
        simp only [hm, hz, Nat.sub_self, List.take_zero, Policy.fitAll, e1, e2, if_true,
          not_true_eq_false, if_false]
        cases bs <;> simp [offer]

/-- Reporting the end of the data and completing, when there is no annotation yet. -/
private theorem finish_eq (p : Policy σ ι α) (c : TrainingOnlyConfig α) (e : Est (TrainingOnly σ α))
    (hs : e.state = .training ∨ e.state = .finished) (hn : e.inner.hasAnnotation = false) :
    (match Est.onDataCompleted (trainingOnlyHooks p c) e with
      | (.error x, e) => ((.error x, e) : Except Err Unit × Est (TrainingOnly σ α))
      | (.ok (), e) => Est.completeTraining (trainingOnlyHooks p c) e).1
      = (match p.complete e.inner.maps e.inner.policy with
        | (.error x, _) => ((.error x, e.inner.maps) : Except Err Unit × AnnotationMaps α)
        | (.ok a, _) => addAnnotation (some a) c.col c.name e.inner.maps).1 ∧
    (match Est.onDataCompleted (trainingOnlyHooks p c) e with
      | (.error x, e) => ((.error x, e) : Except Err Unit × Est (TrainingOnly σ α))
      | (.ok (), e) => Est.completeTraining (trainingOnlyHooks p c) e).2.inner.maps
      = (match p.complete e.inner.maps e.inner.policy with
        | (.error x, _) => ((.error x, e.inner.maps) : Except Err Unit × AnnotationMaps α)
        | (.ok a, _) => addAnnotation (some a) c.col c.name e.inner.maps).2 := by
  obtain ⟨st, cr, ⟨maps, ha, rem, pol⟩⟩ := e
  simp only at hs hn
  subst hn
  rcases hc : p.complete maps pol with ⟨x | a, s⟩
  · rcases hs with rfl | rfl <;>
      simp [Est.onDataCompleted, Est.completeTraining, trainingOnlyHooks, hc]
  · rcases hA : addAnnotation (some a) c.col c.name maps with ⟨x | _, m⟩ <;>
    rcases hs with rfl | rfl <;>
      simp [Est.onDataCompleted, Est.completeTraining, trainingOnlyHooks, hc, hA]

/-- **C12** (value) A training-only estimator with cap `cap` that has no annotation yet (or does not look for one): however the data is split into non-empty batches, training ends with the result and the annotation
store prescribed by the policy on the first `cap` items of the concatenated data. -/
theorem C12_published (p : Policy σ ι α) (c : TrainingOnlyConfig α) (cap : Nat) (hcap : 0 < cap)
    (maps : AnnotationMaps α) (s : σ) (e : Est (TrainingOnly σ α))
    (hnew : TrainingOnly.new maps c cap s = .ok e)
    (hnone : c.requiresTraining = true → getAnnotation c.kind maps c.col c.name = .ok none)
    (batches : List (List ι)) (hb : ∀ b ∈ batches, b ≠ []) :
    ((trainOnce (trainingOnlyHooks p c) batches e).1,
     (trainOnce (trainingOnlyHooks p c) batches e).2.inner.maps)
      = publishes p c (batches.flatten.take cap) s maps := by
  unfold TrainingOnly.new at hnew
  split at hnew
  · cases hnew
  cases hnew
  simp only [Est.new, trainOnce, Est.beginTraining, ne_eq, not_true_eq_false, if_false]
  have hbegin : (trainingOnlyHooks p c).begin ⟨maps, false, cap, s⟩ =
      match (if c.requiresTraining then p.begin (maps.getD c.col []) s else (.ok false, s)) with
      | (.ok b, s) => (.ok b, ⟨maps, false, cap, s⟩)
      | (.error e, s) => (.error e, ⟨maps, false, cap, s⟩) := by
    cases hreq : c.requiresTraining
    · simp [trainingOnlyHooks, hreq]
    · simp only [trainingOnlyHooks, hreq, hnone hreq, if_true]
      rcases p.begin (maps.getD c.col []) s with ⟨_ | _, _⟩ <;> rfl
  rw [hbegin]
  unfold publishes
  rcases (if c.requiresTraining then p.begin (maps.getD c.col []) s else (.ok false, s) :
    Except Err Bool × σ) with ⟨x | b, s1⟩
  · rfl
  · cases b with
    | false =>
      have : offer (trainingOnlyHooks p c) batches
          { state := .finished, created := false, inner := ⟨maps, false, cap, s1⟩ }
          = (.ok (), { state := .finished, created := false, inner := ⟨maps, false, cap, s1⟩ }) := by
        cases batches <;> simp [offer]
      simp only [this]
      have hf := finish_eq p c
        { state := .finished, created := false, inner := ⟨maps, false, cap, s1⟩ } (.inr rfl) rfl
      exact Prod.ext hf.1 hf.2
    | true =>
      have ho := offer_eq p c batches hb
        { state := .training, created := false, inner := ⟨maps, false, cap, s1⟩ } rfl hcap
      simp only [if_true]
      simp only at ho
      rcases hf : p.fitAll (batches.flatten.take cap) s1 with ⟨x | u, s2⟩
      · rw [hf] at ho
        simp only at ho
        rcases hoff : offer (trainingOnlyHooks p c) batches
          { state := .training, created := false, inner := ⟨maps, false, cap, s1⟩ } with ⟨r, e'⟩
        rw [hoff] at ho
        obtain ⟨h1, h2⟩ := ho
        simp only at h1 h2
        subst h1
        simp [h2]
      · cases u
        rw [hf] at ho
        simp only at ho
        rw [ho]
        simp only
        by_cases h : cap ≤ batches.flatten.length
        · simp only [h, if_true]
          have hf := finish_eq p c
            { state := .finished, created := false
              inner := ⟨maps, false, cap - batches.flatten.length, s2⟩ } (.inr rfl) rfl
          exact Prod.ext hf.1 hf.2
        · simp only [h, if_false]
          have hf := finish_eq p c
            { state := .training, created := false
              inner := ⟨maps, false, cap - batches.flatten.length, s2⟩ } (.inl rfl) rfl
          exact Prod.ext hf.1 hf.2

/-- **C12** (split independence) Two ways of splitting data that agree on the first `cap` items — in
particular any two splits of the same data — end with the same result and the same annotations. -/
theorem C12_split_independence (p : Policy σ ι α) (c : TrainingOnlyConfig α) (cap : Nat)
    (hcap : 0 < cap) (maps : AnnotationMaps α) (s : σ) (e : Est (TrainingOnly σ α))
    (hnew : TrainingOnly.new maps c cap s = .ok e)
    (hnone : c.requiresTraining = true → getAnnotation c.kind maps c.col c.name = .ok none)
    (bs₁ bs₂ : List (List ι)) (h₁ : ∀ b ∈ bs₁, b ≠ []) (h₂ : ∀ b ∈ bs₂, b ≠ [])
    (heq : bs₁.flatten.take cap = bs₂.flatten.take cap) :
    (trainOnce (trainingOnlyHooks p c) bs₁ e).1 = (trainOnce (trainingOnlyHooks p c) bs₂ e).1 ∧
    (trainOnce (trainingOnlyHooks p c) bs₁ e).2.inner.maps
      = (trainOnce (trainingOnlyHooks p c) bs₂ e).2.inner.maps := by
  have a1 := C12_published p c cap hcap maps s e hnew hnone bs₁ h₁
  have a2 := C12_published p c cap hcap maps s e hnew hnone bs₂ h₂
  rw [heq, ← a2] at a1
  exact Prod.mk.inj a1

/-- **C12** (cap) Offering batches without exception to a freshly begun estimator leaves it Finished
(its last `fit` reported completion) exactly when the cap is reached, and otherwise in Training. -/
theorem C12_cap (p : Policy σ ι α) (c : TrainingOnlyConfig α) (cap : Nat) (hcap : 0 < cap)
    (maps : AnnotationMaps α) (s : σ) (e e₁ e₂ : Est (TrainingOnly σ α))
    (hnew : TrainingOnly.new maps c cap s = .ok e)
    (hbegin : Est.beginTraining (trainingOnlyHooks p c) e = (.ok (), e₁))
    (htrain : e₁.state = .training)
    (batches : List (List ι)) (hb : ∀ b ∈ batches, b ≠ [])
    (hoffer : offer (trainingOnlyHooks p c) batches e₁ = (.ok (), e₂)) :
    e₂.state = if cap ≤ batches.flatten.length then .finished else .training := by
  have hrem : e₁.inner.remaining = cap := by
    unfold TrainingOnly.new at hnew
    split at hnew
    · cases hnew
    cases hnew
    simp only [Est.new, Est.beginTraining, ne_eq, not_true_eq_false, if_false,
      trainingOnlyHooks] at hbegin
    split at hbegin
    · cases hbegin
    · rename_i s' heq
      cases hbegin
      split at heq
      · cases heq
      · split at heq
        · cases heq
        · cases heq
        · rcases hb : p.begin (maps.getD c.col []) s with ⟨x | b, s2⟩ <;> rw [hb] at heq <;> simp at heq
          rw [← heq.2]
    · rename_i s' heq
      cases hbegin
      simp at htrain
  have ho := offer_eq p c batches hb e₁ htrain (by omega)
  rw [hrem] at ho
  split at ho
  · rw [hoffer] at ho
    exact absurd ho.1 (by simp)
  · rw [hoffer] at ho
    simp only [Prod.mk.injEq, true_and] at ho
    rw [ho]

/-- **C12** (no retraining) If the annotation already exists, training consumes nothing (the policy is not
even begun), ends successfully and leaves the annotations as they are.  Partial: only for estimators that
require training; the full claim is refuted by `C12_second_annotation`. -/
theorem C12_existing_annotation_partial (p : Policy σ ι α) (c : TrainingOnlyConfig α) (cap : Nat)
    (maps : AnnotationMaps α) (s : σ) (e : Est (TrainingOnly σ α)) (a : α)
    (hnew : TrainingOnly.new maps c cap s = .ok e) (hreq : c.requiresTraining = true)
    (hsome : getAnnotation c.kind maps c.col c.name = .ok (some a)) (batches : List (List ι)) :
    ∃ e', trainOnce (trainingOnlyHooks p c) batches e = (.ok (), e') ∧ e'.state = .completed ∧
      e'.inner.maps = maps ∧ e'.inner.policy = s ∧ e'.inner.remaining = cap := by
  unfold TrainingOnly.new at hnew
  split at hnew
  · cases hnew
  cases hnew
  have hoff : offer (trainingOnlyHooks p c) batches
      { state := .finished, created := false, inner := ⟨maps, true, cap, s⟩ }
      = (.ok (), { state := .finished, created := false, inner := ⟨maps, true, cap, s⟩ }) := by
    cases batches <;> simp [offer]
  simp only [Est.new, trainOnce, Est.beginTraining, ne_eq, not_true_eq_false, if_false]
  have hbegin : (trainingOnlyHooks p c).begin ⟨maps, false, cap, s⟩
      = (.ok false, ⟨maps, true, cap, s⟩) := by
    simp [trainingOnlyHooks, hreq, hsome]
  rw [hbegin]
  simp only [hoff, Est.onDataCompleted, Est.completeTraining]
  simp [trainingOnlyHooks]

/-! Non-vacuity: a summing policy with cap 3, fed 5 items in 3 batches. -/

/-- Sums its items. -/
def sumPolicy : Policy Nat Nat Nat where
  begin _ s := (.ok true, s)
  fit x s := (.ok (), s + x)
  complete _ s := (.ok s, s)

/-- One column, named. -/
def sumConfig : TrainingOnlyConfig Nat := ⟨0, "Sum", true, fun _ => true⟩

example : (∃ e, TrainingOnly.new [[]] sumConfig 3 0 = .ok e) ∧
    getAnnotation sumConfig.kind [[]] 0 "Sum" = .ok none ∧
    publishes sumPolicy sumConfig ([[1, 2], [4], [8, 16]].flatten.take 3) 0 [[]]
      = (.ok (), [[("Sum", [7])]]) ∧
    getAnnotation sumConfig.kind [[("Sum", [7])]] 0 "Sum" = .ok (some 7) :=
  ⟨⟨_, rfl⟩, rfl, rfl, rfl⟩

/-- The full "adds no second annotation" claim is false for estimators constructed with
`requiresTraining = false` (mode, index map and global minimum frequency): `begin_training_impl` returns
before it looks for an existing annotation, so completing adds a second one. -/
theorem C12_second_annotation :
    ∃ (c : TrainingOnlyConfig Nat) (maps : AnnotationMaps Nat) (e : Est (TrainingOnly Nat Nat)),
      TrainingOnly.new maps c 3 9 = .ok e ∧ c.requiresTraining = false ∧
      getAnnotation c.kind maps c.col c.name = .ok (some 7) ∧
      (trainOnce (trainingOnlyHooks sumPolicy c) [[1]] e).2.inner.maps = [[("Mode", [7, 9])]] :=
  ⟨⟨0, "Mode", false, fun _ => true⟩, [[("Mode", [7])]], _, rfl, rfl, rfl, rfl⟩

end Feat
