import Verif.Spec.Components
import Verif.Props.TrainingOnly
import Verif.Props.Estimator
/-
Lemmas about training-only estimators and annotations.
-/
namespace Feat
variable {σ ι α : Type}

theorem trainEstimator_eq (p : Policy σ ι α) (c : TrainingOnlyConfig α) (cap : Nat) (hcap : 0 < cap)
    (s : σ) (batches : List (List ι)) (hb : NoEmptyBatch batches) (maps : AnnotationMaps α)
    (hcol : c.col < maps.length)
    (hnone : c.requiresTraining = true → getAnnotation c.kind maps c.col c.name = .ok none) :
    trainEstimator p c cap s batches maps = publishes p c (batches.flatten.take cap) s maps := by
  unfold trainEstimator
  rcases hn : TrainingOnly.new maps c cap s with x | e
  · unfold TrainingOnly.new at hn
    rw [if_neg (by omega)] at hn
    cases hn
  · have := C12_published p c cap hcap maps s e hn hnone batches hb
    simpa using this

theorem getAnnotation_add (maps : AnnotationMaps α) (a : α) (col : Nat) (name : String)
    (kind : α → Bool) (col' : Nat) (name' : String) (hc : col < maps.length)
    (hc' : col' < maps.length) (hn : name' ≠ "") :
    getAnnotation kind (addAnnotation (some a) col name maps).2 col' name'
      = .ok ((stored maps col' name' ++ if col = col' ∧ name = name' then [a] else []).find? kind) ∧
    (addAnnotation (some a) col name maps).1 = .ok () ∧
    (addAnnotation (some a) col name maps).2.length = maps.length := by
  have h1 := C11_append_only maps [⟨some a, col, name⟩] col' name'
  have h2 : (addAnnotation (some a) col name maps).2.length = maps.length := by
    simp only [addAnnotation]
    rw [if_neg (by omega)]
    simp
  refine ⟨?_, ?_, h2⟩
  · have h3 := (C11_lookup (addAnnotation (some a) col name maps).2 kind col' name').1
      ⟨by omega, hn⟩
    rw [h3]
    simp only [afterAdds] at h1
    rw [h1]
    congr 3
    simp only [addsFor, List.filterMap_cons, List.filterMap_nil]
    by_cases h : col = col' ∧ name = name'
    · obtain ⟨rfl, rfl⟩ := h
      simp [hc]
    · have : ¬ (col = col' ∧ name = name' ∧ col < maps.length) := fun hh => h ⟨hh.1, hh.2.1⟩
      simp [h, this]
  · simp only [addAnnotation]
    rw [if_neg (by omega)]

theorem addAnnotation_ok (maps : AnnotationMaps α) (a : α) (col : Nat) (name : String)
    (hc : col < maps.length) :
    addAnnotation (some a) col name maps = (.ok (), (addAnnotation (some a) col name maps).2) ∧
    (addAnnotation (some a) col name maps).2.length = maps.length := by
  simp only [addAnnotation]
  rw [if_neg (by omega)]
  simp

/-- After adding, the annotation is found if there was none of its kind. -/
theorem getAnnotation_add_self (maps : AnnotationMaps α) (a : α) (col : Nat) (name : String)
    (kind : α → Bool) (hk : kind a = true) (hn : getAnnotation kind maps col name = .ok none) :
    getAnnotation kind (addAnnotation (some a) col name maps).2 col name = .ok (some a) := by
  by_cases h : col < maps.length ∧ name ≠ ""
  · rw [(getAnnotation_add maps a col name kind col name h.1 h.1 h.2).1]
    rw [(C11_lookup maps kind col name).1 h] at hn
    simp only [Except.ok.injEq] at hn
    simp [List.find?_append, hn, hk]
  · rw [(C11_lookup maps kind col name).2 h] at hn
    cases hn

/-- Adding under another name changes nothing for this name. -/
theorem getAnnotation_add_other (maps : AnnotationMaps α) (a : α) (col : Nat) (name name' : String)
    (kind : α → Bool) (hne : name ≠ name') :
    getAnnotation kind (addAnnotation (some a) col name maps).2 col name'
      = getAnnotation kind maps col name' := by
  by_cases hc : col < maps.length
  · by_cases hn : name' = ""
    · have h2 : ¬ (col < maps.length ∧ name' ≠ "") := fun hh => hh.2 hn
      have h3 : ¬ (col < (addAnnotation (some a) col name maps).2.length ∧ name' ≠ "") :=
        fun hh => hh.2 hn
      rw [(C11_lookup _ _ _ _).2 h2, (C11_lookup _ _ _ _).2 h3]
    · rw [(getAnnotation_add maps a col name kind col name' hc hc hn).1,
        (C11_lookup maps kind col name').1 ⟨hc, hn⟩]
      simp [hne]
  · simp [addAnnotation, Nat.not_lt.1 hc]

theorem fitAll_pure (p : Policy σ ι α) (f : σ → ι → σ) (h : ∀ x s, p.fit x s = (.ok (), f s x))
    (xs : List ι) (s : σ) : p.fitAll xs s = (.ok (), xs.foldl f s) := by
  induction xs generalizing s with
  | nil => rfl
  | cons x xs ih => simp only [Policy.fitAll, h, List.foldl_cons, ih]

/-- Training an estimator that always begins and has not been trained. -/
theorem trainEstimator_run (p : Policy σ ι α) (hbegin : ∀ m s, p.begin m s = (.ok true, s))
    (c : TrainingOnlyConfig α) (cap : Nat) (hcap : 0 < cap) (s : σ) (batches : List (List ι))
    (hb : NoEmptyBatch batches) (maps : AnnotationMaps α) (hcol : c.col < maps.length)
    (hreq : c.requiresTraining = true) (hnone : getAnnotation c.kind maps c.col c.name = .ok none) :
    trainEstimator p c cap s batches maps =
      match p.fitAll (batches.flatten.take cap) s with
      | (.error x, _) => (.error x, maps)
      | (.ok (), s') =>
        match p.complete maps s' with
        | (.error x, _) => (.error x, maps)
        | (.ok a, _) => addAnnotation (some a) c.col c.name maps := by
  rw [trainEstimator_eq p c cap hcap s batches hb maps hcol (fun _ => hnone)]
  simp only [publishes, hreq, if_true, hbegin]
  rcases p.fitAll (batches.flatten.take cap) s with ⟨_ | _, s'⟩
  · rfl
  · simp only
    rcases p.complete maps s' with ⟨_ | _, _⟩ <;> rfl

/-- Training an estimator that always begins, whose `fit` never throws, and that has not been trained. -/
theorem trainEstimator_fold (p : Policy σ ι α) (f : σ → ι → σ)
    (hbegin : ∀ m s, p.begin m s = (.ok true, s))
    (hfit : ∀ x s, p.fit x s = (.ok (), f s x)) (c : TrainingOnlyConfig α) (cap : Nat)
    (hcap : 0 < cap) (s : σ) (batches : List (List ι)) (hb : NoEmptyBatch batches)
    (maps : AnnotationMaps α) (hcol : c.col < maps.length) (hreq : c.requiresTraining = true)
    (hnone : getAnnotation c.kind maps c.col c.name = .ok none) :
    trainEstimator p c cap s batches maps =
      match p.complete maps ((batches.flatten.take cap).foldl f s) with
      | (.error x, _) => (.error x, maps)
      | (.ok a, _) => addAnnotation (some a) c.col c.name maps := by
  rw [trainEstimator_eq p c cap hcap s batches hb maps hcol (fun _ => hnone)]
  simp only [publishes, hreq, if_true, hbegin, fitAll_pure p f hfit]
  rcases p.complete maps ((batches.flatten.take cap).foldl f s) with ⟨_ | _, _⟩ <;> rfl

/-- Training an estimator that requires no training only completes. -/
theorem trainEstimator_noTraining (p : Policy σ ι α) (c : TrainingOnlyConfig α) (cap : Nat)
    (hcap : 0 < cap) (s : σ) (batches : List (List ι)) (hb : NoEmptyBatch batches)
    (maps : AnnotationMaps α) (hcol : c.col < maps.length) (hreq : c.requiresTraining = false) :
    trainEstimator p c cap s batches maps =
      match p.complete maps s with
      | (.error x, _) => (.error x, maps)
      | (.ok a, _) => addAnnotation (some a) c.col c.name maps := by
  rw [trainEstimator_eq p c cap hcap s batches hb maps hcol (fun h => by rw [hreq] at h; cases h)]
  simp only [publishes, hreq, if_false, Bool.false_eq_true]
  rcases p.complete maps s with ⟨_ | _, _⟩ <;> rfl

/-- Training an estimator changes nothing stored under other names. -/
theorem trainEstimator_other (p : Policy σ ι α) (c : TrainingOnlyConfig α) (cap : Nat)
    (hcap : 0 < cap) (s : σ) (batches : List (List ι)) (hb : NoEmptyBatch batches)
    (maps : AnnotationMaps α) (hcol : c.col < maps.length)
    (hnone : getAnnotation c.kind maps c.col c.name = .ok none)
    (r : Except Err Unit) (maps' : AnnotationMaps α)
    (ht : trainEstimator p c cap s batches maps = (r, maps')) :
    maps'.length = maps.length ∧ ∀ kind name, name ≠ c.name →
      getAnnotation kind maps' c.col name = getAnnotation kind maps c.col name := by
  rw [trainEstimator_eq p c cap hcap s batches hb maps hcol (fun _ => hnone)] at ht
  have hadd : ∀ a, (r, maps') = addAnnotation (some a) c.col c.name maps →
      maps'.length = maps.length ∧ ∀ kind name, name ≠ c.name →
        getAnnotation kind maps' c.col name = getAnnotation kind maps c.col name := by
    intro a h
    have h2 : maps' = (addAnnotation (some a) c.col c.name maps).2 := by rw [← h]
    subst h2
    exact ⟨(addAnnotation_ok maps a c.col c.name hcol).2, fun kind name hn =>
      getAnnotation_add_other maps a c.col c.name name kind (Ne.symm hn)⟩
  have herr : ∀ (x : Err), (Except.error x, maps) = (r, maps') →
      maps'.length = maps.length ∧ ∀ kind name, name ≠ c.name →
        getAnnotation kind maps' c.col name = getAnnotation kind maps c.col name := by
    intro x h
    cases h
    exact ⟨rfl, fun _ _ _ => rfl⟩
  unfold publishes at ht
  split at ht
  · exact herr _ ht
  · split at ht
    · exact herr _ ht
    · split at ht
      · exact herr _ ht
      · exact hadd _ ht.symm

/-! ### The number of columns never changes -/

private abbrev Cols (n : Nat) (t : TrainingOnly σ α) : Prop := t.maps.length = n

private theorem addAnnotation_length (a : Option α) (col : Nat) (name : String)
    (maps : AnnotationMaps α) : (addAnnotation a col name maps).2.length = maps.length := by
  unfold addAnnotation
  cases a with
  | none => rfl
  | some a =>
    simp only
    split
    · rfl
    · simp

private theorem hooks_cols (p : Policy σ ι α) (c : TrainingOnlyConfig α) (n : Nat)
    (t : TrainingOnly σ α) (h : Cols n t) :
    Cols n ((trainingOnlyHooks p c).begin t).2 ∧
    (∀ items, Cols n ((trainingOnlyHooks p c).fit items t).2) ∧
    Cols n ((trainingOnlyHooks p c).onDataCompleted t).2 ∧
    Cols n ((trainingOnlyHooks p c).complete t).2 := by
  refine ⟨?_, ?_, h, ?_⟩
  · simp only [trainingOnlyHooks]
    split
    · exact h
    · split
      · exact h
      · exact h
      · rcases p.begin (t.maps.getD c.col []) t.policy with ⟨_ | _, _⟩ <;> exact h
  · intro items
    simp only [trainingOnlyHooks]
    rcases p.fitAll (items.take (min t.remaining items.length)) t.policy with ⟨_ | u, _⟩
    · exact h
    · cases u; exact h
  · simp only [trainingOnlyHooks]
    split
    · rcases p.complete t.maps t.policy with ⟨_ | a, s⟩
      · exact h
      · have hl := addAnnotation_length (some a) c.col c.name t.maps
        rcases hA : addAnnotation (some a) c.col c.name t.maps with ⟨_ | u, m⟩
        · rw [hA] at hl; simp only [hA]; exact hl.trans h
        · cases u; rw [hA] at hl; simp only [hA]; exact hl.trans h
    · exact h

private theorem est_cols (p : Policy σ ι α) (c : TrainingOnlyConfig α) (n : Nat)
    (e : Est (TrainingOnly σ α)) (h : Cols n e.inner) :
    Cols n (Est.beginTraining (trainingOnlyHooks p c) e).2.inner ∧
    (∀ q, Cols n (Est.fit (trainingOnlyHooks p c) q e).2.inner) ∧
    Cols n (Est.onDataCompleted (trainingOnlyHooks p c) e).2.inner ∧
    Cols n (Est.completeTraining (trainingOnlyHooks p c) e).2.inner := by
  obtain ⟨st, cr, t⟩ := e
  obtain ⟨h1, h2, h3, h4⟩ := hooks_cols p c n t h
  refine ⟨?_, ?_, ?_, ?_⟩
  · simp only [Est.beginTraining]
    split
    · exact h
    · rcases hh : (trainingOnlyHooks p c).begin t with ⟨_ | b, t'⟩ <;> rw [hh] at h1
      · exact h1
      · cases b <;> exact h1
  · intro q
    simp only [Est.fit]
    split
    · exact h
    · cases q with
      | none => exact h
      | some items =>
        have h2 := h2 items
        simp only
        split
        · exact h
        · rcases hh : (trainingOnlyHooks p c).fit items t with ⟨_ | r, t'⟩ <;> rw [hh] at h2
          · exact h2
          · cases r <;> exact h2
  · simp only [Est.onDataCompleted]
    split
    · exact h
    · split
      · rcases hh : (trainingOnlyHooks p c).onDataCompleted t with ⟨_ | b, t'⟩ <;> rw [hh] at h3
        · exact h3
        · cases b <;> exact h3
      · exact h
  · simp only [Est.completeTraining]
    split
    · exact h
    · rcases hh : (trainingOnlyHooks p c).complete t with ⟨_ | b, t'⟩ <;> rw [hh] at h4 <;> exact h4

/-- Training never changes the number of columns. -/
theorem trainOnce_maps_length (p : Policy σ ι α) (c : TrainingOnlyConfig α) (bs : List (List ι))
    (e : Est (TrainingOnly σ α)) :
    (trainOnce (trainingOnlyHooks p c) bs e).2.inner.maps.length = e.inner.maps.length := by
  have hoffer : ∀ (bs : List (List ι)) (e : Est (TrainingOnly σ α)),
      Cols e.inner.maps.length (offer (trainingOnlyHooks p c) bs e).2.inner := by
    intro bs
    induction bs with
    | nil => intro e; rfl
    | cons b bs ih =>
      intro e
      simp only [offer]
      split
      · have h := (est_cols p c _ e rfl).2.1 (some b)
        rcases hf : Est.fit (trainingOnlyHooks p c) (some b) e with ⟨_ | r, e'⟩
        · rw [hf] at h; exact h
        · rw [hf] at h
          exact (ih e').trans h
      · rfl
  unfold trainOnce
  have h1 := (est_cols p c _ e rfl).1
  rcases hB : Est.beginTraining (trainingOnlyHooks p c) e with ⟨_ | u, e1⟩ <;> rw [hB] at h1
  · exact h1
  cases u
  have h2 := hoffer bs e1
  simp only at h1 ⊢
  rcases hO : offer (trainingOnlyHooks p c) bs e1 with ⟨_ | u, e2⟩ <;> rw [hO] at h2
  · exact h2.trans h1
  cases u
  have h3 := (est_cols p c _ e2 rfl).2.2.1
  simp only at h2 ⊢
  rcases hD : Est.onDataCompleted (trainingOnlyHooks p c) e2 with ⟨_ | u, e3⟩ <;> rw [hD] at h3
  · exact h3.trans (h2.trans h1)
  cases u
  exact (est_cols p c _ e3 rfl).2.2.2.trans (h3.trans (h2.trans h1))

end Feat
