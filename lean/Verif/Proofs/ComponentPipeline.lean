import Verif.Spec.ComponentPipeline
import Verif.Props.PipelineTrain
import Verif.Proofs.Components
/-
Training a featurizer is training its components one after the other (consequence of C13).
-/
namespace Feat
variable {ι α T : Type} {σ : Nat → Type}

/-- The pipeline state as seen by stage `i`. -/
def focus (i : Nat) (g : CompState α σ) : TrainingOnly (σ i) α :=
  ⟨g.1, (g.2 i).hasAnnotation, (g.2 i).remaining, (g.2 i).policy⟩

/-- Put it back. -/
def unfocus (i : Nat) (t : TrainingOnly (σ i) α) (g : CompState α σ) : CompState α σ :=
  (t.maps, setPriv i ⟨t.hasAnnotation, t.remaining, t.policy⟩ g.2)

theorem focus_unfocus (i : Nat) (t : TrainingOnly (σ i) α) (g : CompState α σ) :
    focus i (unfocus i t g) = t := by
  simp [focus, unfocus, setPriv]

theorem unfocus_unfocus (i : Nat) (t t' : TrainingOnly (σ i) α) (g : CompState α σ) :
    unfocus i t (unfocus i t' g) = unfocus i t g := by
  simp only [unfocus, Prod.mk.injEq, true_and]
  funext j
  simp only [setPriv]
  split <;> rfl

theorem unfocus_other (i j : Nat) (h : j ≠ i) (t : TrainingOnly (σ i) α) (g : CompState α σ) :
    (unfocus i t g).2 j = g.2 j := by
  simp [unfocus, setPriv, h]

theorem unfocus_focus (i : Nat) (g : CompState α σ) : unfocus i (focus i g) g = g := by
  obtain ⟨m, p⟩ := g
  simp only [focus, unfocus, Prod.mk.injEq, true_and]
  funext j
  simp only [setPriv]
  split
  · rename_i h; subst h; rfl
  · rfl

/-- The estimator as seen by stage `i`. -/
def eFocus (i : Nat) (e : Est (CompState α σ)) : Est (TrainingOnly (σ i) α) :=
  ⟨e.state, e.created, focus i e.inner⟩

/-- Put it back. -/
def eUnfocus (i : Nat) (t : Est (TrainingOnly (σ i) α)) (g : CompState α σ) : Est (CompState α σ) :=
  ⟨t.state, t.created, unfocus i t.inner g⟩

private theorem onStage_eq {β : Type} (i : Nat) (op : Op (TrainingOnly (σ i) α) β)
    (t : TrainingOnly (σ i) α) (g : CompState α σ) :
    onStage i op (unfocus i t g) = ((op t).1, unfocus i (op t).2 g) := by
  have h1 : onStage i op (unfocus i t g)
      = ((op (focus i (unfocus i t g))).1,
          unfocus i (op (focus i (unfocus i t g))).2 (unfocus i t g)) := rfl
  rw [h1, focus_unfocus, unfocus_unfocus]

private abbrev H (comps : (i : Nat) → Component (σ i) ι α) (i : Nat) :
    Hooks (TrainingOnly (σ i) α) ι Unit := trainingOnlyHooks (comps i).policy (comps i).config

private theorem begin_lift (comps : (i : Nat) → Component (σ i) ι α) (i : Nat)
    (e : Est (TrainingOnly (σ i) α)) (g : CompState α σ) :
    Est.beginTraining (componentStage (T := T) comps i).hooks (eUnfocus i e g)
      = ((Est.beginTraining (H comps i) e).1, eUnfocus i (Est.beginTraining (H comps i) e).2 g) := by
  obtain ⟨st, cr, t⟩ := e
  cases st <;> try rfl
  simp only [Est.beginTraining, eUnfocus, ne_eq, not_true_eq_false, if_false, componentStage, onStage_eq]
  rcases (H comps i).begin t with ⟨_ | b, t'⟩
  · rfl
  · cases b <;> rfl

private theorem fit_lift (comps : (i : Nat) → Component (σ i) ι α) (i : Nat) (p : Option (List ι))
    (e : Est (TrainingOnly (σ i) α)) (g : CompState α σ) :
    Est.fit (componentStage (T := T) comps i).hooks p (eUnfocus i e g)
      = ((Est.fit (H comps i) p e).1, eUnfocus i (Est.fit (H comps i) p e).2 g) := by
  obtain ⟨st, cr, t⟩ := e
  cases st <;> try rfl
  cases p with
  | none => rfl
  | some items =>
    cases items with
    | nil => rfl
    | cons x xs =>
      simp only [Est.fit, eUnfocus, ne_eq, not_true_eq_false, if_false, componentStage, onStage_eq,
        List.length_cons, Nat.add_eq_zero_iff, Nat.one_ne_zero, and_false]
      rcases (H comps i).fit (x :: xs) t with ⟨_ | r, t'⟩
      · rfl
      · cases r <;> rfl

private theorem data_lift (comps : (i : Nat) → Component (σ i) ι α) (i : Nat)
    (e : Est (TrainingOnly (σ i) α)) (g : CompState α σ) :
    Est.onDataCompleted (componentStage (T := T) comps i).hooks (eUnfocus i e g)
      = ((Est.onDataCompleted (H comps i) e).1,
          eUnfocus i (Est.onDataCompleted (H comps i) e).2 g) := by
  obtain ⟨st, cr, t⟩ := e
  cases st <;> try rfl
  simp only [Est.onDataCompleted, eUnfocus, componentStage, onStage_eq]
  rcases (H comps i).onDataCompleted t with ⟨_ | b, t'⟩
  · rfl
  · cases b <;> rfl

private theorem complete_lift (comps : (i : Nat) → Component (σ i) ι α) (i : Nat)
    (e : Est (TrainingOnly (σ i) α)) (g : CompState α σ) :
    Est.completeTraining (componentStage (T := T) comps i).hooks (eUnfocus i e g)
      = ((Est.completeTraining (H comps i) e).1,
          eUnfocus i (Est.completeTraining (H comps i) e).2 g) := by
  obtain ⟨st, cr, t⟩ := e
  cases st <;> try rfl
  all_goals
    simp only [Est.completeTraining, eUnfocus, componentStage, onStage_eq]
    rcases (H comps i).complete t with ⟨_ | _, t'⟩ <;> rfl

private theorem via_none (X : Xf T ι ι) (n : Nat) (b : List ι) :
    via X (List.replicate n none) b = .ok b := by
  induction n with
  | zero => rfl
  | succ n ih => simp only [List.replicate_succ, via, viaOne, ih]

private theorem offer_lift (X : Xf T ι ι) (n : Nat) (comps : (i : Nat) → Component (σ i) ι α) (i : Nat)
    (bs : List (List ι)) (hb : NoEmptyBatch bs) (e : Est (TrainingOnly (σ i) α))
    (g : CompState α σ) :
    offerVia X (List.replicate n none) (componentStage comps i).hooks bs (eUnfocus i e g)
      = ((offer (H comps i) bs e).1, eUnfocus i (offer (H comps i) bs e).2 g) := by
  induction bs generalizing e with
  | nil => rfl
  | cons b bs ih =>
    have ih := ih (fun b' h => hb b' (by simp [h]))
    simp only [offerVia, offer, via_none]
    by_cases h : e.state = .training
    · rw [if_pos (show (eUnfocus i e g).state = .training from h), if_pos h]
      obtain ⟨v, vs, rfl⟩ := List.exists_cons_of_ne_nil (hb b (by simp))
      simp only [fit_lift]
      rcases Est.fit (H comps i) (some (v :: vs)) e with ⟨_ | r, e'⟩
      · rfl
      · exact ih e'
    · rw [if_neg (show ¬ (eUnfocus i e g).state = .training from h), if_neg h]

/-- Training one component stage by itself. -/
theorem component_trainOnce (comps : (i : Nat) → Component (σ i) ι α) (i : Nat) (bs : List (List ι)) (g : CompState α σ) :
    trainOnce (componentStage (T := T) comps i).hooks bs (Est.new g)
      = ((trainOnce (trainingOnlyHooks (comps i).policy (comps i).config) bs (Est.new (focus i g))).1,
        eUnfocus i (trainOnce (trainingOnlyHooks (comps i).policy (comps i).config) bs (Est.new (focus i g))).2 g) := by
  have h0 : (Est.new g : Est (CompState α σ)) = eUnfocus i (Est.new (focus i g)) g := by
    simp [Est.new, eUnfocus, unfocus_focus]
  have ho : ∀ e : Est (TrainingOnly (σ i) α), offer (componentStage (T := T) comps i).hooks bs (eUnfocus i e g)
      = ((offer (H comps i) bs e).1, eUnfocus i (offer (H comps i) bs e).2 g) := by
    induction bs with
    | nil => intro e; rfl
    | cons b bs ih =>
      intro e
      simp only [offer]
      by_cases h : e.state = .training
      · rw [if_pos (show (eUnfocus i e g).state = .training from h), if_pos h]
        simp only [fit_lift]
        rcases Est.fit (H comps i) (some b) e with ⟨_ | r, e'⟩
        · rfl
        · exact ih e'
      · rw [if_neg (show ¬ (eUnfocus i e g).state = .training from h), if_neg h]
  rw [h0]
  simp only [trainOnce, begin_lift]
  rcases Est.beginTraining (H comps i) (Est.new (focus i g)) with ⟨_ | u, e1⟩
  · rfl
  cases u
  simp only [ho]
  rcases offer (H comps i) bs e1 with ⟨_ | u, e2⟩
  · rfl
  cases u
  simp only [data_lift]
  rcases Est.onDataCompleted (H comps i) e2 with ⟨_ | u, e3⟩
  · rfl
  cases u
  simp only [complete_lift]

/-- Training one component stage. -/
private theorem trainStage_lift (X : Xf T ι ι) (n : Nat) (comps : (i : Nat) → Component (σ i) ι α)
    (i : Nat) (bs : List (List ι)) (hb : NoEmptyBatch bs) (g : CompState α σ) :
    ((trainStage X (List.replicate n none) bs (componentStage comps i) (Est.new g)).1
        = (trainOnce (H comps i) bs (Est.new (focus i g))).1.map (fun _ => none)) ∧
    (trainStage X (List.replicate n none) bs (componentStage comps i) (Est.new g)).2
        = eUnfocus i (trainOnce (H comps i) bs (Est.new (focus i g))).2 g := by
  have h0 : (Est.new g : Est (CompState α σ)) = eUnfocus i (Est.new (focus i g)) g := by
    simp [Est.new, eUnfocus, unfocus_focus]
  rw [h0]
  simp only [trainStage, Op.andThen, trainOnce, begin_lift]
  rcases Est.beginTraining (H comps i) (Est.new (focus i g)) with ⟨_ | u, e1⟩
  · exact ⟨rfl, rfl⟩
  cases u
  simp only [offer_lift X n comps i bs hb]
  rcases offer (H comps i) bs e1 with ⟨_ | u, e2⟩
  · exact ⟨rfl, rfl⟩
  cases u
  simp only [data_lift]
  rcases Est.onDataCompleted (H comps i) e2 with ⟨_ | u, e3⟩
  · exact ⟨rfl, rfl⟩
  cases u
  simp only [complete_lift]
  rcases Est.completeTraining (H comps i) e3 with ⟨_ | u, e4⟩
  · exact ⟨rfl, rfl⟩
  cases u
  exact ⟨rfl, rfl⟩

/-- Sequential training of the remaining components and the final stage. -/
private theorem sequential_components (X : Xf T ι ι) (comps : (i : Nat) → Component (σ i) ι α)
    (mk : AnnotationMaps α → Except Err T) (bs : List (List ι)) (hb : NoEmptyBatch bs)
    (is : List Nat) (hn : is.Nodup) (n : Nat) (g : CompState α σ)
    (hg : ∀ i ∈ is, g.2 i = ⟨false, (comps i).cap, (comps i).init⟩)
    (hcol : ∀ i ∈ is, (comps i).config.col < g.1.length) :
    (sequential X bs (List.replicate n none)
        (is.map (componentStage comps) ++ [finalStage mk]) g).1
      = (match trainComponents comps bs is g.1 with
        | (.error e, _) => (Except.error e : Except Err T)
        | (.ok (), maps) => mk maps).map
          (fun t => List.replicate (n + is.length) none ++ [some t]) := by
  induction is generalizing n g with
  | nil =>
    simp only [List.map_nil, List.nil_append, sequential, trainStage, Op.andThen, finalStage,
      Est.beginTraining, Est.new, trainComponents, List.length_nil, Nat.add_zero]
    have ho : ∀ (h : Hooks (CompState α σ) ι T),
        offerVia X (List.replicate n none) h bs ⟨.finished, false, g⟩
          = (.ok (), ⟨.finished, false, g⟩) := by
      intro h; cases bs <;> simp [offerVia]
    simp only [ne_eq, not_true_eq_false, if_false, ho, Est.onDataCompleted, Est.completeTraining,
      stageTransformer, Est.createTransformer]
    simp only [reduceCtorEq, not_false_eq_true, not_true_eq_false, and_false, if_false, if_true,
      Bool.false_eq_true]
    rcases mk g.1 with e | t
    · rfl
    · rfl
  | cons i is ih =>
    rw [List.nodup_cons] at hn
    have hgi := hg i (by simp)
    have hci := hcol i (by simp)
    obtain ⟨l1, l2⟩ := trainStage_lift X n comps i bs hb g
    have hfocus : focus i g = ⟨g.1, false, (comps i).cap, (comps i).init⟩ := by
      simp [focus, hgi]
    have hte : trainEstimator (comps i).policy (comps i).config (comps i).cap (comps i).init bs g.1
        = ((trainOnce (H comps i) bs (Est.new (focus i g))).1,
           (trainOnce (H comps i) bs (Est.new (focus i g))).2.inner.maps) := by
      simp only [trainEstimator, TrainingOnly.new]
      rw [if_neg (by omega), hfocus]
    simp only [List.map_cons, List.cons_append, sequential, trainComponents, hte]
    rcases hts : trainStage X (List.replicate n none) bs (componentStage comps i) (Est.new g)
      with ⟨r, e'⟩
    rw [hts] at l1 l2
    simp only at l1 l2
    subst l1 l2
    rcases hto : trainOnce (H comps i) bs (Est.new (focus i g)) with ⟨_ | u, e''⟩
    · rfl
    · cases u
      simp only [Except.map]
      have hrep : List.replicate n (none : Option T) ++ [none] = List.replicate (n + 1) none := by
        rw [List.replicate_succ']
      rw [hrep, ih hn.2 (n + 1) (eUnfocus i e'' g).inner]
      · have hl : n + 1 + is.length = n + (i :: is).length := by simp; omega
        rw [hl]; rfl
      · intro j hj
        have : j ≠ i := fun h => hn.1 (h ▸ hj)
        rw [show (eUnfocus i e'' g).inner = unfocus i e''.inner g from rfl, unfocus_other i j this]
        exact hg j (by simp [hj])
      · intro j hj
        have hlen : (trainOnce (H comps i) bs (Est.new (focus i g))).2.inner.maps.length
            = g.1.length := by
          have := trainOnce_maps_length (comps i).policy (comps i).config bs (Est.new (focus i g))
          rw [this]
          simp [Est.new, focus]
        rw [hto] at hlen
        show (comps j).config.col < e''.inner.maps.length
        rw [hlen]
        exact hcol j (by simp [hj])

private theorem onStage_fst {β : Type} (i : Nat) (op : Op (TrainingOnly (σ i) α) β)
    (g : CompState α σ) : ∃ t, (onStage i op g).1 = (op t).1 := ⟨_, rfl⟩

theorem component_onePass (comps : (i : Nat) → Component (σ i) ι α) (i : Nat) :
    OnePass (componentStage (T := T) comps i).hooks := by
  constructor
  · intro items g
    obtain ⟨t, ht⟩ := onStage_fst i
      ((trainingOnlyHooks (comps i).policy (comps i).config).fit items) g
    simp only [componentStage]
    rw [ht]
    simp only [trainingOnlyHooks]
    rcases (comps i).policy.fitAll (items.take (min t.remaining items.length)) t.policy with
      ⟨_ | u, _⟩
    · simp
    · cases u
      simp only
      split <;> simp
  · intro g
    obtain ⟨t, ht⟩ := onStage_fst i
      ((trainingOnlyHooks (comps i).policy (comps i).config).onDataCompleted) g
    simp only [componentStage]
    rw [ht]
    simp [trainingOnlyHooks]

/-- A featurizer made of training-only components and a final estimator, trained with the standard loop
through its public calls, ends as if each component were trained on its own on the same data, one after the
other, and the transformer then created from the annotations. -/
theorem featurizer_yields (X : Xf T ι ι)
    (comps : (i : Nat) → Component (σ i) ι α) (n : Nat) (mk : AnnotationMaps α → Except Err T)
    (batches : List (List ι)) (hne : batches ≠ []) (hb : NoEmptyBatch batches)
    (maps : AnnotationMaps α) (hcol : ∀ i, i < n → (comps i).config.col < maps.length) :
    FeaturizerYields X comps n mk batches maps (trainedFeaturizer comps n mk batches maps) := by
  obtain ⟨N, out, h1, h2⟩ := C13_sequential_partial X
    ((List.range n).map (componentStage comps) ++ [finalStage mk])
    (by
      intro s hs g t g' hc
      rw [List.dropLast_concat] at hs
      obtain ⟨i, _, rfl⟩ := List.mem_map.1 hs
      simp [componentStage] at hc)
    (by simp)
    (by
      intro s hs
      rcases List.mem_append.1 hs with h | h
      · obtain ⟨i, _, rfl⟩ := List.mem_map.1 h
        exact component_onePass comps i
      · rw [List.mem_singleton.1 h]
        exact ⟨by simp [finalStage], by simp [finalStage]⟩)
    batches hne hb (maps, fun i => ⟨false, (comps i).cap, (comps i).init⟩)
  refine ⟨N, fun fuel hf => ⟨out.2, ?_⟩⟩
  unfold newFeaturizer
  rw [h1 fuel hf]
  have h3 := sequential_components X comps mk batches hb (List.range n) List.nodup_range 0
    (maps, fun i => ⟨false, (comps i).cap, (comps i).init⟩) (fun _ _ => rfl)
    (fun i hi => hcol i (List.mem_range.1 hi))
  simp only [List.replicate_zero, List.length_range, Nat.zero_add] at h3
  rw [← h2] at h3
  simp only at h3
  have : out = (out.1, out.2) := rfl
  rw [this, h3]
  simp only [trainedFeaturizer]
  rcases trainComponents comps batches (List.range n) maps with ⟨_ | u, m⟩
  · rfl
  · cases u; rfl

/-- A featurizer with one component. -/
theorem featurizer_one {σ : Type} (X : Xf T ι ι) (c : Component σ ι α)
    (mk : AnnotationMaps α → Except Err T) (batches : List (List ι)) (hne : batches ≠ [])
    (hb : NoEmptyBatch batches) (maps : AnnotationMaps α) (hcol : c.config.col < maps.length)
    (r : Except Err Unit) (maps' : AnnotationMaps α)
    (ht : trainEstimator c.policy c.config c.cap c.init batches maps = (r, maps')) :
    FeaturizerYields X (fun _ => c) 1 mk batches maps (r.bind fun _ => mk maps') := by
  have h := featurizer_yields X (fun _ => c) 1 mk batches hne hb maps (fun _ _ => hcol)
  have h2 : trainedFeaturizer (fun _ => c) 1 mk batches maps = r.bind fun _ => mk maps' := by
    simp only [trainedFeaturizer, List.range_succ, List.range_zero, List.nil_append, trainComponents, ht]
    rcases r with _ | u
    · rfl
    · cases u; rfl
  rw [h2] at h
  exact h

/-- A featurizer with two components. -/
theorem featurizer_two {σ₀ σ₁ : Type} (X : Xf T ι ι) (c₀ : Component σ₀ ι α)
    (c₁ : Component σ₁ ι α)
    (mk : AnnotationMaps α → Except Err T) (batches : List (List ι)) (hne : batches ≠ [])
    (hb : NoEmptyBatch batches) (maps : AnnotationMaps α) (hcol : c₀.config.col < maps.length)
    (hcol' : c₁.config.col < maps.length)
    (r : Except Err Unit) (maps' : AnnotationMaps α)
    (ht : trainEstimator c₀.policy c₀.config c₀.cap c₀.init batches maps = (r, maps'))
    (r' : Except Err Unit) (maps'' : AnnotationMaps α)
    (ht' : r = .ok () →
      trainEstimator c₁.policy c₁.config c₁.cap c₁.init batches maps' = (r', maps'')) :
    FeaturizerYields X (twoComponents c₀ c₁) 2 mk batches maps
      (r.bind fun _ => r'.bind fun _ => mk maps'') := by
  have h := featurizer_yields X (twoComponents c₀ c₁) 2 mk batches hne hb maps (by
    intro i hi
    match i, hi with
    | 0, _ => exact hcol
    | 1, _ => exact hcol')
  have hr : List.range 2 = [0, 1] := rfl
  have h2 : trainedFeaturizer (twoComponents c₀ c₁) 2 mk batches maps
      = r.bind fun _ => r'.bind fun _ => mk maps'' := by
    simp only [trainedFeaturizer, hr, trainComponents, twoComponents, ht]
    rcases r with _ | u
    · rfl
    · cases u
      simp only [ht' rfl]
      rcases r' with _ | u
      · rfl
      · cases u; rfl
  rw [h2] at h
  exact h

/-- A featurizer with three components. -/
theorem featurizer_three {σ₀ σ₁ σ₂ : Type} (X : Xf T ι ι) (c₀ : Component σ₀ ι α)
    (c₁ : Component σ₁ ι α) (c₂ : Component σ₂ ι α)
    (mk : AnnotationMaps α → Except Err T) (batches : List (List ι)) (hne : batches ≠ [])
    (hb : NoEmptyBatch batches) (maps : AnnotationMaps α) (hcol₀ : c₀.config.col < maps.length)
    (hcol₁ : c₁.config.col < maps.length) (hcol₂ : c₂.config.col < maps.length)
    (maps₁ maps₂ maps₃ : AnnotationMaps α) (r : Except Err Unit)
    (ht₀ : trainEstimator c₀.policy c₀.config c₀.cap c₀.init batches maps = (.ok (), maps₁))
    (ht₁ : trainEstimator c₁.policy c₁.config c₁.cap c₁.init batches maps₁ = (.ok (), maps₂))
    (ht₂ : trainEstimator c₂.policy c₂.config c₂.cap c₂.init batches maps₂ = (r, maps₃)) :
    FeaturizerYields X (threeComponents c₀ c₁ c₂) 3 mk batches maps (r.bind fun _ => mk maps₃) := by
  have h := featurizer_yields X (threeComponents c₀ c₁ c₂) 3 mk batches hne hb maps (by
    intro i hi
    match i, hi with
    | 0, _ => exact hcol₀
    | 1, _ => exact hcol₁
    | 2, _ => exact hcol₂)
  have hr : List.range 3 = [0, 1, 2] := rfl
  have h2 : trainedFeaturizer (threeComponents c₀ c₁ c₂) 3 mk batches maps = r.bind fun _ => mk maps₃ := by
    simp only [trainedFeaturizer, hr, trainComponents, threeComponents, ht₀, ht₁, ht₂]
    rcases r with _ | u
    · rfl
    · cases u; rfl
  rw [h2] at h
  exact h

end Feat
