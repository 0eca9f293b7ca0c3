import Verif.Model.CountEstimator
import Verif.Proofs.ComponentPipeline
/-
An estimator around a pipeline of one component and a final stage: what training it does, step by step.
-/
namespace Feat
variable {G V T τ' : Type}

/-- The pipeline of a component with hooks `c` in the state `s0` and a final stage `f`, training. -/
def midway (c : Hooks G V T) (f : Stage G V T) (g : G) : Est (List (Elem G V T) × G) :=
  ⟨.training, false, ([{ hooks := c, isTransformer := false, state := .training }, Elem.new f], g)⟩

/-- The same, after the component is complete and the final stage has nothing to train. -/
def endway (c : Hooks G V T) (f : Stage G V T) (g : G) : Est (List (Elem G V T) × G) :=
  ⟨.finished, false, ([{ hooks := c, isTransformer := false, state := .completed },
    { toStage := f, state := .finished }], g)⟩

/-- The new pipeline. -/
def newPair (c : Hooks G V T) (f : Stage G V T) (g : G) : Est (List (Elem G V T) × G) :=
  Est.new (([⟨c, false⟩, f] : List (Stage G V T)).map Elem.new, g)

variable {X : Xf T V V} {c : Hooks G V T} {f : Stage G V T}

theorem pair_begin_train {g g1 : G} (hb : c.begin g = (.ok true, g1)) :
    Est.beginTraining (Pipeline.hooks X) (newPair c f g) = (.ok (), midway c f g1) := by
  simp [newPair, midway, Est.new, Est.beginTraining, Pipeline.hooks, Pipeline.begin, Elem.call, Elem.new, hb,
    Pipeline.hasAllFinished]
  rfl

theorem chained {s : TrainingState} (hs : s = .training ∨ s = .finished) {g : G} :
    (∀ g1 x, c.complete g = (.error x, g1) →
      ∃ es, Pipeline.completeChained { hooks := c, isTransformer := false, state := s } [Elem.new f] g (Pipeline.begin [Elem.new f])
        = (.error x, es, g1)) ∧
    (∀ g1, c.complete g = (.ok (), g1) → f.hooks.begin g1 = (.ok false, g1) →
      Pipeline.completeChained { hooks := c, isTransformer := false, state := s } [Elem.new f] g (Pipeline.begin [Elem.new f])
        = (.ok (), [{ hooks := c, isTransformer := false, state := .completed }, { toStage := f, state := .finished }], g1)) := by
  constructor
  · intro g1 x h
    rcases hs with rfl | rfl <;>
      simp [Pipeline.completeChained, Elem.call, Est.completeTraining, h]
  · intro g1 h hf
    rcases hs with rfl | rfl <;>
      simp [Pipeline.completeChained, Elem.call, Est.completeTraining, h, Elem.createIfNecessary, Pipeline.begin, Est.beginTraining,
        Elem.new, hf]

theorem pair_begin_skip {g g1 g2 : G} (hb : c.begin g = (.ok false, g1)) (hc : c.complete g1 = (.ok (), g2))
    (hf : f.hooks.begin g2 = (.ok false, g2)) :
    Est.beginTraining (Pipeline.hooks X) (newPair c f g) = (.ok (), endway c f g2) := by
  simp [newPair, endway, Est.new, Est.beginTraining, Pipeline.hooks, Pipeline.begin, Elem.call, Elem.new, hb,
    Pipeline.completeChained, Est.completeTraining, hc, Elem.createIfNecessary, hf, Pipeline.hasAllFinished]

/-- One batch. -/
theorem pair_fit {g : G} {b : List V} (hb : b ≠ [])
    (hf : ∀ g, f.hooks.begin g = (.ok false, g)) :
    (∀ x g1, c.fit b g = (.error x, g1) → ∃ e, Est.fit (Pipeline.hooks X) (some b) (midway c f g) = (.error x, e)) ∧
    (∀ g1, c.fit b g = (.ok .continue, g1) →
      Est.fit (Pipeline.hooks X) (some b) (midway c f g) = (.ok .continue, midway c f g1)) ∧
    (∀ g1, c.fit b g = (.ok .complete, g1) →
      (∀ x g2, c.complete g1 = (.error x, g2) →
        ∃ e, Est.fit (Pipeline.hooks X) (some b) (midway c f g) = (.error x, e)) ∧
      (∀ g2, c.complete g1 = (.ok (), g2) →
        Est.fit (Pipeline.hooks X) (some b) (midway c f g) = (.ok .complete, endway c f g2))) := by
  have hl : b.length ≠ 0 := fun h => hb (List.length_eq_zero_iff.1 h)
  refine ⟨?_, ?_, ?_⟩
  · intro x g1 h
    simp [midway, Est.fit, Pipeline.hooks, Pipeline.fit, Elem.call, h, hb]
  · intro g1 h
    simp [midway, Est.fit, Pipeline.hooks, Pipeline.fit, Elem.call, h, hb]
  · intro g1 h
    constructor
    · intro x g2 h2
      obtain ⟨es, he⟩ := (chained (c := c) (f := f) (s := .finished) (Or.inr rfl) (g := g1)).1 g2 x h2
      simp only [Elem.new] at he
      simp [midway, Est.fit, Pipeline.hooks, Pipeline.fit, Elem.call, h, hb, Elem.new, he]
    · intro g2 h2
      have he := (chained (c := c) (f := f) (s := .finished) (Or.inr rfl) (g := g1)).2 g2 h2 (hf g2)
      simp only [Elem.new] at he
      simp [midway, endway, Est.fit, Pipeline.hooks, Pipeline.fit, Elem.call, h, hb, Elem.new, he, Pipeline.hasAllFinished]

/-- The standard training loop over the remaining batches. -/
theorem wrap_loop (w : List (Option T) → τ') (all : List (List V)) (hreset : ∀ b g, (c.fit b g).1 ≠ .ok .reset)
    (hf : ∀ g, f.hooks.begin g = (.ok false, g)) (bs : List (List V)) (hne : bs ≠ []) (hb : NoEmptyBatch bs) (g : G)
    (fuel : Nat) (hfuel : bs.length + 1 ≤ fuel) :
    (∀ x e', offer c bs ⟨.training, false, g⟩ = (.error x, e') → ∃ e,
      trainLoop (wrapHooks (Pipeline.hooks X) w) all fuel bs ⟨.training, false, midway c f g⟩ = some (.error x, e)) ∧
    (∀ e', offer c bs ⟨.training, false, g⟩ = (.ok (), e') →
      (e'.state = .training ∧ e'.created = false ∧
        trainLoop (wrapHooks (Pipeline.hooks X) w) all fuel bs ⟨.training, false, midway c f g⟩
          = some (.ok (), ⟨.finished, false, midway c f e'.inner⟩)) ∨
      (e'.state = .finished ∧ e'.created = false ∧
        (∀ x g2, c.complete e'.inner = (.error x, g2) → ∃ e,
          trainLoop (wrapHooks (Pipeline.hooks X) w) all fuel bs ⟨.training, false, midway c f g⟩ = some (.error x, e)) ∧
        (∀ g2, c.complete e'.inner = (.ok (), g2) →
          trainLoop (wrapHooks (Pipeline.hooks X) w) all fuel bs ⟨.training, false, midway c f g⟩
            = some (.ok (), ⟨.finished, false, endway c f g2⟩)))) := by
  induction bs generalizing g fuel with
  | nil => exact absurd rfl hne
  | cons b bs ih =>
    obtain ⟨k, rfl⟩ : ∃ k, fuel = k + 1 := ⟨fuel - 1, by simp at hfuel; omega⟩
    have hbb : b ≠ [] := hb b (by simp)
    have hl : b.length ≠ 0 := fun h => hbb (List.length_eq_zero_iff.1 h)
    obtain ⟨p1, p2, p3⟩ := pair_fit (X := X) (c := c) (f := f) (g := g) hbb hf
    have hwf : ∀ r e, Est.fit (Pipeline.hooks X) (some b) (midway c f g) = (r, e) →
        Est.fit (wrapHooks (Pipeline.hooks X) w) (some b) ⟨.training, false, midway c f g⟩
          = (match r with
            | .error x => (.error x, ⟨.training, false, e⟩)
            | .ok .complete => (.ok .complete, ⟨.finished, false, e⟩)
            | .ok r => (.ok r, ⟨.training, false, e⟩)) := by
      intro r e h
      have hk : (wrapHooks (Pipeline.hooks X) w).fit b (midway c f g) = (r, e) := h
      rcases r with x | (_ | _ | _) <;> simp [Est.fit, hk, hbb]
    generalize hr : c.fit b g = rg at *
    obtain ⟨r, g1⟩ := rg
    have hnr := hreset b g
    rw [hr] at hnr
    have hoff : offer c (b :: bs) ⟨.training, false, g⟩ = (match r with
        | .error x => (.error x, ⟨.training, false, g1⟩)
        | .ok .complete => offer c bs ⟨.finished, false, g1⟩
        | .ok _ => offer c bs ⟨.training, false, g1⟩) := by
      rcases r with x | (_ | _ | _) <;> simp [offer, Est.fit, hr, hbb]
    have hfin : offer c bs ⟨.finished, false, g1⟩ = (.ok (), ⟨.finished, false, g1⟩) := by
      cases bs <;> simp [offer]
    have hstop : ∀ (k : Nat) (bs : List (List V)) (I : Est (List (Elem G V T) × G)), 0 < k → trainLoop (wrapHooks (Pipeline.hooks X) w) all k bs ⟨.finished, false, I⟩
        = some (.ok (), ⟨.finished, false, I⟩) := by
      intro k bs I hk
      obtain ⟨j, rfl⟩ : ∃ j, k = j + 1 := ⟨k - 1, by omega⟩
      simp [trainLoop]
    have hdone : ∀ I : Est (List (Elem G V T) × G), Est.onDataCompleted (wrapHooks (Pipeline.hooks X) w) ⟨.finished, false, I⟩
        = (.ok (), ⟨.finished, false, I⟩) := by intro I; simp [Est.onDataCompleted]
    have hdone' : ∀ I : Est (List (Elem G V T) × G), Est.onDataCompleted (wrapHooks (Pipeline.hooks X) w) ⟨.training, false, I⟩
        = (.ok (), ⟨.finished, false, I⟩) := by intro I; simp [Est.onDataCompleted, wrapHooks]
    have hk : 0 < k := by simp at hfuel; omega
    rw [hoff]
    rcases r with x | (_ | _ | _)
    · obtain ⟨e, he⟩ := p1 x g1 rfl
      have hw := hwf _ _ he
      refine ⟨?_, by simp⟩
      intro y e' hy
      simp only [Prod.mk.injEq, Except.error.injEq] at hy
      obtain ⟨rfl, _⟩ := hy
      exact ⟨_, by simp only [trainLoop, hw]; rfl⟩
    · obtain ⟨q1, q2⟩ := p3 g1 rfl
      simp only [hfin]
      refine ⟨by simp, ?_⟩
      intro e' he'
      simp only [Prod.mk.injEq, true_and] at he'
      subst he'
      refine Or.inr ⟨rfl, rfl, ?_, ?_⟩
      · intro x g2 h2
        obtain ⟨e, he⟩ := q1 x g2 h2
        have hw := hwf _ _ he
        exact ⟨_, by simp only [trainLoop, hw]; rfl⟩
      · intro g2 h2
        have hw := hwf _ _ (q2 g2 h2)
        simp only [trainLoop, hw]
        simp only [ne_eq, not_true_eq_false, if_false, hdone]
        split <;> exact hstop _ _ _ hk
    · have hw := hwf _ _ (p2 g1 rfl)
      by_cases hbs : bs = []
      · subst hbs
        simp only [offer]
        refine ⟨by simp, ?_⟩
        intro e' he'
        simp only [Prod.mk.injEq, true_and] at he'
        subst he'
        refine Or.inl ⟨rfl, rfl, ?_⟩
        simp only [trainLoop, hw]
        simp only [ne_eq, not_true_eq_false, if_false, hdone', List.isEmpty_nil, if_true]
        exact hstop _ _ _ hk
      · have hih := ih hbs (fun b' h => hb b' (by simp [h])) g1 k (by simp at hfuel; omega)
        have hs : trainLoop (wrapHooks (Pipeline.hooks X) w) all (k + 1) (b :: bs) ⟨.training, false, midway c f g⟩
            = trainLoop (wrapHooks (Pipeline.hooks X) w) all k bs ⟨.training, false, midway c f g1⟩ := by
          simp only [trainLoop, hw]
          simp [hbs]
        rw [hs]
        exact hih
    · exact absurd rfl hnr

/-- A final stage that trains nothing and creates its transformer by `m`. -/
structure Maker (f : Stage G V T) (m : G → Except Err T) : Prop where
  begin : ∀ g, f.hooks.begin g = (.ok false, g)
  complete : ∀ g, f.hooks.complete g = (.ok (), g)
  create : ∀ g, f.hooks.create g = ((m g).map some, g)
  xf : f.isTransformer = true

/-- The pipeline after `complete_training`. -/
def pairDone (c : Hooks G V T) (f : Stage G V T) (t : T) (g : G) : Est (List (Elem G V T) × G) :=
  ⟨.completed, false, ([{ hooks := c, isTransformer := false, state := .completed },
    { toStage := f, state := .completed, created := true, xf := some t }], g)⟩

theorem end_complete {m : G → Except Err T} (hm : Maker f m) (g : G) :
    (∀ x, m g = .error x → ∃ e, Est.completeTraining (Pipeline.hooks X) (endway c f g) = (.error x, e)) ∧
    (∀ t, m g = .ok t → Est.completeTraining (Pipeline.hooks X) (endway c f g) = (.ok (), pairDone c f t g)) := by
  have h1 := hm.complete
  have h2 := hm.create
  have h3 := hm.xf
  constructor
  · intro x hx
    simp [endway, Est.completeTraining, Pipeline.hooks, Pipeline.complete, Pipeline.completeN, Elem.call, h1,
      Elem.createIfNecessary, h3, Est.createTransformer, h2, hx, Except.map]
  · intro t hx
    simp [endway, pairDone, Est.completeTraining, Pipeline.hooks, Pipeline.complete, Pipeline.completeN, Elem.call, h1,
      Elem.createIfNecessary, h3, Est.createTransformer, h2, hx, Except.map]

theorem mid_complete {m : G → Except Err T} (hm : Maker f m) (g : G) :
    (∀ x g2, c.complete g = (.error x, g2) → ∃ e, Est.completeTraining (Pipeline.hooks X) (midway c f g) = (.error x, e)) ∧
    (∀ g2, c.complete g = (.ok (), g2) →
      (∀ x, m g2 = .error x → ∃ e, Est.completeTraining (Pipeline.hooks X) (midway c f g) = (.error x, e)) ∧
      (∀ t, m g2 = .ok t → Est.completeTraining (Pipeline.hooks X) (midway c f g) = (.ok (), pairDone c f t g2))) := by
  have h0 := hm.begin
  have h1 := hm.complete
  have h2 := hm.create
  have h3 := hm.xf
  refine ⟨?_, ?_⟩
  · intro x g2 h
    simp [midway, Est.completeTraining, Pipeline.hooks, Pipeline.complete, Pipeline.completeN, Pipeline.completeChained,
      Elem.call, h]
  · intro g2 h
    constructor
    · intro x hx
      simp [midway, Est.completeTraining, Pipeline.hooks, Pipeline.complete, Pipeline.completeN, Pipeline.completeChained,
        Elem.call, h, Elem.new, Pipeline.begin, Est.beginTraining, h0, h1,
        Elem.createIfNecessary, h3, Est.createTransformer, h2, hx, Except.map]
    · intro t hx
      simp [midway, pairDone, Est.completeTraining, Pipeline.hooks, Pipeline.complete, Pipeline.completeN, Pipeline.completeChained,
        Elem.call, h, Elem.new, Pipeline.begin, Est.beginTraining, h0, h1,
        Elem.createIfNecessary, h3, Est.createTransformer, h2, hx, Except.map]

theorem wrap_complete (w : List (Option T) → τ') {s : TrainingState} (hs : s = .training ∨ s = .finished)
    {I : Est (List (Elem G V T) × G)} :
    (∀ x e, Est.completeTraining (Pipeline.hooks X) I = (.error x, e) →
      Est.completeTraining (wrapHooks (Pipeline.hooks X) w) ⟨s, false, I⟩ = (.error x, ⟨s, false, e⟩)) ∧
    (∀ t g, Est.completeTraining (Pipeline.hooks X) I = (.ok (), pairDone c f t g) →
      Est.completeTraining (wrapHooks (Pipeline.hooks X) w) ⟨s, false, I⟩ = (.ok (), ⟨.completed, false, pairDone c f t g⟩)) := by
  constructor
  · intro x e h
    have hk : (wrapHooks (Pipeline.hooks X) w).complete I = (.error x, e) := h
    rcases hs with rfl | rfl <;> simp [Est.completeTraining, hk]
  · intro t g h
    have hk : (wrapHooks (Pipeline.hooks X) w).complete I = (.ok (), pairDone c f t g) := h
    rcases hs with rfl | rfl <;> simp [Est.completeTraining, hk]

theorem wrap_create (w : List (Option T) → τ') (t : T) (g : G) :
    ∃ e, Est.createTransformer (wrapHooks (Pipeline.hooks X) w) ⟨.completed, false, pairDone c f t g⟩
      = (.ok (w [none, some t]), e) := by
  simp [Est.createTransformer, wrapHooks, pairDone, Pipeline.hooks]

/-- Training the estimator around the pipeline, when the component wants to be trained. -/
theorem wrap_trained (w : List (Option T) → τ') {m : G → Except Err T} (hm : Maker f m)
    (hreset : ∀ b g, (c.fit b g).1 ≠ .ok .reset) (hdc : ∀ g, c.onDataCompleted g = (.ok true, g))
    (batches : List (List V)) (hne : batches ≠ []) (hb : NoEmptyBatch batches) {g g1 : G} (hg : c.begin g = (.ok true, g1))
    (fuel : Nat) (hfuel : batches.length + 1 ≤ fuel) :
    ∃ e, trainAndCreate (wrapHooks (Pipeline.hooks X) w) batches fuel (Est.new (newPair c f g))
      = some ((match trainOnce c batches (Est.new g) with
          | (.error x, _) => (.error x : Except Err T)
          | (.ok (), e') => m e'.inner).map (fun t => w [none, some t]), e) := by
  have hbeg : Est.beginTraining (wrapHooks (Pipeline.hooks X) w) (Est.new (newPair c f g))
      = (.ok (), ⟨.training, false, midway c f g1⟩) := by
    have hk : (wrapHooks (Pipeline.hooks X) w).begin (newPair c f g) = (.ok true, midway c f g1) := by
      simp only [wrapHooks, pair_begin_train hg]
    simp [Est.beginTraining, Est.new, hk]
  have hbeg' : Est.beginTraining c (Est.new g) = (.ok (), ⟨.training, false, g1⟩) := by
    simp [Est.beginTraining, Est.new, hg]
  have hemp : batches.isEmpty = false := by simp [hne]
  obtain ⟨l1, l2⟩ := wrap_loop (X := X) (f := f) w batches hreset hm.begin batches hne hb g1 fuel hfuel
  simp only [trainAndCreate, hbeg, hemp, Bool.false_eq_true, if_false, trainOnce, hbeg']
  generalize hoff : offer c batches ⟨.training, false, g1⟩ = o at l1 l2 ⊢
  obtain ⟨_ | u, e'⟩ := o
  · obtain ⟨e, he⟩ := l1 _ _ rfl
    rw [he]
    exact ⟨_, rfl⟩
  · obtain ⟨st, cr, g2⟩ := e'
    have hdone : Est.onDataCompleted c ⟨.training, false, g2⟩ = (.ok (), ⟨.finished, false, g2⟩) := by
      simp [Est.onDataCompleted, hdc]
    have hdone' : Est.onDataCompleted c ⟨.finished, false, g2⟩ = (.ok (), ⟨.finished, false, g2⟩) := by
      simp [Est.onDataCompleted]
    have hcomp : Est.completeTraining c ⟨.finished, false, g2⟩ = (match c.complete g2 with
        | (.error x, s) => (.error x, ⟨.finished, false, s⟩)
        | (.ok (), s) => (.ok (), ⟨.completed, false, s⟩)) := by
      simp only [Est.completeTraining]
      rcases c.complete g2 with ⟨_ | _, _⟩ <;> simp
    rcases l2 _ rfl with ⟨rfl, rfl, hl⟩ | ⟨rfl, rfl, hl1, hl2⟩
    · simp only [hdone, hcomp, hl]
      obtain ⟨q1, q2⟩ := mid_complete (X := X) (c := c) hm g2
      generalize hcg : c.complete g2 = cg at q1 q2 ⊢
      obtain ⟨x | u, g3⟩ := cg
      · obtain ⟨e, he⟩ := q1 _ _ rfl
        rw [(wrap_complete (c := c) (f := f) w (Or.inr rfl)).1 _ _ he]
        exact ⟨_, rfl⟩
      · obtain ⟨r1, r2⟩ := q2 _ rfl
        generalize hmg : m g3 = mg at r1 r2 ⊢
        obtain x | t := mg
        · obtain ⟨e, he⟩ := r1 _ rfl
          rw [(wrap_complete (c := c) (f := f) w (Or.inr rfl)).1 _ _ he]
          simp [hmg, Except.map]
        · have he := r2 _ rfl
          rw [(wrap_complete (c := c) (f := f) w (Or.inr rfl)).2 _ _ he]
          obtain ⟨e, h⟩ := wrap_create (X := X) (c := c) (f := f) w t g3
          exact ⟨e, by simp [h, hmg, Except.map]⟩
    · simp only [hdone', hcomp]
      generalize hcg : c.complete g2 = cg at hl1 hl2 ⊢
      obtain ⟨x | u, g3⟩ := cg
      · obtain ⟨e, he⟩ := hl1 _ _ rfl
        rw [he]
        exact ⟨_, rfl⟩
      · have hl := hl2 _ rfl
        obtain ⟨r1, r2⟩ := end_complete (X := X) (c := c) hm g3
        simp only [hl]
        generalize hmg : m g3 = mg at r1 r2 ⊢
        obtain x | t := mg
        · obtain ⟨e, he⟩ := r1 _ rfl
          rw [(wrap_complete (c := c) (f := f) w (Or.inr rfl)).1 _ _ he]
          simp [hmg, Except.map]
        · have he := r2 _ rfl
          rw [(wrap_complete (c := c) (f := f) w (Or.inr rfl)).2 _ _ he]
          obtain ⟨e, h⟩ := wrap_create (X := X) (c := c) (f := f) w t g3
          exact ⟨e, by simp [h, hmg, Except.map]⟩

end Feat
