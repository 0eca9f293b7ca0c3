import Verif.Proofs.CountEstimator
import Verif.Props.Estimator
import Verif.Props.Vectorizer
/-
C84: the count vectorizer's estimator and the tf-idf estimator that it owns.
-/
namespace Feat
variable {σ ι τ τ' α T : Type}

/-! ### The two training states -/

private theorem wrap_step (h : Hooks σ ι τ) (w : τ → τ') (e : Est (Est σ)) (c : EstCall ι)
    (h1 : e.state = .pending ↔ e.inner.state = .pending) (h2 : e.state = .completed ↔ e.inner.state = .completed)
    (h3 : e.created = e.inner.created) :
    (let e' := (c.run (wrapHooks h w) e).2
     (e'.state = .pending ↔ e'.inner.state = .pending) ∧ (e'.state = .completed ↔ e'.inner.state = .completed) ∧
     e'.created = e'.inner.created) := by
  obtain ⟨so, co, si, ci, s⟩ := e
  simp only at h1 h2 h3
  subst h3
  cases c with
  | begin =>
    cases so <;> cases si <;> simp_all [EstCall.run, Est.beginTraining, wrapHooks]
    rcases h.begin s with ⟨_ | (_ | _), s'⟩ <;> simp
  | fit p =>
    cases so <;> cases si <;> simp_all [EstCall.run, Est.fit, wrapHooks] <;>
    (rcases p with _ | (_ | ⟨b, bs⟩) <;> simp)
    rcases h.fit (b :: bs) s with ⟨_ | (_ | _ | _), s'⟩ <;> simp
  | dataCompleted =>
    cases so <;> cases si <;> simp_all [EstCall.run, Est.onDataCompleted, wrapHooks]
  | complete =>
    cases so <;> cases si <;> simp_all [EstCall.run, Est.completeTraining, wrapHooks] <;>
    (rcases h.complete s with ⟨_ | _, s'⟩ <;> simp)
  | create =>
    cases so <;> cases si <;> cases co <;> simp_all [EstCall.run, Est.createTransformer, wrapHooks]
    rcases h.create s with ⟨_ | (_ | _), s'⟩ <;> simp

/-- **C84 (states)** Whatever calls were made, also failing ones: the inner estimator waits for its training exactly when the
outer one does, is complete exactly when the outer one is, and has created its transformer exactly when the outer one has. -/
theorem C84_states (h : Hooks σ ι τ) (w : τ → τ') (s : σ) (history : List (EstCall ι)) :
    let e := Est.after (wrapHooks h w) (Est.new (Est.new s)) history
    (e.state = .pending ↔ e.inner.state = .pending) ∧ (e.state = .completed ↔ e.inner.state = .completed) ∧
    e.created = e.inner.created := by
  have key : ∀ (cs : List (EstCall ι)) (e : Est (Est σ)), (e.state = .pending ↔ e.inner.state = .pending) →
      (e.state = .completed ↔ e.inner.state = .completed) → e.created = e.inner.created →
      let e' := Est.after (wrapHooks h w) e cs
      (e'.state = .pending ↔ e'.inner.state = .pending) ∧ (e'.state = .completed ↔ e'.inner.state = .completed) ∧
      e'.created = e'.inner.created := by
    intro cs
    induction cs with
    | nil => intro e h1 h2 h3; exact ⟨h1, h2, h3⟩
    | cons c cs ih =>
      intro e h1 h2 h3
      obtain ⟨a, b, d⟩ := wrap_step h w e c h1 h2 h3
      exact ih _ a b d
  exact key history _ (by simp [Est.new]) (by simp [Est.new]) rfl

/-! ### Training -/

private theorem maker_final {σ : Nat → Type} (mk : AnnotationMaps α → Except Err T) :
    Maker (finalStage (ι := ι) (σ := σ) mk) (fun g => mk g.1) where
  begin _ := rfl
  complete _ := rfl
  create g := by
    simp only [finalStage]
    cases mk g.1 <;> rfl
  xf := rfl

private theorem new_pair {σ : Type} (comp : Component σ ι α) (mk : AnnotationMaps α → Except Err T) (maps : AnnotationMaps α) :
    newFeaturizer (fun _ => comp) 1 mk maps
      = newPair (componentStage (T := T) (fun _ => comp) 0).hooks (finalStage mk) (maps, fun _ => ⟨false, comp.cap, comp.init⟩) :=
  rfl

/-- **C84 (training)** For any component that has not been trained before on these annotations and wants to be: training the
outer estimator with the standard loop ends as training the inner estimator (`featurizer_yields`), with the exception or the
transformer that the component's training on these batches determines. -/
theorem C84_training {σ : Type} (X : Xf T ι ι) (comp : Component σ ι α) (mk : AnnotationMaps α → Except Err T)
    (w : List (Option T) → τ') (batches : List (List ι)) (hne : batches ≠ []) (hb : NoEmptyBatch batches)
    (maps : AnnotationMaps α) (hcol : comp.config.col < maps.length) (hreq : comp.config.requiresTraining = true)
    (hnone : getAnnotation comp.config.kind maps comp.config.col comp.config.name = .ok none)
    (hbegin : ∃ s, comp.policy.begin (maps.getD comp.config.col []) comp.init = (.ok true, s)) :
    FeaturizerYields X (fun _ => comp) 1 mk batches maps (trainedFeaturizer (fun _ => comp) 1 mk batches maps) ∧
    ∃ N, ∀ fuel, N ≤ fuel → ∃ e,
      trainAndCreate (wrapHooks (Pipeline.hooks X) w) batches fuel (Est.new (newFeaturizer (fun _ => comp) 1 mk maps))
        = some ((trainedFeaturizer (fun _ => comp) 1 mk batches maps).map (fun t => w [none, some t]), e) := by
  refine ⟨featurizer_yields X (fun _ => comp) 1 mk batches hne hb maps (fun _ _ => hcol), batches.length + 1, ?_⟩
  intro fuel hfuel
  obtain ⟨s1, hs1⟩ := hbegin
  have hg : (componentStage (T := T) (fun _ => comp) 0).hooks.begin
      ((maps, fun _ => ⟨false, comp.cap, comp.init⟩) : CompState α fun _ => σ)
      = (.ok true, unfocus 0 ⟨maps, false, comp.cap, s1⟩ (maps, fun _ => ⟨false, comp.cap, comp.init⟩)) := by
    simp only [List.getD_eq_getElem?_getD] at hs1
    simp [componentStage, onStage, trainingOnlyHooks, hreq, hnone, hs1, unfocus]
  obtain ⟨e, he⟩ := wrap_trained (X := X) w (maker_final (ι := ι) (σ := fun _ => σ) mk)
    (fun b g => (component_onePass (T := T) (fun _ => comp) 0).1 b g) (fun g => by
      simp only [componentStage, onStage, trainingOnlyHooks]
      exact congrArg _ (unfocus_focus 0 g)) batches hne hb hg fuel hfuel
  rw [new_pair]
  refine ⟨e, ?_⟩
  rw [he]
  have ht := component_trainOnce (T := T) (fun _ => comp) 0 batches
    ((maps, fun _ => ⟨false, comp.cap, comp.init⟩) : CompState α fun _ => σ)
  rw [ht]
  congr 2
  have hnew : TrainingOnly.new maps comp.config comp.cap comp.init
      = .ok (Est.new ⟨maps, false, comp.cap, comp.init⟩) := by
    simp [TrainingOnly.new, Nat.not_le.2 hcol]
  simp only [trainedFeaturizer, List.range_succ, List.range_zero, List.nil_append, trainComponents, trainEstimator, hnew]
  have hf : focus 0 ((maps, fun _ => ⟨false, comp.cap, comp.init⟩) : CompState α fun _ => σ)
      = ⟨maps, false, comp.cap, comp.init⟩ := rfl
  rw [hf]
  rcases trainOnce (trainingOnlyHooks comp.policy comp.config) batches (Est.new ⟨maps, false, comp.cap, comp.init⟩) with ⟨_ | u, e'⟩
  · rfl
  · cases u
    rfl

/-! ### Annotations that are already there -/

/-- **C84 (statistics that are already there)** If the component finds its annotation, the inner estimator creates its
transformer without any data, but the outer estimator cannot be trained: the first batch offered to it is an exception,
whatever it is. -/
theorem C84_existing_refuted {σ : Type} (X : Xf T ι ι) (comp : Component σ ι α) (mk : AnnotationMaps α → Except Err T)
    (w : List (Option T) → τ') (batches : List (List ι)) (hne : batches ≠ []) (hb : NoEmptyBatch batches)
    (maps : AnnotationMaps α) (hcol : comp.config.col < maps.length) (hreq : comp.config.requiresTraining = true) (a : α)
    (hsome : getAnnotation comp.config.kind maps comp.config.col comp.config.name = .ok (some a)) :
    FeaturizerYields X (fun _ => comp) 1 mk batches maps (mk maps) ∧
    (∀ fuel, 1 ≤ fuel → ∃ e,
      trainAndCreate (wrapHooks (Pipeline.hooks X) w) batches fuel (Est.new (newFeaturizer (fun _ => comp) 1 mk maps))
        = some (.error .runtimeError, e)) ∧
    ∀ t, mk maps = .ok t →
      (EstCall.create.run (wrapHooks (Pipeline.hooks X) w) (Est.after (wrapHooks (Pipeline.hooks X) w)
        (Est.new (newFeaturizer (fun _ => comp) 1 mk maps)) [.begin, .complete])).1 = .ok (.transformer (w [none, some t])) := by
  have hg : (componentStage (T := T) (fun _ => comp) 0).hooks.begin
      ((maps, fun _ => ⟨false, comp.cap, comp.init⟩) : CompState α fun _ => σ)
      = (.ok false, unfocus 0 ⟨maps, true, comp.cap, comp.init⟩ (maps, fun _ => ⟨false, comp.cap, comp.init⟩)) := by
    simp [componentStage, onStage, trainingOnlyHooks, hreq, hsome, unfocus]
  generalize hg2 : unfocus 0 ⟨maps, true, comp.cap, comp.init⟩
    ((maps, fun _ => ⟨false, comp.cap, comp.init⟩) : CompState α fun _ => σ) = g2 at hg
  have hmaps : g2.1 = maps := by rw [← hg2]; rfl
  have hc : (componentStage (T := T) (fun _ => comp) 0).hooks.complete g2 = (.ok (), g2) := by
    have hfoc : focus 0 g2 = ⟨maps, true, comp.cap, comp.init⟩ := by rw [← hg2, focus_unfocus]
    have h1 : (componentStage (T := T) (fun _ => comp) 0).hooks.complete g2
        = (((trainingOnlyHooks comp.policy comp.config).complete (focus 0 g2)).1,
          unfocus 0 ((trainingOnlyHooks comp.policy comp.config).complete (focus 0 g2)).2 g2) := rfl
    have h2 : (trainingOnlyHooks comp.policy comp.config).complete (focus 0 g2) = (.ok (), focus 0 g2) := by
      rw [hfoc]
      simp [trainingOnlyHooks]
    rw [h1, h2, unfocus_focus]
  have hbeg : Est.beginTraining (wrapHooks (Pipeline.hooks X) w) (Est.new (newFeaturizer (fun _ => comp) 1 mk maps))
      = (.ok (), ⟨.training, false, endway (componentStage (T := T) (fun _ => comp) 0).hooks (finalStage mk) g2⟩) := by
    have hk : (wrapHooks (Pipeline.hooks X) w).begin (newFeaturizer (fun _ => comp) 1 mk maps)
        = (.ok true, endway (componentStage (T := T) (fun _ => comp) 0).hooks (finalStage mk) g2) := by
      rw [new_pair]
      simp only [wrapHooks, pair_begin_skip hg hc (maker_final (ι := ι) (σ := fun _ => σ) mk |>.begin g2)]
    simp [Est.beginTraining, Est.new, hk]
  refine ⟨?_, ?_, ?_⟩
  · have h := featurizer_yields X (fun _ => comp) 1 mk batches hne hb maps (fun _ _ => hcol)
    have ht : trainedFeaturizer (fun _ => comp) 1 mk batches maps = mk maps := by
      have hnew : TrainingOnly.new maps comp.config comp.cap comp.init
          = .ok (Est.new ⟨maps, false, comp.cap, comp.init⟩) := by
        simp [TrainingOnly.new, Nat.not_le.2 hcol]
      have ho : trainOnce (trainingOnlyHooks comp.policy comp.config) batches (Est.new ⟨maps, false, comp.cap, comp.init⟩)
          = (.ok (), ⟨.completed, false, ⟨maps, true, comp.cap, comp.init⟩⟩) := by
        obtain ⟨b, bs, rfl⟩ := List.exists_cons_of_ne_nil hne
        simp [trainOnce, Est.beginTraining, Est.new, trainingOnlyHooks, hreq, hsome, offer, Est.onDataCompleted,
          Est.completeTraining]
      simp only [trainedFeaturizer, List.range_succ, List.range_zero, List.nil_append, trainComponents, trainEstimator, hnew, ho]
    rw [ht] at h
    exact h
  · intro fuel hfuel
    obtain ⟨k, rfl⟩ : ∃ k, fuel = k + 1 := ⟨fuel - 1, by omega⟩
    obtain ⟨b, bs, rfl⟩ := List.exists_cons_of_ne_nil hne
    have hbb : b ≠ [] := hb b (by simp)
    have hfit : (wrapHooks (Pipeline.hooks X) w).fit b
        (endway (componentStage (T := T) (fun _ => comp) 0).hooks (finalStage mk) g2)
        = (.error .runtimeError, endway (componentStage (T := T) (fun _ => comp) 0).hooks (finalStage mk) g2) := by
      simp [wrapHooks, Est.fit, endway]
    simp [trainAndCreate, hbeg, trainLoop, Est.fit, hbb, hfit]
  · intro t ht
    have he := (end_complete (X := X) (c := (componentStage (T := T) (fun _ => comp) 0).hooks)
      (maker_final (ι := ι) (σ := fun _ => σ) mk) g2).2 t (by rw [hmaps]; exact ht)
    have hw := (wrap_complete (X := X) (c := (componentStage (T := T) (fun _ => comp) 0).hooks)
      (f := finalStage mk) w (s := .training) (Or.inl rfl)).2 _ _ he
    obtain ⟨e, hcr⟩ := wrap_create (X := X) (c := (componentStage (T := T) (fun _ => comp) 0).hooks)
      (f := finalStage mk) w t g2
    simp only [Est.after, EstCall.run, hbeg, hw, hcr]
    rfl

/-! ### The count vectorizer -/

/-- **C84** A count vectorizer's estimator, on a column without document statistics, trained with the standard loop on any
batches of documents that can be parsed: the loop ends, with an exception if no term is left for the vocabulary `ks`
(specified by `IsVocabulary`, C44), and otherwise with a transformer that counts the terms of every document. -/
theorem C84_count_vectorizer {F : Type} (X : Xf Tfidf Str Str) (it : IterOrder Str UInt32) (nth : NthElement)
    (fl : FloatOps F)
    (hfl : GoodRatio fl) (c : DocConfig F) (hc : c.check fl = .ok ()) (hk : ∀ k, c.topK = some k → k.toNat < 2 ^ 31)
    (hvoc : c.vocabulary = none) (binary lowercase : Bool) (hdec : c.decorator = lowerDecorator lowercase)
    (hregex : lowercase = true → ∀ f, c.text.regex = some f → ∀ s : Str, f ⟨toLower s.chars⟩ = f s)
    (col cap : Nat) (hcap : 0 < cap) (batches : List (List Str)) (hne : batches ≠ []) (hb : NoEmptyBatch batches)
    (maps : AnnotationMaps DocStats) (hcol : col < maps.length)
    (hnone : getAnnotation (fun _ => true) maps col "DocumentStatisticsEstimator" = .ok none)
    (hp : ∀ d ∈ batches.flatten.take cap, ∃ ts, c.text.tokens d = .ok ts)
    (hn : (batches.flatten.take cap).length < 2 ^ 32) :
    ∃ ks : List Str, ks.Pairwise (· < ·) ∧
      IsVocabulary (docFreq c (batches.flatten.take cap)) (WithinDf fl c (batches.flatten.take cap))
        (c.topK.map UInt32.toNat) ks ∧
      ∃ N, ∀ fuel, N ≤ fuel →
      (ks = [] → ∃ e, trainAndCreate (countHooks X) batches fuel (newCountEstimator it nth fl c binary lowercase col cap maps)
          = some (.error .invalidArgument, e)) ∧
      (ks ≠ [] → ks.length < 2 ^ 32 → ∃ x e,
        trainAndCreate (countHooks X) batches fuel (newCountEstimator it nth fl c binary lowercase col cap maps)
          = some (.ok (some x), e) ∧
        ∀ doc, (∃ ts, c.text.tokens doc = .ok ts) → (c.termsOf doc).length < 2 ^ 31 →
          ((∀ w ∈ c.termsOf doc, w ∉ ks) → x.execute doc = .error .invalidArgument) ∧
          ((∃ w ∈ c.termsOf doc, w ∈ ks) → ∃ v, x.execute doc = .ok v ∧ v.numElements.toNat = ks.length ∧
            (v.values.Pairwise fun a b => a.index.toNat < b.index.toNat) ∧
            ∀ n i, ⟨n, i⟩ ∈ v.values ↔ ∃ w ∈ c.termsOf doc, ks[i.toNat]? = some w ∧
              n.toNat = if binary then 1 else roundFloat ((c.termsOf doc).count w))) := by
  obtain ⟨ks, h1, h2, h3, h4⟩ := C45_trained it nth fl hfl c hc hk hvoc binary lowercase hdec hregex col cap hcap batches hb maps
    hcol hnone hp hn
  obtain ⟨_, N, hN⟩ := C84_training X (docStatsComponent it nth fl c col cap) (makeCountTfidf binary lowercase c.text col)
    wrapCount batches hne hb maps hcol rfl hnone ⟨_, rfl⟩
  refine ⟨ks, h1, h2, N, ?_⟩
  intro fuel hfuel
  obtain ⟨e, he⟩ := hN fuel hfuel
  have hyes : ∀ r maps', trainEstimator (docStatsPolicy it nth fl c) (docStatsConfig col) cap ⟨UMap.empty, 0⟩ batches maps = (r, maps') →
      trainedFeaturizer (fun _ => docStatsComponent it nth fl c col cap) 1 (makeCountTfidf binary lowercase c.text col) batches maps
        = r.bind fun _ => makeCountTfidf binary lowercase c.text col maps' := by
    intro r maps' h
    simp only [trainedFeaturizer, List.range_succ, List.range_zero, List.nil_append, trainComponents, docStatsComponent, h]
    rcases r with _ | u
    · rfl
    · cases u; rfl
  constructor
  · intro hks
    rw [hyes _ _ (h3 hks)] at he
    exact ⟨e, he⟩
  · intro hks hlen
    obtain ⟨maps', t, ht, hmk, hdoc⟩ := h4 hks hlen
    rw [hyes _ _ ht] at he
    simp only [Except.bind, hmk, Except.map] at he
    exact ⟨.trained t, e, he, hdoc⟩

/-- **C84 (a second vectorizer on the column)** On a column that already has document statistics, for example those of a tf-idf
vectorizer, training a count vectorizer's estimator with the standard loop is always an exception. -/
theorem C84_second_vectorizer_refuted {F : Type} (X : Xf Tfidf Str Str) (it : IterOrder Str UInt32)
    (nth : NthElement) (fl : FloatOps F) (c : DocConfig F) (binary lowercase : Bool) (col cap : Nat) (batches : List (List Str))
    (hne : batches ≠ []) (hb : NoEmptyBatch batches) (maps : AnnotationMaps DocStats) (hcol : col < maps.length) (a : DocStats)
    (hsome : getAnnotation (fun _ => true) maps col "DocumentStatisticsEstimator" = .ok (some a)) (fuel : Nat) (hfuel : 1 ≤ fuel) :
    ∃ e, trainAndCreate (countHooks X) batches fuel (newCountEstimator it nth fl c binary lowercase col cap maps)
      = some (.error .runtimeError, e) :=
  (C84_existing_refuted X (docStatsComponent it nth fl c col cap) (makeCountTfidf binary lowercase c.text col) wrapCount batches
    hne hb maps hcol rfl a hsome).2.1 fuel hfuel

/-- Such a column exists. -/
example : getAnnotation (fun _ => true) ([[("DocumentStatisticsEstimator", [(⟨⟨[], by decide⟩, 3⟩ : DocStats)])]] : AnnotationMaps DocStats)
    0 "DocumentStatisticsEstimator" = .ok (some ⟨⟨[], by decide⟩, 3⟩) := by
  simp [getAnnotation]

/-- **C84 (comparing)** `==` answers for two loaded count vectorizers and throws as soon as one of the two comes from
training. -/
theorem C84_compare (eq : Tfidf → Tfidf → Bool) (a b : CountXf) :
    (∃ r, a.equal eq b = .ok r) ↔ (∃ t, a = .loaded t) ∧ ∃ t, b = .loaded t := by
  cases a <;> cases b <;> simp [CountXf.equal]

end Feat
