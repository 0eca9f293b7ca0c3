import Verif.Model.GlobalFrequency
import Verif.Props.GrainTraining
import Verif.Props.Ranges
/-
C98: the global minimum frequency of grained time series.
-/
namespace Feat
variable {K σ ι α : Type}

/-! ### Training-only estimators as the estimators of grains -/

private theorem fitRows_trainingOnly (p : Policy σ ι α) (c : TrainingOnlyConfig α) (rows : List ι) :
    ∀ (maps : AnnotationMaps α) (r : Nat) (s : σ), 0 < r →
    (∀ x s', p.fitAll (rows.take r) s = (.error x, s') →
      (fitRows (trainingOnlyHooks p c) rows ⟨.training, false, ⟨maps, false, r, s⟩⟩).1 = .error x) ∧
    (∀ s', p.fitAll (rows.take r) s = (.ok (), s') →
      fitRows (trainingOnlyHooks p c) rows ⟨.training, false, ⟨maps, false, r, s⟩⟩
        = (.ok (), ⟨if r ≤ rows.length then .finished else .training, false, ⟨maps, false, r - rows.length, s'⟩⟩)) := by
  induction rows with
  | nil =>
    intro maps r s hr
    have h0 : ¬ r ≤ 0 := by omega
    simp only [List.take_nil, Policy.fitAll, fitRows, List.length_nil, h0, if_false, Nat.sub_zero]
    exact ⟨fun x s' h => (by cases h), fun s' h => (by cases h; rfl)⟩
  | cons y rows ih =>
    intro maps r s hr
    obtain ⟨r, rfl⟩ : ∃ q, r = q + 1 := ⟨r - 1, by omega⟩
    have hfit : Est.fit (trainingOnlyHooks p c) (some [y]) ⟨.training, false, ⟨maps, false, r + 1, s⟩⟩
        = match p.fit y s with
          | (.error x, s') => (.error x, ⟨.training, false, ⟨maps, false, r + 1, s'⟩⟩)
          | (.ok (), s') => (.ok (if r ≠ 0 then .continue else .complete),
              ⟨if r ≠ 0 then .training else .finished, false, ⟨maps, false, r, s'⟩⟩) := by
      have hm : min (r + 1) 1 = 1 := by omega
      simp only [Est.fit, trainingOnlyHooks, ne_eq, not_true_eq_false, if_false, List.length_singleton,
        one_ne_zero, hm, List.take_succ_cons, List.take_nil, Policy.fitAll, Nat.add_sub_cancel]
      rcases p.fit y s with ⟨_ | _, s'⟩
      · rfl
      · by_cases h0 : r = 0
        · simp [h0]
        · simp [h0]
    simp only [List.take_succ_cons, Policy.fitAll, fitRows, if_true, hfit]
    rcases hF : p.fit y s with ⟨x | u, s1⟩
    · exact ⟨fun z s' h => (by cases h; rfl), fun s' h => (by cases h)⟩
    · simp only
      by_cases h0 : r = 0
      · subst h0
        have hdone : ∀ e : Est (TrainingOnly σ α), e.state = .finished →
            fitRows (trainingOnlyHooks p c) rows e = (.ok (), e) := by
          intro e he
          cases rows with
          | nil => rfl
          | cons a l => simp [fitRows, he]
        simp only [List.take_zero, Policy.fitAll, ne_eq, not_true_eq_false, if_false]
        refine ⟨fun x s' h => (by cases h), fun s' h => ?_⟩
        cases h
        rw [hdone _ rfl]
        have : 0 + 1 ≤ (y :: rows).length := by simp
        rw [if_pos this]
        simp
      · simp only [ne_eq, h0, not_false_eq_true, if_true]
        obtain ⟨i1, i2⟩ := ih maps r s1 (by omega)
        refine ⟨i1, fun s' h => ?_⟩
        rw [i2 s' h]
        have : (r ≤ rows.length) ↔ r + 1 ≤ (y :: rows).length := by simp
        have e2 : r + 1 - (y :: rows).length = r - rows.length := by simp
        simp only [this, e2]

/-- A training-only estimator as the estimator of a grain: what it does with the rows of its grain. -/
theorem trainAlone_trainingOnly (p : Policy σ ι α) (hbegin : ∀ m s, p.begin m s = (.ok true, s))
    (c : TrainingOnlyConfig α) (hreq : c.requiresTraining = true) (cap : Nat) (hcap : 0 < cap) (s : σ)
    (maps : AnnotationMaps α) (hcol : c.col < maps.length)
    (hnone : getAnnotation c.kind maps c.col c.name = .ok none) (rows : List ι) (hne : rows ≠ []) :
    (∃ e a, trainAlone (trainingOnlyHooks p c) rows (Est.new ⟨maps, false, cap, s⟩) = (.ok (), e) ∧
      e.inner.maps = published c.col c.name maps (some a) ∧
      trainEstimator p c cap s [rows] maps = (.ok (), published c.col c.name maps (some a))) ∨
    (∃ x, (trainAlone (trainingOnlyHooks p c) rows (Est.new ⟨maps, false, cap, s⟩)).1 = .error x ∧
      trainEstimator p c cap s [rows] maps = (.error x, maps)) := by
  have ht := trainEstimator_run p hbegin c cap hcap s [rows] (by intro b hb; simp at hb; subst hb; exact hne) maps hcol
    hreq hnone
  simp only [List.flatten_cons, List.flatten_nil, List.append_nil] at ht
  have hbeg : Est.beginTraining (trainingOnlyHooks p c) (Est.new ⟨maps, false, cap, s⟩)
      = (.ok (), ⟨.training, false, ⟨maps, false, cap, s⟩⟩) := by
    simp only [Est.beginTraining, Est.new, trainingOnlyHooks, hreq, hnone, hbegin]
    simp
  obtain ⟨f1, f2⟩ := fitRows_trainingOnly p c rows maps cap s hcap
  rcases hF : p.fitAll (rows.take cap) s with ⟨x | u, s'⟩
  · refine .inr ⟨x, ?_, by rw [ht, hF]⟩
    have := f1 x s' hF
    unfold trainAlone
    rw [hbeg]
    simp only
    rcases hR : fitRows (trainingOnlyHooks p c) rows ⟨.training, false, ⟨maps, false, cap, s⟩⟩ with ⟨_ | _, e⟩
    · rw [hR] at this; simp only at this; rw [this]
    · rw [hR] at this; cases this
  · have h2 := f2 s' hF
    rw [hF] at ht
    simp only at ht
    unfold trainAlone
    rw [hbeg]
    simp only [h2]
    have hst : ∀ b : Prop, ∀ [Decidable b], ¬ ((if b then TrainingState.finished else .training) ≠ .training ∧
        (if b then TrainingState.finished else .training) ≠ .finished) := by
      intro b _; by_cases hb : b <;> simp [hb]
    rcases hC : p.complete maps s' with ⟨x | a, s2⟩
    · rw [hC] at ht
      refine .inr ⟨x, ?_, ht⟩
      unfold Est.completeTraining
      rw [if_neg (hst _)]
      simp [trainingOnlyHooks, hC]
    · rw [hC] at ht
      simp only at ht
      have hadd := (addAnnotation_ok maps a c.col c.name hcol).1
      refine .inl ⟨⟨.completed, false, ⟨published c.col c.name maps (some a), false, cap - rows.length, s2⟩⟩, a, ?_, rfl,
        ht.trans hadd⟩
      unfold Est.completeTraining
      rw [if_neg (hst _)]
      simp only [trainingOnlyHooks, hC, if_true]
      rw [hadd]
      rfl

private theorem keeps (p : Policy σ ι α) (c : TrainingOnlyConfig α) :
    KeepsAnnotations (trainingOnlyHooks p c) trainingOnlyLens where
  get_set _ _ := rfl
  set_get _ := rfl
  begin t := by
    simp only [trainingOnlyHooks, trainingOnlyLens]
    split
    · rfl
    · split
      · rfl
      · rfl
      · split <;> rfl
  fit xs t := by
    simp only [trainingOnlyHooks, trainingOnlyLens]
    split <;> rfl

/-! ### The two estimators -/

private theorem global_loop (l : List (K × FreqAnnot K)) (f : K → Int) (hl : ∀ e ∈ l, e.2 = .frequency (f e.1)) :
    ∀ m, ∃ r, globalLoop l m = .ok r ∧ (r = m ∨ ∃ e ∈ l, r = f e.1) ∧ r ≤ m ∧ ∀ e ∈ l, r ≤ f e.1 := by
  induction l with
  | nil => intro m; exact ⟨m, rfl, .inl rfl, le_refl _, by simp⟩
  | cons e l ih =>
    intro m
    obtain ⟨k, a⟩ := e
    have ha := hl (k, a) (by simp)
    simp only at ha
    subst ha
    obtain ⟨r, h1, h2, h3, h4⟩ := ih (fun e he => hl e (by simp [he])) (if f k < m then f k else m)
    refine ⟨r, by simpa only [globalLoop] using h1, ?_, ?_, ?_⟩
    · rcases h2 with h2 | ⟨e, he, h2⟩
      · by_cases hlt : f k < m
        · rw [if_pos hlt] at h2
          exact .inr ⟨_, List.mem_cons_self, h2⟩
        · rw [if_neg hlt] at h2
          exact .inl h2
      · exact .inr ⟨e, by simp [he], h2⟩
    · split at h3 <;> omega
    · intro e he
      rcases List.mem_cons.1 he with rfl | he
      · simp only
        split at h3 <;> omega
      · exact h4 e he

/-- **C98** (part: times spanning less than the longest duration, see `C25_long_gap`)  A grained frequency estimator and then a
global minimum frequency estimator are trained on the same batches of rows with a grain and a time, on a column where
none of the estimators involved has been used.  Let `times k` be the times of the rows of grain `k`, up to the limits.
If there are rows and the times of every grain with rows are at least two and strictly increasing, training succeeds and
the frequency published is the smallest difference of consecutive times of one grain, over all grains.  Otherwise
training throws `runtime_error`. -/
theorem C98_global_partial [LinearOrder K] (col cap cap₂ : Nat) (hcap : 0 < cap) (hcap₂ : 0 < cap₂)
    (batches : List (List (K × Int))) (hb : NoEmptyBatch batches) (maps : AnnotationMaps (FreqAnnot K))
    (hcol : col < maps.length)
    (hfresh : ∀ e ∈ maps.getD col [], e.1 ≠ "FrequencyEstimator" ∧ e.1 ≠ "GrainFrequencyEstimator" ∧
      e.1 ≠ "GlobalMinimumFrequencyEstimator")
    (hspan : ∀ a ∈ batches.flatten, ∀ b ∈ batches.flatten, b.2 - a.2 < durationMax) :
    let rows := batches.flatten.take cap
    let times := fun k => (ofGrain k rows).take cap₂
    ((rows ≠ [] ∧ ∀ k, times k ≠ [] → 2 ≤ (times k).length ∧ (times k).Pairwise (· < ·)) →
      ∃ f maps', trainGlobal col cap cap₂ batches maps = (.ok (), maps') ∧
        getAnnotation FreqAnnot.isGlobal maps' col "GlobalMinimumFrequencyEstimator" = .ok (some (.global f)) ∧
        (∃ k, f ∈ gaps (times k)) ∧ ∀ k, ∀ d ∈ gaps (times k), f ≤ d) ∧
    (¬ (rows ≠ [] ∧ ∀ k, times k ≠ [] → 2 ≤ (times k).length ∧ (times k).Pairwise (· < ·)) →
      (trainGlobal col cap cap₂ batches maps).1 = .error .runtimeError) := by
  intro rows times
  have hnone : ∀ (kind : FreqAnnot K → Bool) name, name ≠ "" → (∀ e ∈ maps.getD col [], e.1 ≠ name) →
      getAnnotation kind maps col name = .ok none := by
    intro kind name hn h
    unfold getAnnotation
    rw [if_neg (by omega), if_neg hn]
    have : (maps.getD col []).find? (fun e => e.1 == name) = none := by
      rw [List.find?_eq_none]
      intro e he
      simpa using h e he
    rw [this]
  have hn1 := hnone FreqAnnot.isFrequency "FrequencyEstimator" (by decide) (fun e he => (hfresh e he).1)
  have hn2 := hnone FreqAnnot.isGrains "GrainFrequencyEstimator" (by decide) (fun e he => (hfresh e he).2.1)
  have hn3 := hnone FreqAnnot.isGlobal "GlobalMinimumFrequencyEstimator" (by decide) (fun e he => (hfresh e he).2.2)
  have hmem : ∀ k t, t ∈ ofGrain k rows → (k, t) ∈ batches.flatten := by
    intro k t ht
    obtain ⟨x, hx, he⟩ := List.mem_filterMap.1 ht
    by_cases hk : x.1 = k
    · rw [if_pos hk] at he
      cases he
      subst hk
      exact List.mem_of_mem_take hx
    · rw [if_neg hk] at he
      cases he
  -- one grain trained alone
  have hfreq := fun (k : K) (hk : ofGrain k rows ≠ []) => C25_frequency_partial (FreqAnnot.frequency (K := K))
    FreqAnnot.isFrequency (fun _ => rfl) col cap₂ hcap₂ [ofGrain k rows]
    (by intro b hb; simp at hb; subst hb; exact hk) maps hcol hn1
    (by
      simp only [List.flatten_cons, List.flatten_nil, List.append_nil]
      intro a ha b hb
      exact hspan _ (hmem k a ha) _ (hmem k b hb))
  simp only [List.flatten_cons, List.flatten_nil, List.append_nil] at hfreq
  have halone := fun (k : K) (hk : ofGrain k rows ≠ []) => trainAlone_trainingOnly (frequencyPolicy (FreqAnnot.frequency (K := K)))
    (fun _ _ => rfl) (frequencyConfig col FreqAnnot.isFrequency) rfl cap₂ hcap₂ (durationMax, none) maps hcol hn1
    (ofGrain k rows) hk
  have htk : ∀ k, times k ≠ [] ↔ ofGrain k rows ≠ [] := by
    intro k
    show (ofGrain k rows).take cap₂ ≠ [] ↔ _
    rw [ne_eq, List.take_eq_nil_iff]
    constructor
    · intro h h0; exact h (.inr h0)
    · rintro h (h0 | h0)
      · omega
      · exact h h0
  have hglob : ∀ maps', col < maps'.length → trainEstimator (globalPolicy (K := K) col) (globalConfig col) cap () batches maps'
      = match (globalPolicy (K := K) col).complete maps' () with
      | (.error x, _) => (.error x, maps')
      | (.ok a, _) => addAnnotation (some a) col "GlobalMinimumFrequencyEstimator" maps' := by
    intro maps' h'
    rw [trainEstimator_noTraining (globalPolicy col) (globalConfig col) cap hcap () batches hb maps' h' rfl]
    rcases (globalPolicy (K := K) col).complete maps' () with ⟨_ | _, _⟩ <;> rfl
  by_cases hall : ∀ k, times k ≠ [] → 2 ≤ (times k).length ∧ (times k).Pairwise (· < ·)
  · -- every grain can be trained
    have hex : ∀ k, ∃ e f, ofGrain k rows ≠ [] →
        (trainAlone (frequencyHooks (K := K) col) (ofGrain k rows)
          (Est.new (trainingOnlyLens.set maps (grainedFrequency (K := K) cap₂).fresh)) = (.ok (), e) ∧
        trainingOnlyLens.get e.inner = published col "FrequencyEstimator" maps (some (.frequency f)) ∧
        IsLeast' (gaps (times k)) f) := by
      intro k
      by_cases hk : ofGrain k rows ≠ []
      · obtain ⟨f, maps', f1, f2, f3⟩ := (hfreq k hk).1 (hall k ((htk k).2 hk))
        rcases halone k hk with ⟨e, a, a1, a2, a3⟩ | ⟨x, a1, a2⟩
        · refine ⟨e, f, fun _ => ⟨a1, ?_, f3⟩⟩
          rw [a3] at f1
          cases f1
          have hg : getAnnotation FreqAnnot.isFrequency (published col "FrequencyEstimator" maps (some a)) col "FrequencyEstimator"
              = .ok (some (.frequency f)) := f2
          have hka : FreqAnnot.isFrequency a = true := by
            rw [published, (getAnnotation_add maps a col "FrequencyEstimator" FreqAnnot.isFrequency col "FrequencyEstimator" hcol
              hcol (by decide)).1] at hg
            have h4 := (C11_lookup maps FreqAnnot.isFrequency col "FrequencyEstimator").1 ⟨hcol, by decide⟩
            rw [hn1] at h4
            simp only [Except.ok.injEq] at h4 hg
            rw [List.find?_append, ← h4] at hg
            simp only [and_self, if_true, Option.none_or] at hg
            by_contra hna
            rw [List.find?_cons_of_neg hna] at hg
            cases hg
          have := getAnnotation_add_self maps a col "FrequencyEstimator" _ hka hn1
          rw [published, this] at hg
          cases hg
          exact a2
        · rw [a2] at f1
          cases f1
      · refine ⟨Est.new (grainedFrequency (K := K) cap₂).fresh, 0, fun h => absurd h hk⟩
    choose e f hef using hex
    obtain ⟨g, g1, _, found, g2, g3⟩ := C37_train (frequencyHooks (K := K) col) trainingOnlyLens (grainedFrequency cap₂)
      (keeps _ _) rfl none cap hcap maps col hcol (fun x hx => (hfresh x hx).1) batches hb e (fun k => some (.frequency (f k)))
      (fun k hk => ⟨(hef k hk).1, (hef k hk).2.1⟩)
    have hfind : ∀ x ∈ found.entries, ofGrain x.1 rows ≠ [] ∧ x.2 = .frequency (f x.1) := by
      intro x hx
      have h1 := OMap.find?_of_mem _ _ _ hx
      rw [g2] at h1
      split at h1
      · rename_i h2
        exact ⟨h2, (Option.some.inj h1).symm⟩
      · cases h1
    by_cases hrows : rows = []
    · -- no rows
      refine ⟨fun h => absurd hrows h.1, fun _ => ?_⟩
      have hempty : found.entries.length = 0 := by
        rw [List.length_eq_zero_iff, List.eq_nil_iff_forall_not_mem]
        intro x hx
        exact (hfind x hx).1 (by rw [hrows]; rfl)
      rw [hempty] at g3
      simp only [if_true, published] at g3
      unfold trainGlobal
      rw [g1]
      simp only [g3]
      rw [hglob maps hcol]
      simp only [globalPolicy, getAnnotationData, hn2]
    · refine ⟨fun _ => ?_, fun h => absurd ⟨hrows, hall⟩ h⟩
      obtain ⟨⟨k0, t0⟩, hk0⟩ := List.exists_mem_of_ne_nil _ hrows
      have hk0' : ofGrain k0 rows ≠ [] := by
        apply List.ne_nil_of_mem (a := t0)
        exact List.mem_filterMap.2 ⟨_, hk0, by simp⟩
      have hne : found.entries.length ≠ 0 := by
        intro h0
        have := g2 k0
        rw [if_pos hk0'] at this
        have := OMap.mem_of_find? _ _ _ this
        rw [List.length_eq_zero_iff.1 h0] at this
        cases this
      rw [if_neg hne] at g3
      have hg : g.maps = (addAnnotation (some (.grains found.entries)) col "GrainFrequencyEstimator" maps).2 := g3
      have hgl : g.maps.length = maps.length := by
        rw [hg]; exact (addAnnotation_ok maps _ col _ hcol).2
      have hget : getAnnotation FreqAnnot.isGrains g.maps col "GrainFrequencyEstimator"
          = .ok (some (.grains found.entries)) := by
        rw [hg]; exact getAnnotation_add_self maps _ col _ _ rfl hn2
      have hget3 : getAnnotation FreqAnnot.isGlobal g.maps col "GlobalMinimumFrequencyEstimator" = .ok none := by
        rw [hg, getAnnotation_add_other _ _ _ _ _ _ (by decide)]
        exact hn3
      obtain ⟨r, r1, r2, r3, r4⟩ := global_loop found.entries f (fun x hx => (hfind x hx).2) durationMax
      have hin : ∀ k, ofGrain k rows ≠ [] → (k, FreqAnnot.frequency (f k)) ∈ found.entries := by
        intro k hk
        have := g2 k
        rw [if_pos hk] at this
        exact OMap.mem_of_find? _ _ _ this
      refine ⟨r, (addAnnotation (some (.global r)) col "GlobalMinimumFrequencyEstimator" g.maps).2, ?_,
        getAnnotation_add_self g.maps _ col _ _ rfl hget3, ?_, ?_⟩
      · unfold trainGlobal
        rw [g1]
        simp only
        rw [hglob g.maps (by omega)]
        simp only [globalPolicy, getAnnotationData, hget, r1]
        exact (addAnnotation_ok g.maps _ col _ (by omega)).1
      · rcases r2 with r2 | ⟨x, hx, r2⟩
        · -- the longest duration is not the least difference
          exfalso
          have h1 := r4 _ (hin k0 hk0')
          simp only at h1
          have h2 := (hef k0 hk0').2.2.1
          have h3 : ∀ (l : List Int), (∀ a ∈ l, ∀ b ∈ l, b - a < durationMax) → ∀ d ∈ gaps l, d < durationMax := by
            intro l
            induction l with
            | nil => simp [gaps]
            | cons a l ih =>
              cases l with
              | nil => simp [gaps]
              | cons b l =>
                intro hs d hd
                simp only [gaps] at hd
                rcases List.mem_cons.1 hd with rfl | hd
                · exact hs a (by simp) b (by simp)
                · exact ih (fun a ha b hb => hs a (List.mem_cons_of_mem _ ha) b (List.mem_cons_of_mem _ hb)) d hd
          have := h3 (times k0) (fun a ha b hb => hspan _ (hmem k0 a (List.mem_of_mem_take ha)) _
            (hmem k0 b (List.mem_of_mem_take hb))) _ h2
          omega
        · rw [r2]
          exact ⟨x.1, (hef x.1 (hfind x hx).1).2.2.1⟩
      · intro k d hd
        by_cases hk : ofGrain k rows ≠ []
        · have h1 := r4 _ (hin k hk)
          have h2 := (hef k hk).2.2.2 d hd
          simp only at h1
          omega
        · have : times k = [] := by
            by_contra h
            exact hk ((htk k).1 h)
          rw [this] at hd
          simp [gaps] at hd
  · -- some grain cannot be trained
    refine ⟨fun h => absurd h.2 hall, fun _ => ?_⟩
    push Not at hall
    obtain ⟨k, hk, hbad⟩ := hall
    have hk' := (htk k).1 hk
    have hthrows : ∀ k, ofGrain k rows ≠ [] → ∀ x, (trainAlone (frequencyHooks (K := K) col) (ofGrain k rows)
          (Est.new (trainingOnlyLens.set maps (grainedFrequency (K := K) cap₂).fresh))).1 = .error x → x = .runtimeError := by
      intro k hk x hx
      rcases halone k hk with ⟨e, a, a1, _⟩ | ⟨y, a1, a2⟩
      · have a1' : trainAlone (frequencyHooks (K := K) col) (ofGrain k rows)
          (Est.new (trainingOnlyLens.set maps (grainedFrequency (K := K) cap₂).fresh)) = (.ok (), e) := a1
        rw [a1'] at hx
        cases hx
      · have a1' : (trainAlone (frequencyHooks (K := K) col) (ofGrain k rows)
          (Est.new (trainingOnlyLens.set maps (grainedFrequency (K := K) cap₂).fresh))).1 = .error y := a1
        rw [a1'] at hx
        cases hx
        by_cases hg : 2 ≤ ((ofGrain k rows).take cap₂).length ∧ ((ofGrain k rows).take cap₂).Pairwise (· < ·)
        · obtain ⟨f, maps', f1, _⟩ := (hfreq k hk).1 hg
          rw [a2] at f1
          cases f1
        · have := (hfreq k hk).2 hg
          rw [a2] at this
          cases this
          rfl
    obtain ⟨j, y, j1, j2, j3⟩ := C37_alone_throws (frequencyHooks (K := K) col) trainingOnlyLens (grainedFrequency cap₂)
      (keeps _ _) rfl none cap hcap maps col hcol (fun x hx => (hfresh x hx).1) batches hb
      (by
        intro k e hk he
        rcases halone k hk with ⟨e', a, a1, a2, _⟩ | ⟨y, a1, a2⟩
        · have := he.symm.trans a1
          cases this
          exact ⟨some a, a2⟩
        · have : (trainAlone (frequencyHooks (K := K) col) (ofGrain k rows)
            (Est.new (trainingOnlyLens.set maps (grainedFrequency (K := K) cap₂).fresh))).1 = .error y := a1
          rw [show trainAlone (frequencyHooks (K := K) col) (ofGrain k rows)
            (Est.new (trainingOnlyLens.set maps (grainedFrequency (K := K) cap₂).fresh)) = (.ok (), e) from he] at this
          cases this)
      k hk' .runtimeError
      (by
        have hb2 : ¬ (2 ≤ ((ofGrain k rows).take cap₂).length ∧ ((ofGrain k rows).take cap₂).Pairwise (· < ·)) :=
          fun h => hbad h.1 h.2
        have h1 := (hfreq k hk').2 hb2
        rcases halone k hk' with ⟨e', a, a1, a2, a3⟩ | ⟨y, a1, a2⟩
        · rw [a3] at h1
          cases h1
        · rw [a2] at h1
          cases h1
          exact a1)
    rw [hthrows j j1 y j2] at j3
    unfold trainGlobal
    rcases hT : trainOnce (grainHooks (frequencyHooks (K := K) col) trainingOnlyLens (grainedFrequency cap₂) none) batches
      (GrainEst.new maps cap) with ⟨_ | _, g⟩
    · rw [hT] at j3
      simp only at j3 ⊢
      rw [j3]
    · rw [hT] at j3
      cases j3

/-- **C98** Without the annotation of a grained frequency estimator, training the global one throws `runtime_error` and
leaves the annotations as they were. -/
theorem C98_missing (col cap : Nat) (hcap : 0 < cap) (batches : List (List (K × Int))) (hb : NoEmptyBatch batches)
    (maps : AnnotationMaps (FreqAnnot K)) (hcol : col < maps.length)
    (hnone : getAnnotation FreqAnnot.isGrains maps col "GrainFrequencyEstimator" = .ok none) :
    trainEstimator (globalPolicy col) (globalConfig col) cap () batches maps = (.error .runtimeError, maps) := by
  rw [trainEstimator_noTraining _ (globalConfig col) cap hcap () batches hb maps hcol rfl]
  simp only [globalPolicy, getAnnotationData, hnone]

/-! Non-vacuity: grain 7 at times 1, 5, 7 and grain 2 at 100, 103: the global minimum is 2.  A grain with one row throws. -/
example : ∃ f maps', trainGlobal (K := Nat) 0 99 99 [[(7, 1), (2, 100)], [(7, 5), (7, 7)], [(2, 103)]] [[]] = (.ok (), maps') ∧
    getAnnotation FreqAnnot.isGlobal maps' 0 "GlobalMinimumFrequencyEstimator" = .ok (some (.global f)) ∧ f = 2 := by
  obtain ⟨f, maps', h1, h2, ⟨k, h3⟩, h4⟩ := (C98_global_partial (K := Nat) 0 99 99 (by decide) (by decide)
    [[(7, 1), (2, 100)], [(7, 5), (7, 7)], [(2, 103)]] (by intro b hb; simp at hb; rcases hb with rfl | rfl | rfl <;> simp)
    [[]] (by decide) (by simp) (by decide +kernel)).1 ⟨by decide, by
      intro k hk
      by_cases h7 : k = 7
      · subst h7; decide
      · by_cases h2 : k = 2
        · subst h2; decide
        · exact absurd (by simp [ofGrain, Ne.symm h7, Ne.symm h2]) hk⟩
  refine ⟨f, maps', h1, h2, ?_⟩
  have h5 := h4 7 2 (by decide)
  have h6 : ∀ d ∈ gaps ((ofGrain k (([[(7, 1), (2, 100)], [(7, 5), (7, 7)], [(2, 103)]] : List (List (Nat × Int))).flatten.take 99)).take 99),
      2 ≤ d := by
    by_cases h7 : k = 7
    · subst h7; decide
    · by_cases h2 : k = 2
      · subst h2; decide
      · intro d hd
        simp [ofGrain, Ne.symm h7, Ne.symm h2, gaps] at hd
  have := h6 f h3
  omega

example : (trainGlobal (K := Nat) 0 99 99 [[(7, 1), (2, 100)], [(7, 5)]] [[]]).1 = .error .runtimeError :=
  (C98_global_partial (K := Nat) 0 99 99 (by decide) (by decide)
    [[(7, 1), (2, 100)], [(7, 5)]] (by intro b hb; simp at hb; rcases hb with rfl | rfl <;> simp)
    [[]] (by decide) (by simp) (by decide +kernel)).2 (fun h => absurd (h.2 2 (by decide)).1 (by decide))

end Feat
