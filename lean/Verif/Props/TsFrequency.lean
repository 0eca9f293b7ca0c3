import Verif.Props.Ranges
import Mathlib.Data.List.Chain
/-
C25 for the time series frequency estimator, which sees all grains.
-/
namespace Feat
variable {K α : Type}

private theorem timesOf_snoc [DecidableEq K] (pre : List (Int × K)) (t : Int) (k g : K) :
    timesOf (pre ++ [(t, k)]) g = timesOf pre g ++ if k = g then [t] else [] := by
  simp only [timesOf, List.filterMap_append, List.filterMap_cons, List.filterMap_nil]
  split <;> simp_all

private theorem gaps_snoc (l : List Int) (x : Int) :
    gaps (l ++ [x]) = gaps l ++ (match l.getLast? with | none => [] | some a => [x - a]) := by
  induction l with
  | nil => rfl
  | cons a l ih =>
    cases l with
    | nil => rfl
    | cons b l =>
      simp only [List.cons_append, gaps] at ih ⊢
      rw [ih]
      simp [List.getLast?_cons_cons]

private theorem chain_snoc (l : List Int) (x : Int) (h : l.Pairwise (· < ·)) :
    (l ++ [x]).Pairwise (· < ·) ↔ ∀ a, l.getLast? = some a → a < x := by
  rw [← List.isChain_iff_pairwise] at h ⊢
  rw [List.isChain_append]
  simp [h]

/-- What the estimator knows after the rows `pre`. -/
private structure TsInv [DecidableEq K] (pre : List (Int × K)) (s : TsFrequency K α) : Prop where
  tracker : ∀ g, s.tracker g = (timesOf pre g).getLast?
  chain : ∀ g, (timesOf pre g).Pairwise (· < ·)
  mem : s.minFrequency = durationMax ∨ ∃ g, s.minFrequency ∈ gaps (timesOf pre g)
  le : s.minFrequency ≤ durationMax ∧ ∀ g, ∀ d ∈ gaps (timesOf pre g), s.minFrequency ≤ d

private theorem timesOf_mem [DecidableEq K] (pre : List (Int × K)) (g : K) (a : Int)
    (h : a ∈ timesOf pre g) : ∃ k, (a, k) ∈ pre := by
  simp only [timesOf, List.mem_filterMap] at h
  obtain ⟨⟨t, k⟩, h1, h2⟩ := h
  split at h2
  · cases h2; exact ⟨k, h1⟩
  · cases h2

private theorem step_spec [DecidableEq K] (pre : List (Int × K)) (s : TsFrequency K α) (hi : TsInv pre s)
    (t : Int) (k : K)
    (hspan : ∀ a ∈ pre, t - a.1 < durationMax) :
    ((∀ g, (timesOf (pre ++ [(t, k)]) g).Pairwise (· < ·)) ∧
      ∃ s', TsFrequency.step (t, k) s = (.ok (), s') ∧ s'.maps = s.maps ∧ TsInv (pre ++ [(t, k)]) s') ∨
    ((¬ (timesOf (pre ++ [(t, k)]) k).Pairwise (· < ·)) ∧
      (TsFrequency.step (t, k) s).1 = .error .runtimeError ∧ (TsFrequency.step (t, k) s).2.maps = s.maps) := by
  have hch : ∀ g, (∀ a, k = g → (timesOf pre k).getLast? = some a → a < t) →
      (timesOf (pre ++ [(t, k)]) g).Pairwise (· < ·) := by
    intro g h
    rw [timesOf_snoc]
    by_cases hk : k = g
    · subst hk
      rw [if_pos rfl, chain_snoc _ _ (hi.chain k)]
      intro a ha
      exact h a rfl ha
    · rw [if_neg hk, List.append_nil]
      exact hi.chain g
  have htr : ∀ g, (if g = k then some t else s.tracker g) = (timesOf (pre ++ [(t, k)]) g).getLast? := by
    intro g
    rw [timesOf_snoc, hi.tracker]
    by_cases hk : g = k
    · subst hk; simp
    · rw [if_neg hk, if_neg (fun h => hk h.symm), List.append_nil]
  simp only [TsFrequency.step]
  rcases hl : s.tracker k with _ | last
  · left
    have hl' : (timesOf pre k).getLast? = none := by rw [← hi.tracker, hl]
    refine ⟨fun g => hch g (fun a _ h => by rw [hl'] at h; cases h), _, rfl, rfl, htr,
      fun g => hch g (fun a _ h => by rw [hl'] at h; cases h), ?_, ?_⟩
    · rcases hi.mem with h | ⟨g, h⟩
      · exact .inl h
      · refine .inr ⟨g, ?_⟩
        rw [timesOf_snoc]
        split
        · rw [gaps_snoc]; exact List.mem_append_left _ h
        · rw [List.append_nil]; exact h
    · refine ⟨hi.le.1, fun g d hd => ?_⟩
      rw [timesOf_snoc] at hd
      split at hd
      · rename_i hk
        subst hk
        rw [gaps_snoc, hl'] at hd
        simp only [List.append_nil] at hd
        exact hi.le.2 _ d hd
      · rw [List.append_nil] at hd
        exact hi.le.2 _ d hd
  · have hl' : (timesOf pre k).getLast? = some last := by rw [← hi.tracker, hl]
    simp only
    by_cases hlt : last < t
    · left
      rw [if_neg (by omega)]
      obtain ⟨k', hm⟩ := timesOf_mem pre k last (List.mem_of_getLast? hl')
      have hsp := hspan _ hm
      have hg : gap last t = .ok (t - last) := by
        unfold gap
        simp only at hsp
        rw [if_neg (by omega)]
      rw [hg]
      have hc : ∀ g, (timesOf (pre ++ [(t, k)]) g).Pairwise (· < ·) :=
        fun g => hch g (fun a _ h => by rw [hl'] at h; cases h; exact hlt)
      refine ⟨hc, _, rfl, rfl, htr, hc, ?_, ?_⟩
      · simp only
        split
        · refine .inr ⟨k, ?_⟩
          rw [timesOf_snoc, if_pos rfl, gaps_snoc, hl']
          simp
        · rcases hi.mem with h | ⟨g, h⟩
          · exact .inl h
          · refine .inr ⟨g, ?_⟩
            rw [timesOf_snoc]
            split
            · rw [gaps_snoc]; exact List.mem_append_left _ h
            · rw [List.append_nil]; exact h
      · simp only
        refine ⟨by have := hi.le.1; split <;> omega, fun g d hd => ?_⟩
        rw [timesOf_snoc] at hd
        split at hd
        · rename_i hk
          subst hk
          rw [gaps_snoc, hl'] at hd
          rcases List.mem_append.1 hd with hd | hd
          · have := hi.le.2 _ d hd
            split <;> omega
          · rw [List.mem_singleton.1 hd]
            split <;> omega
        · rw [List.append_nil] at hd
          have := hi.le.2 _ d hd
          split <;> omega
    · right
      rw [if_pos (by omega)]
      refine ⟨?_, rfl, rfl⟩
      rw [timesOf_snoc, if_pos rfl, chain_snoc _ _ (hi.chain k)]
      intro h
      exact hlt (h last hl')

private theorem pairwise_prefix [DecidableEq K] (a b : List (Int × K)) (g : K)
    (h : (timesOf (a ++ b) g).Pairwise (· < ·)) : (timesOf a g).Pairwise (· < ·) := by
  simp only [timesOf, List.filterMap_append] at h
  exact (List.pairwise_append.1 h).1

private theorem run_spec [DecidableEq K] (rows : List (Int × K)) :
    ∀ (pre : List (Int × K)) (s : TsFrequency K α), TsInv pre s →
    (∀ a ∈ pre ++ rows, ∀ b ∈ pre ++ rows, b.1 - a.1 < durationMax) →
    ((∀ g, (timesOf (pre ++ rows) g).Pairwise (· < ·)) ∧
      ∃ s', TsFrequency.run rows s = (.ok (), s') ∧ s'.maps = s.maps ∧ TsInv (pre ++ rows) s') ∨
    ((∃ g, ¬ (timesOf (pre ++ rows) g).Pairwise (· < ·)) ∧
      (TsFrequency.run rows s).1 = .error .runtimeError ∧ (TsFrequency.run rows s).2.maps = s.maps) := by
  induction rows with
  | nil =>
    intro pre s hi _
    rw [List.append_nil]
    exact .inl ⟨hi.chain, s, rfl, rfl, hi⟩
  | cons row rows ih =>
    intro pre s hi hs
    obtain ⟨t, k⟩ := row
    rw [List.append_cons] at hs ⊢
    simp only [TsFrequency.run]
    rcases step_spec pre s hi t k (fun a ha => hs a (by simp [ha]) (t, k) (by simp)) with
      ⟨h1, s', h2, h3, h4⟩ | ⟨h1, h2, h3⟩
    · rw [h2]
      simp only
      rw [← h3]
      exact ih (pre ++ [(t, k)]) s' h4 hs
    · right
      rcases hf : TsFrequency.step (t, k) s with ⟨r, s'⟩
      rw [hf] at h2 h3
      simp only at h2
      subst h2
      exact ⟨⟨k, fun h => h1 (pairwise_prefix _ _ _ h)⟩, rfl, h3⟩

private theorem run_append [DecidableEq K] (a b : List (Int × K)) (s : TsFrequency K α) :
    TsFrequency.run (a ++ b) s = match TsFrequency.run a s with
      | (.ok (), s') => TsFrequency.run b s'
      | (.error e, s') => (.error e, s') := by
  induction a generalizing s with
  | nil => rfl
  | cons r a ih =>
    simp only [List.cons_append, TsFrequency.run]
    rcases TsFrequency.step r s with ⟨_ | _, s'⟩
    · rfl
    · exact ih s'

private theorem offer_run [DecidableEq K] (wrap : Int → α) (batches : List (List (Int × K)))
    (hb : NoEmptyBatch batches) : ∀ s : TsFrequency K α,
    offer (tsFrequencyHooks wrap) batches ⟨.training, false, s⟩
      = match TsFrequency.run batches.flatten s with
        | (.ok (), s') => (.ok (), ⟨.training, false, s'⟩)
        | (.error e, s') => (.error e, ⟨.training, false, s'⟩) := by
  induction batches with
  | nil => intro s; rfl
  | cons b bs ih =>
    intro s
    have ih := ih (fun b h => hb b (List.mem_cons_of_mem _ h))
    have hne : ¬ b.length = 0 := fun h => hb b (by simp) (List.length_eq_zero_iff.1 h)
    rw [List.flatten_cons, run_append]
    simp only [offer, if_true, Est.fit, ne_eq, not_true_eq_false, if_false, hne, tsFrequencyHooks]
    rcases TsFrequency.run b s with ⟨_ | _, s'⟩
    · rfl
    · simp only
      exact ih s'

/-- **C25** (time series frequency estimator; part: time points spanning less than the longest duration)
Trained on rows of several grains, arbitrarily interleaved: if every grain's times are strictly increasing,
the estimator publishes the smallest difference of consecutive times of one grain, over all grains — and the
longest duration (instead of throwing) if no grain has two rows; if some grain's times are not strictly
increasing, training throws `runtime_error`. -/
theorem C25_time_series_partial [DecidableEq K] (wrap : Int → α) (kind : α → Bool)
    (hkind : ∀ a, kind (wrap a) = true) (batches : List (List (Int × K))) (hb : NoEmptyBatch batches)
    (maps : AnnotationMaps α) (hcol : 0 < maps.length)
    (hnone : getAnnotation kind maps 0 "TimeSeriesFrequencyEstimator" = .ok none)
    (hspan : ∀ a ∈ batches.flatten, ∀ b ∈ batches.flatten, b.1 - a.1 < durationMax) :
    let rows := batches.flatten
    let trained := trainOnce (tsFrequencyHooks wrap) batches (TsFrequency.new maps)
    ((∀ g, (timesOf rows g).Pairwise (· < ·)) →
      trained.1 = .ok () ∧
      ∃ f, getAnnotation kind trained.2.inner.maps 0 "TimeSeriesFrequencyEstimator" = .ok (some (wrap f)) ∧
        (∀ g, ∀ d ∈ gaps (timesOf rows g), f ≤ d) ∧
        ((∃ g, f ∈ gaps (timesOf rows g)) ∨ f = durationMax ∧ ∀ g, gaps (timesOf rows g) = []) ∧
        trained.2.inner.maps = (addAnnotation (some (wrap f)) 0 "TimeSeriesFrequencyEstimator" maps).2) ∧
    ((∃ g, ¬ (timesOf rows g).Pairwise (· < ·)) →
      trained.1 = .error .runtimeError ∧ trained.2.inner.maps = maps) := by
  intro rows trained
  have hi : TsInv [] (⟨maps, fun _ => none, durationMax⟩ : TsFrequency K α) :=
    ⟨fun g => rfl, fun g => by simp [timesOf], .inl rfl, ⟨le_refl _, fun g d hd => by simp [timesOf, gaps] at hd⟩⟩
  have ho := offer_run wrap batches hb (⟨maps, fun _ => none, durationMax⟩ : TsFrequency K α)
  have hr := run_spec batches.flatten [] _ hi (by simpa using hspan)
  rw [List.nil_append] at hr
  rw [show batches.flatten = rows from rfl] at hr ho
  have hgl : ∀ g, ∀ d ∈ gaps (timesOf rows g), d < durationMax := by
    intro g
    have : ∀ a ∈ timesOf rows g, ∀ b ∈ timesOf rows g, b - a < durationMax := by
      intro a ha b hb
      obtain ⟨k, hk⟩ := timesOf_mem rows g a ha
      obtain ⟨k', hk'⟩ := timesOf_mem rows g b hb
      exact hspan _ hk _ hk'
    generalize timesOf rows g = l at this
    induction l with
    | nil => simp [gaps]
    | cons a l ih =>
      cases l with
      | nil => simp [gaps]
      | cons b l =>
        intro d hd
        simp only [gaps] at hd
        rcases List.mem_cons.1 hd with rfl | hd
        · exact this a (by simp) b (by simp)
        · exact ih (fun a ha b hb => this a (List.mem_cons_of_mem _ ha) b (List.mem_cons_of_mem _ hb)) d hd
  have hbegin : Est.beginTraining (tsFrequencyHooks wrap) (TsFrequency.new maps : Est (TsFrequency K α))
      = (.ok (), ⟨.training, false, ⟨maps, fun _ => none, durationMax⟩⟩) := rfl
  rcases hr with ⟨h1, s', h2, h3, h4⟩ | ⟨h1, h2, h3⟩
  · refine ⟨fun _ => ?_, fun ⟨g, hg⟩ => absurd (h1 g) hg⟩
    rw [h2] at ho
    simp only at ho h3
    have hadd := addAnnotation_ok maps (wrap s'.minFrequency) 0 "TimeSeriesFrequencyEstimator" hcol
    have htr : trained = (.ok (), ⟨.completed, false, { s' with
        maps := (addAnnotation (some (wrap s'.minFrequency)) 0 "TimeSeriesFrequencyEstimator" maps).2 }⟩) := by
      simp only [trained, trainOnce, hbegin, ho]
      simp [Est.onDataCompleted, Est.completeTraining, tsFrequencyHooks, h3]
      rw [hadd.1]
    rw [htr]
    refine ⟨rfl, s'.minFrequency, getAnnotation_add_self maps _ 0 _ _ (hkind _) hnone, h4.le.2, ?_, rfl⟩
    rcases h4.mem with h | h
    · right
      refine ⟨h, fun g => ?_⟩
      rw [List.eq_nil_iff_forall_not_mem]
      intro d hd
      have := hgl g d hd
      have := h4.le.2 g d hd
      omega
    · exact .inl h
  · refine ⟨fun h => absurd h1 (fun ⟨g, hg⟩ => hg (h g)), fun _ => ?_⟩
    rcases hf : TsFrequency.run rows (⟨maps, fun _ => none, durationMax⟩ : TsFrequency K α) with ⟨r, s'⟩
    rw [hf] at ho h2 h3
    simp only at h2 h3
    subst h2
    have htr : trained = (.error .runtimeError, ⟨.training, false, s'⟩) := by
      simp only [trained, trainOnce, hbegin, ho]
    rw [htr]
    exact ⟨rfl, h3⟩

/-! Non-vacuity: two interleaved grains; the smallest gap, 3, is that of grain "b". -/
example : ∃ f, getAnnotation (fun _ => true)
      (trainOnce (tsFrequencyHooks id) [[(10, "a"), (1, "b")], [(15, "a"), (4, "b")]]
        (TsFrequency.new [[]])).2.inner.maps 0 "TimeSeriesFrequencyEstimator" = .ok (some f) ∧ f = 3 :=
  ⟨3, rfl, rfl⟩

example : ∀ g, (timesOf [(10, "a"), (1, "b"), (15, "a"), (4, "b")] g).Pairwise (· < ·) := by
  intro g
  by_cases ha : g = "a"
  · subst ha; decide
  · by_cases hb : g = "b"
    · subst hb; decide
    · simp [timesOf, Ne.symm ha, Ne.symm hb]

end Feat
