import Verif.Spec.Grain
import Verif.Props.PipelineExec
import Mathlib.Order.Basic
import Mathlib.Order.Nat
/-
C37: grains do not influence each other (execution).
-/
namespace Feat
variable {K T I O : Type}

private theorem transformer_of [LinearOrder K] (g : GrainTransformer K T) (k : K) (t : T) (m : OMap K T)
    (h : m.find? k = some t) : ({ g with transformers := m } : GrainTransformer K T).transformer k = .ok t := by
  simp [GrainTransformer.transformer, h]

private theorem transformer_same [LinearOrder K] (g : GrainTransformer K T) (k j : K) (t : T) (h : j ≠ k) :
    ({ g with transformers := g.transformers.set k t } : GrainTransformer K T).transformer j = g.transformer j := by
  simp [GrainTransformer.transformer, OMap.find?_set_other _ _ _ _ h]

/-- **C37 (one row).**  A row changes nothing about other grains, also when it throws. -/
theorem C37_other_grains [LinearOrder K] (X : Xf T I O) (g : GrainTransformer K T) (x : K × I) (j : K) (h : j ≠ x.1) :
    (GrainTransformer.exec X g x).next.transformers.find? j = g.transformers.find? j ∧
    ofGrain j (GrainTransformer.exec X g x).outs = [] := by
  unfold GrainTransformer.exec
  rcases g.transformer x.1 with e | t
  · exact ⟨rfl, rfl⟩
  · exact ⟨OMap.find?_set_other _ _ _ _ h, ofGrain_map_other _ _ h _⟩

/-- **C37 (execution).**  For any interleaving of rows: the run throws nothing exactly if every grain with rows has (or can be
given) a transformer, and this transformer, executed on the rows of its grain alone, throws nothing; and then the
output of each grain, and the state its transformer is left in, are the same as alone. -/
theorem C37_execute [LinearOrder K] (X : Xf T I O) (xs : List (K × I)) (g : GrainTransformer K T) :
    (((grainXf X).execAll g xs).err = none ↔
      ∀ k, ofGrain k xs ≠ [] → ∃ t, g.transformer k = .ok t ∧ (X.execAll t (ofGrain k xs)).err = none) ∧
    (((grainXf X).execAll g xs).err = none → ∀ k,
      (ofGrain k xs = [] → ofGrain k ((grainXf X).execAll g xs).outs = [] ∧
        ((grainXf X).execAll g xs).next.transformers.find? k = g.transformers.find? k) ∧
      (∀ t, ofGrain k xs ≠ [] → g.transformer k = .ok t →
        ofGrain k ((grainXf X).execAll g xs).outs = (X.execAll t (ofGrain k xs)).outs ∧
        ((grainXf X).execAll g xs).next.transformers.find? k = some (X.execAll t (ofGrain k xs)).next)) ∧
    ((grainXf X).execAll g xs).next.create = g.create := by
  induction xs generalizing g with
  | nil => simp [Xf.execAll, ofGrain]
  | cons x xs ih =>
    obtain ⟨k0, i⟩ := x
    have hx : (grainXf X).exec g (k0, i) = GrainTransformer.exec X g (k0, i) := rfl
    rcases ht : g.transformer k0 with e | t
    · -- no transformer
      have hex : GrainTransformer.exec X g (k0, i) = ⟨[], some e, g⟩ := by
        unfold GrainTransformer.exec
        rw [ht]
      simp only [Xf.execAll, hx, hex]
      refine ⟨⟨by simp, fun h => ?_⟩, by simp, trivial⟩
      obtain ⟨t, h1, _⟩ := h k0 (by rw [ofGrain_cons_self]; simp)
      rw [ht] at h1
      cases h1
    · rcases hr : X.exec t i with ⟨outs, err, t'⟩
      have hex : GrainTransformer.exec X g (k0, i) = ⟨outs.map fun o => (k0, o), err,
          { g with transformers := g.transformers.set k0 t' }⟩ := by
        unfold GrainTransformer.exec
        rw [ht]
        simp only [hr]
        rfl
      rcases err with _ | e
      · -- the row succeeds
        obtain ⟨i1, i2, i3⟩ := ih { g with transformers := g.transformers.set k0 t' }
        have hk0 : ({ g with transformers := g.transformers.set k0 t' } : GrainTransformer K T).transformer k0 = .ok t' :=
          transformer_of g k0 t' _ (OMap.find?_set_self _ _ _)
        rcases hB : (grainXf X).execAll { g with transformers := g.transformers.set k0 t' } xs with ⟨o', e', g'⟩
        rw [hB] at i1 i2 i3
        simp only at i1 i2 i3
        simp only [Xf.execAll, hx, hex, hB]
        have halone : ∀ rows, X.execAll t (i :: rows)
            = ⟨outs ++ (X.execAll t' rows).outs, (X.execAll t' rows).err, (X.execAll t' rows).next⟩ := by
          intro rows
          simp only [Xf.execAll, hr]
        refine ⟨?_, ?_, i3⟩
        · rw [i1]
          constructor
          · intro h k hk
            by_cases hkk : k = k0
            · subst hkk
              refine ⟨t, ht, ?_⟩
              rw [ofGrain_cons_self, halone]
              by_cases hn : ofGrain k xs = []
              · rw [hn]; rfl
              · obtain ⟨t2, h1, h2⟩ := h k hn
                rw [hk0] at h1
                cases h1
                exact h2
            · rw [ofGrain_cons_other _ _ hkk] at hk ⊢
              obtain ⟨t2, h1, h2⟩ := h k hk
              rw [transformer_same _ _ _ _ hkk] at h1
              exact ⟨t2, h1, h2⟩
          · intro h k hk
            by_cases hkk : k = k0
            · subst hkk
              refine ⟨t', hk0, ?_⟩
              obtain ⟨t2, h1, h2⟩ := h k (by rw [ofGrain_cons_self]; simp)
              rw [ht] at h1
              cases h1
              rw [ofGrain_cons_self, halone] at h2
              exact h2
            · obtain ⟨t2, h1, h2⟩ := h k (by rw [ofGrain_cons_other _ _ hkk]; exact hk)
              rw [ofGrain_cons_other _ _ hkk] at h2
              exact ⟨t2, by rw [transformer_same _ _ _ _ hkk]; exact h1, h2⟩
        · intro he k
          obtain ⟨j1, j2⟩ := i2 he k
          by_cases hkk : k = k0
          · subst hkk
            rw [ofGrain_cons_self, ofGrain_append, ofGrain_map_self]
            refine ⟨by simp, fun t2 _ h2 => ?_⟩
            rw [ht] at h2
            cases h2
            rw [halone]
            by_cases hn : ofGrain k xs = []
            · obtain ⟨j3, j4⟩ := j1 hn
              rw [j3, j4, hn]
              exact ⟨by simp [Xf.execAll], OMap.find?_set_self _ _ _⟩
            · obtain ⟨j3, j4⟩ := j2 t' hn hk0
              rw [j3, j4]
              exact ⟨rfl, rfl⟩
          · rw [ofGrain_cons_other _ _ hkk, ofGrain_append, ofGrain_map_other _ _ hkk, List.nil_append]
            refine ⟨fun hn => ?_, fun t2 hn h2 => ?_⟩
            · obtain ⟨j3, j4⟩ := j1 hn
              exact ⟨j3, by rw [j4]; exact OMap.find?_set_other _ _ _ _ hkk⟩
            · exact j2 t2 hn (by rw [transformer_same _ _ _ _ hkk]; exact h2)
      · -- the row throws
        simp only [Xf.execAll, hx, hex]
        refine ⟨⟨by simp, fun h => ?_⟩, by simp, trivial⟩
        obtain ⟨t2, h1, h2⟩ := h k0 (by rw [ofGrain_cons_self]; simp)
        rw [ht] at h1
        cases h1
        rw [ofGrain_cons_self] at h2
        simp only [Xf.execAll, hr] at h2
        cases h2

private theorem flushGrains_spec [LinearOrder K] (X : Xf T I O) (es : List (K × T))
    (hs : es.Pairwise fun a b => a.1 < b.1) (m : OMap K T) :
    ((flushGrains X es m).err = none ↔ ∀ e ∈ es, (X.flush e.2).err = none) ∧
    ((flushGrains X es m).err = none →
      (∀ e ∈ es, ofGrain e.1 (flushGrains X es m).outs = (X.flush e.2).outs ∧
        (flushGrains X es m).next.find? e.1 = some (X.flush e.2).next) ∧
      ∀ k, k ∉ es.map (·.1) → ofGrain k (flushGrains X es m).outs = [] ∧
        (flushGrains X es m).next.find? k = m.find? k) := by
  induction es generalizing m with
  | nil => simp [flushGrains, ofGrain]
  | cons e es ih =>
    obtain ⟨k, t⟩ := e
    rw [List.pairwise_cons] at hs
    rcases hf : X.flush t with ⟨outs, err, t'⟩
    rcases err with _ | x
    · obtain ⟨i1, i2⟩ := ih hs.2 (m.set k t')
      rcases hB : flushGrains X es (m.set k t') with ⟨o', e', m'⟩
      rw [hB] at i1 i2
      simp only at i1 i2
      have hk : k ∉ es.map (·.1) := by
        intro hm
        obtain ⟨e2, he2, rfl⟩ := List.mem_map.1 hm
        exact lt_irrefl _ (hs.1 e2 he2)
      simp only [flushGrains, hf, hB, Run.grain]
      refine ⟨by rw [i1]; simp [hf], fun he => ?_⟩
      obtain ⟨j1, j2⟩ := i2 he
      constructor
      · intro e2 he2
        rcases List.mem_cons.1 he2 with rfl | he2
        · obtain ⟨j3, j4⟩ := j2 k hk
          simp only [hf]
          rw [ofGrain_append, ofGrain_map_self, j3, j4]
          exact ⟨by simp, OMap.find?_set_self _ _ _⟩
        · have hne : e2.1 ≠ k := (ne_of_lt (hs.1 e2 he2)).symm
          obtain ⟨j3, j4⟩ := j1 e2 he2
          rw [ofGrain_append, ofGrain_map_other _ _ hne, List.nil_append]
          exact ⟨j3, j4⟩
      · intro j hj
        rw [List.map_cons, List.mem_cons, not_or] at hj
        obtain ⟨j3, j4⟩ := j2 j hj.2
        rw [ofGrain_append, ofGrain_map_other _ _ hj.1, List.nil_append]
        exact ⟨j3, by rw [j4]; exact OMap.find?_set_other _ _ _ _ hj.1⟩
    · simp only [flushGrains, hf]
      refine ⟨⟨by simp, fun h => ?_⟩, by simp⟩
      have := h (k, t) (by simp)
      simp only [hf] at this
      cases this

/-- **C37 (flush).**  Flushing flushes every grain; it throws nothing exactly if no grain's flush throws. -/
theorem C37_flush [LinearOrder K] (X : Xf T I O) (g : GrainTransformer K T) :
    (((grainXf X).flush g).err = none ↔ ∀ k t, g.transformers.find? k = some t → (X.flush t).err = none) ∧
    (((grainXf X).flush g).err = none → ∀ k,
      (g.transformers.find? k = none → ofGrain k ((grainXf X).flush g).outs = [] ∧
        ((grainXf X).flush g).next.transformers.find? k = none) ∧
      ∀ t, g.transformers.find? k = some t → ofGrain k ((grainXf X).flush g).outs = (X.flush t).outs ∧
        ((grainXf X).flush g).next.transformers.find? k = some (X.flush t).next) := by
  obtain ⟨h1, h2⟩ := flushGrains_spec X g.transformers.entries g.transformers.sorted g.transformers
  refine ⟨?_, fun he k => ?_⟩
  · show (flushGrains X g.transformers.entries g.transformers).err = none ↔ _
    rw [h1]
    constructor
    · intro h k t hk
      exact h (k, t) (g.transformers.mem_of_find? k t hk)
    · intro h e he
      exact h e.1 e.2 (g.transformers.find?_of_mem e.1 e.2 he)
  · obtain ⟨j1, j2⟩ := h2 he
    refine ⟨fun hn => ?_, fun t ht => j1 (k, t) (g.transformers.mem_of_find? k t ht)⟩
    have hk : k ∉ g.transformers.entries.map (·.1) := by
      intro hm
      obtain ⟨e, he, rfl⟩ := List.mem_map.1 hm
      rw [g.transformers.find?_of_mem e.1 e.2 he] at hn
      cases hn
    obtain ⟨j3, j4⟩ := j2 k hk
    exact ⟨j3, by rw [← hn]; exact j4⟩

/-- **C37 (a whole run).**  A grain that has a transformer, or is given one at its first row, outputs exactly what this
transformer would output on the grain's rows alone, followed by a flush; other grains output nothing. -/
theorem C37_run [LinearOrder K] (X : Xf T I O) (xs : List (K × I)) (g : GrainTransformer K T)
    (h : ((grainXf X).runAll g xs).err = none) (k : K) :
    (∀ t, g.transformers.find? k = some t ∨
        (g.transformers.find? k = none ∧ ofGrain k xs ≠ [] ∧ g.create = some (.ok t)) →
      (X.runAll t (ofGrain k xs)).err = none ∧
      ofGrain k ((grainXf X).runAll g xs).outs = (X.runAll t (ofGrain k xs)).outs) ∧
    (g.transformers.find? k = none → ofGrain k xs = [] → ofGrain k ((grainXf X).runAll g xs).outs = []) := by
  obtain ⟨h1, h2, _⟩ := C37_execute X xs g
  unfold Xf.runAll at h ⊢
  rcases hA : (grainXf X).execAll g xs with ⟨o, e, g'⟩
  rw [hA] at h h1 h2
  rcases e with _ | e
  · simp only [true_iff, forall_true_left] at h1 h2
    obtain ⟨f1, f2⟩ := C37_flush X g'
    rcases hB : (grainXf X).flush g' with ⟨o', e', g''⟩
    rw [hB] at f1 f2
    simp only [hB] at h ⊢
    subst h
    simp only [true_iff, forall_true_left] at f1 f2
    obtain ⟨a1, a2⟩ := h2 k
    obtain ⟨b1, b2⟩ := f2 k
    refine ⟨fun t ht => ?_, fun hn hr => ?_⟩
    · have htr : g.transformer k = .ok t := by
        unfold GrainTransformer.transformer
        rcases ht with ht | ⟨ht, _, hc⟩
        · rw [ht]
        · rw [ht, hc]
      have hboth : (X.execAll t (ofGrain k xs)).err = none ∧ ofGrain k o = (X.execAll t (ofGrain k xs)).outs ∧
          g'.transformers.find? k = some (X.execAll t (ofGrain k xs)).next := by
        by_cases hr : ofGrain k xs = []
        · obtain ⟨a3, a4⟩ := a1 hr
          rcases ht with ht | ⟨_, ht, _⟩
          · rw [hr, a3, a4, ht]
            exact ⟨rfl, rfl, rfl⟩
          · exact absurd hr ht
        · obtain ⟨t2, c1, c2⟩ := h1 k hr
          rw [htr] at c1
          cases c1
          exact ⟨c2, a2 t hr htr⟩
      obtain ⟨d1, d2, d3⟩ := hboth
      obtain ⟨b3, _⟩ := b2 _ d3
      have d4 := f1 k _ d3
      rcases hC : X.execAll t (ofGrain k xs) with ⟨oc, ec, tc⟩
      rw [hC] at d1 d2 b3 d4
      simp only at d1 d2 b3 d4
      subst d1
      rcases hD : X.flush tc with ⟨od, ed, td⟩
      rw [hD] at b3 d4
      simp only at b3 d4
      simp only [hD, ofGrain_append, d2, b3]
      exact ⟨d4, trivial⟩
    · obtain ⟨a3, a4⟩ := a1 hr
      rw [ofGrain_append, a3]
      exact (b1 (by rw [a4]; exact hn)).1
  · cases h

/-! Non-vacuity: running sums per grain; grain 3 is unknown at first, and made from the given function. -/

private def sumXf : Xf Int Int Int := ⟨fun t x => if x < 0 then ⟨[], some .runtimeError, t⟩ else ⟨[t + x], none, t + x⟩,
  fun t => ⟨[-t], none, 0⟩⟩

private def sumGrains : GrainTransformer Nat Int := ⟨true, some (.ok 100), (OMap.empty.set 1 0).set 2 10⟩

example : ((grainXf sumXf).runAll sumGrains [(1, 5), (3, 1), (1, 7), (3, 2)]).err = none ∧
    ((grainXf sumXf).runAll sumGrains [(1, 5), (3, 1), (1, 7), (3, 2)]).outs
      = [(1, 5), (3, 101), (1, 12), (3, 103), (1, -12), (2, -10), (3, -103)] := by decide +kernel

example : ((grainXf sumXf).execAll sumGrains [(1, 5), (3, -1), (1, 7)]).err = some .runtimeError := by
  decide +kernel

end Feat
