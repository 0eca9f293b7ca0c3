import Verif.Props.Grain
import Verif.Spec.Training
/-
C37: grains do not influence each other (training).
-/
namespace Feat
variable {K T σ ι α : Type}

/-! ### What training one grain alone means -/

/-- Offer the rows one at a time while the estimator is in the Training state; a request to reset is an error. -/
def fitRows (h : Hooks σ ι T) : List ι → Op (Est σ) Unit
  | [], e => (.ok (), e)
  | x :: xs, e =>
    if e.state = .training then
      match Est.fit h (some [x]) e with
      | (.error err, e) => (.error err, e)
      | (.ok .reset, e) => (.error .runtimeError, e)
      | (.ok _, e) => fitRows h xs e
    else (.ok (), e)

/-- Train a new estimator on the rows: begin, offer the rows, complete. -/
def trainAlone (h : Hooks σ ι T) (rows : List ι) : Op (Est σ) Unit := fun e =>
  match Est.beginTraining h e with
  | (.error x, e) => (.error x, e)
  | (.ok (), e) =>
    match fitRows h rows e with
    | (.error x, e) => (.error x, e)
    | (.ok (), e) => Est.completeTraining h e

/-- The annotations after an annotation (if any) was published. -/
def published (col : Nat) (name : String) (maps : AnnotationMaps α) : Option α → AnnotationMaps α
  | none => maps
  | some a => (addAnnotation (some a) col name maps).2

/-- The estimators of the grains hold the annotations by reference, and neither `begin_training` nor `fit` changes
them (the assumption made by the code, GrainFeaturizerImpl.h 776–778). -/
structure KeepsAnnotations (h : Hooks σ ι T) (L : StoreLens σ α) : Prop where
  get_set : ∀ m s, L.get (L.set m s) = m
  set_get : ∀ s, L.set (L.get s) s = s
  begin : ∀ s, L.get (h.begin s).2 = L.get s
  fit : ∀ xs s, L.get (h.fit xs s).2 = L.get s

/-! ### Fitting -/

private def fitXf (h : Hooks σ ι T) : Xf (Est σ) ι Unit where
  exec e x :=
    if e.state = .training then
      match Est.fit h (some [x]) e with
      | (.error err, e) => ⟨[], some err, e⟩
      | (.ok .reset, e) => ⟨[], some .runtimeError, e⟩
      | (.ok _, e) => ⟨[], none, e⟩
    else ⟨[], none, e⟩
  flush := noFlush

private theorem fitXf_done (h : Hooks σ ι T) (xs : List ι) (e : Est σ) (he : e.state ≠ .training) :
    (fitXf h).execAll e xs = ⟨[], none, e⟩ := by
  induction xs with
  | nil => rfl
  | cons x xs ih =>
    have hex : (fitXf h).exec e x = ⟨[], none, e⟩ := if_neg he
    simp only [Xf.execAll, hex, ih]
    simp

private theorem fitRows_eq (h : Hooks σ ι T) (xs : List ι) (e : Est σ) :
    fitRows h xs e = (match ((fitXf h).execAll e xs).err with | none => .ok () | some x => .error x,
      ((fitXf h).execAll e xs).next) := by
  induction xs generalizing e with
  | nil => rfl
  | cons x xs ih =>
    by_cases he : e.state = .training
    · have hex : (fitXf h).exec e x = match Est.fit h (some [x]) e with
          | (.error err, e) => ⟨[], some err, e⟩
          | (.ok .reset, e) => ⟨[], some .runtimeError, e⟩
          | (.ok _, e) => ⟨[], none, e⟩ := by
        show (if e.state = .training then _ else _) = _
        rw [if_pos he]
      simp only [fitRows, he, if_true, Xf.execAll, hex]
      rcases Est.fit h (some [x]) e with ⟨_ | _ | _ | _, e'⟩
      · rfl
      · exact ih e'
      · exact ih e'
      · rfl
    · rw [fitXf_done h _ e he]
      simp [fitRows, he]

private theorem est_fit_maps (h : Hooks σ ι T) (L : StoreLens σ α) (hk : KeepsAnnotations h L) (p : Option (List ι))
    (e : Est σ) : L.get (Est.fit h p e).2.inner = L.get e.inner := by
  unfold Est.fit
  split
  · rfl
  · split
    · rfl
    · rename_i items
      split
      · rfl
      · have := hk.fit items e.inner
        rcases hf : h.fit items e.inner with ⟨_ | _ | _ | _, s⟩ <;> (rw [hf] at this; exact this)

private theorem est_begin_maps (h : Hooks σ ι T) (L : StoreLens σ α) (hk : KeepsAnnotations h L)
    (e : Est σ) : L.get (Est.beginTraining h e).2.inner = L.get e.inner := by
  unfold Est.beginTraining
  split
  · rfl
  · have := hk.begin e.inner
    rcases hf : h.begin e.inner with ⟨_ | _ | _, s⟩ <;> (rw [hf] at this; exact this)

private theorem fitXf_maps (h : Hooks σ ι T) (L : StoreLens σ α) (hk : KeepsAnnotations h L) (e : Est σ) (x : ι) :
    L.get ((fitXf h).exec e x).next.inner = L.get e.inner := by
  show L.get (if e.state = .training then _ else _ : Run (Est σ) Unit).next.inner = _
  split
  · have := est_fit_maps h L hk (some [x]) e
    rcases hf : Est.fit h (some [x]) e with ⟨_ | _ | _ | _, s⟩ <;> (rw [hf] at this; exact this)
  · rfl

/-- The estimator a new grain starts with. -/
private def startOf [LinearOrder K] (h : Hooks σ ι T) (L : StoreLens σ α) (c : GrainConfig K σ α)
    (maps : AnnotationMaps α) : Except Err (Est σ) :=
  match Est.beginTraining h (Est.new (L.set maps c.fresh)) with
  | (.error x, _) => .error x
  | (.ok (), e) => .ok e

private theorem set_inner (L : StoreLens σ α) (h : Hooks σ ι T) (hk : KeepsAnnotations h L) (e : Est σ)
    (maps : AnnotationMaps α) (he : L.get e.inner = maps) : { e with inner := L.set maps e.inner } = e := by
  subst he
  rw [hk.set_get]

/-- The loop over the rows runs the grains like a grain transformer. -/
private theorem fitAll_sim [LinearOrder K] (h : Hooks σ ι T) (L : StoreLens σ α) (c : GrainConfig K σ α)
    (hk : KeepsAnnotations h L) (maps : AnnotationMaps α) (r : Nat) (xs : List (K × ι)) :
    ∀ m : OMap K (Est σ), (∀ k e, m.find? k = some e → L.get e.inner = maps) →
    let R := (grainXf (fitXf h)).execAll ⟨true, some (startOf h L c maps), m⟩ xs
    (R.err = none → GrainEst.fitAll h L c xs ⟨maps, m, r⟩ = (.ok (), ⟨maps, R.next.transformers, r⟩) ∧
      ∀ k e, R.next.transformers.find? k = some e → L.get e.inner = maps) ∧
    (∀ x, R.err = some x → (GrainEst.fitAll h L c xs ⟨maps, m, r⟩).1 = .error x) := by
  induction xs with
  | nil => intro m hm; exact ⟨fun _ => ⟨rfl, hm⟩, by simp [Xf.execAll]⟩
  | cons x xs ih =>
    intro m hm
    obtain ⟨k, i⟩ := x
    -- the estimator of the grain
    have hest : (∃ x g', (GrainTransformer.transformer ⟨true, some (startOf h L c maps), m⟩ k) = .error x ∧
          GrainEst.estimator h L c k ⟨maps, m, r⟩ = (.error x, g')) ∨
        (∃ e m', (GrainTransformer.transformer ⟨true, some (startOf h L c maps), m⟩ k) = .ok e ∧
          GrainEst.estimator h L c k ⟨maps, m, r⟩ = (.ok e, ⟨maps, m', r⟩) ∧ L.get e.inner = maps ∧
          (m' = m ∧ m.find? k = some e ∨ m' = m.set k e)) := by
      unfold GrainTransformer.transformer GrainEst.estimator
      rcases hf : m.find? k with _ | e
      · simp only [startOf, onGrain, Est.new]
        have hb := est_begin_maps h L hk ⟨.pending, false, L.set maps c.fresh⟩
        rcases hB : Est.beginTraining h ⟨.pending, false, L.set maps c.fresh⟩ with ⟨_ | _, e⟩
        · exact .inl ⟨_, _, rfl, rfl⟩
        · rw [hB] at hb
          simp only [hk.get_set] at hb
          exact .inr ⟨e, m.set k e, rfl, by simp only [hb], hb, .inr rfl⟩
      · exact .inr ⟨e, m, rfl, rfl, hm k e hf, .inl ⟨rfl, rfl⟩⟩
    have hx : (grainXf (fitXf h)).exec ⟨true, some (startOf h L c maps), m⟩ (k, i)
        = GrainTransformer.exec (fitXf h) ⟨true, some (startOf h L c maps), m⟩ (k, i) := rfl
    rcases hest with ⟨x, g', h1, h2⟩ | ⟨e, m', h1, h2, h3, h4⟩
    · have hex : GrainTransformer.exec (fitXf h) ⟨true, some (startOf h L c maps), m⟩ (k, i)
          = ⟨[], some x, ⟨true, some (startOf h L c maps), m⟩⟩ := by
        unfold GrainTransformer.exec
        rw [h1]
      simp only [Xf.execAll, hx, hex, reduceCtorEq, false_implies, Option.some.injEq, true_and]
      rintro _ rfl
      simp only [GrainEst.fitAll, GrainEst.fitOne, h2]
    · -- the row
      have hmaps := fitXf_maps h L hk e i
      have hex : GrainTransformer.exec (fitXf h) ⟨true, some (startOf h L c maps), m⟩ (k, i)
          = ⟨((fitXf h).exec e i).grain k, ((fitXf h).exec e i).err,
            ⟨true, some (startOf h L c maps), m.set k ((fitXf h).exec e i).next⟩⟩ := by
        unfold GrainTransformer.exec
        rw [h1]
      have hset : ∀ e', m'.set k e' = m.set k e' := by
        intro e'
        rcases h4 with ⟨h4, _⟩ | h4
        · rw [h4]
        · rw [h4]
          simp only [OMap.set, OMap.mk.injEq]
          generalize m.entries = l
          induction l with
          | nil => simp [setSorted]
          | cons a l ih =>
            obtain ⟨k', v'⟩ := a
            simp only [setSorted]
            split
            · simp [setSorted]
            · split
              · simp [setSorted]
              · rename_i h5 h6
                simp only [setSorted, h5, h6, if_false, ih]
      have hone : GrainEst.fitOne h L c (k, i) ⟨maps, m, r⟩ = match ((fitXf h).exec e i).err with
          | none => (.ok (), ⟨maps, m.set k ((fitXf h).exec e i).next, r⟩)
          | some x => (.error x, ⟨maps, m.set k ((fitXf h).exec e i).next, r⟩) := by
        simp only [GrainEst.fitOne, h2]
        have hxe : (fitXf h).exec e i = if e.state = .training then
            (match Est.fit h (some [i]) e with
            | (.error err, e) => ⟨[], some err, e⟩
            | (.ok .reset, e) => ⟨[], some .runtimeError, e⟩
            | (.ok _, e) => ⟨[], none, e⟩ : Run (Est σ) Unit) else ⟨[], none, e⟩ := rfl
        by_cases hst : e.state = .training
        · rw [if_pos hst] at hxe
          rw [if_pos hst]
          simp only [onGrain, set_inner L h hk e maps h3]
          rw [hxe] at hmaps ⊢
          rcases hF : Est.fit h (some [i]) e with ⟨_ | _ | _ | _, e'⟩ <;>
            (rw [hF] at hmaps; simp only at hmaps; rw [h3] at hmaps; simp only [hset, hmaps])
        · rw [if_neg hst] at hxe
          rw [if_neg hst, hxe]
          simp only
          rcases h4 with ⟨h4, h5⟩ | h4
          · rw [← hset, h4]
            congr 2
            -- assigning the value already there
            obtain ⟨l, hl⟩ := m
            simp only [OMap.set, OMap.mk.injEq, OMap.find?] at h5 ⊢
            clear hset hm hex hx h1 h2 h4
            induction l with
            | nil => simp at h5
            | cons a l ih =>
              obtain ⟨k', v'⟩ := a
              rw [List.pairwise_cons] at hl
              simp only [setSorted]
              by_cases hkk : k' = k
              · subst hkk
                simp only [List.find?_cons_of_pos, beq_self_eq_true, Option.map_some, Option.some.injEq] at h5
                subst h5
                simp
              · rw [List.find?_cons_of_neg (by simpa using hkk)] at h5
                have hlt : k' < k := by
                  rcases hfi : l.find? (fun e => e.1 == k) with _ | ⟨k2, v2⟩
                  · rw [hfi] at h5; simp at h5
                  · have hmem := List.mem_of_find?_eq_some hfi
                    have hk2 := List.find?_some hfi
                    simp only [beq_iff_eq] at hk2
                    subst hk2
                    exact hl.1 _ hmem
                rw [if_neg (not_lt.2 (le_of_lt hlt)), if_neg (Ne.symm hkk)]
                congr 1
                exact ih hl.2 h5
          · rw [h4]
      simp only [Xf.execAll, hx, hex, GrainEst.fitAll, hone]
      rcases hE : ((fitXf h).exec e i).err with _ | x
      · simp only
        have hm2 : ∀ k2 e2, (m.set k ((fitXf h).exec e i).next).find? k2 = some e2 → L.get e2.inner = maps := by
          intro k2 e2 he2
          by_cases hkk : k2 = k
          · subst hkk
            rw [OMap.find?_set_self] at he2
            cases he2
            rw [hmaps, h3]
          · rw [OMap.find?_set_other _ _ _ _ hkk] at he2
            exact hm k2 e2 he2
        exact ih _ hm2
      · simp

/-! ### Batches -/

private theorem fitAll_append [LinearOrder K] (h : Hooks σ ι T) (L : StoreLens σ α) (c : GrainConfig K σ α)
    (xs ys : List (K × ι)) (g : GrainEst K σ α) :
    GrainEst.fitAll h L c (xs ++ ys) g = match GrainEst.fitAll h L c xs g with
      | (.error e, g) => (.error e, g)
      | (.ok (), g) => GrainEst.fitAll h L c ys g := by
  induction xs generalizing g with
  | nil => rfl
  | cons x xs ih =>
    simp only [List.cons_append, GrainEst.fitAll]
    rcases GrainEst.fitOne h L c x g with ⟨_ | _, g'⟩
    · rfl
    · exact ih g'

private theorem offer_grain [LinearOrder K] (h : Hooks σ ι T) (L : StoreLens σ α) (c : GrainConfig K σ α)
    (hk : KeepsAnnotations h L) (createFunc : Option (Except Err T)) (maps : AnnotationMaps α)
    (bs : List (List (K × ι))) (hb : ∀ b ∈ bs, b ≠ []) :
    ∀ (r : Nat) (m : OMap K (Est σ)), 0 < r → (∀ k e, m.find? k = some e → L.get e.inner = maps) →
    let R := (grainXf (fitXf h)).execAll ⟨true, some (startOf h L c maps), m⟩ (bs.flatten.take r)
    (R.err = none → offer (grainHooks h L c createFunc) bs ⟨.training, false, ⟨maps, m, r⟩⟩
      = (.ok (), ⟨if r ≤ bs.flatten.length then .finished else .training, false,
        ⟨maps, R.next.transformers, r - bs.flatten.length⟩⟩)) ∧
    (∀ x, R.err = some x → (offer (grainHooks h L c createFunc) bs ⟨.training, false, ⟨maps, m, r⟩⟩).1 = .error x) := by
  induction bs with
  | nil =>
    intro r m hr hm
    have : ¬ r ≤ 0 := by omega
    simp [Xf.execAll, offer, this]
  | cons b bs ih =>
    intro r m hr hm
    have hne : ¬ b.length = 0 := fun h => hb b (by simp) (List.length_eq_zero_iff.1 h)
    have hb' : ∀ b ∈ bs, b ≠ [] := fun x hx => hb x (by simp [hx])
    obtain ⟨s1, s2⟩ := fitAll_sim h L c hk maps r (b.take (min r b.length)) m hm
    have htake : (b :: bs).flatten.take r = b.take (min r b.length) ++ bs.flatten.take (r - b.length) := by
      rw [List.flatten_cons, List.take_append, List.take_eq_take_min]
    have hlen : (b :: bs).flatten.length = b.length + bs.flatten.length := by simp
    simp only
    rw [htake, Xf.execAll_append]
    rcases hR : (grainXf (fitXf h)).execAll ⟨true, some (startOf h L c maps), m⟩ (b.take (min r b.length))
      with ⟨o, _ | x, g'⟩
    · rw [hR] at s1 s2
      obtain ⟨s3, s4⟩ := s1 rfl
      have hcr : g' = ⟨true, some (startOf h L c maps), g'.transformers⟩ := by
        have h1 := (C37_execute (fitXf h) (b.take (min r b.length)) ⟨true, some (startOf h L c maps), m⟩).2.2
        rw [hR] at h1
        have h2 : ∀ xs (g : GrainTransformer K (Est σ)), ((grainXf (fitXf h)).execAll g xs).next.had = g.had := by
          intro xs
          induction xs with
          | nil => intro g; rfl
          | cons x xs ih =>
            intro g
            simp only [Xf.execAll]
            have hx : ((grainXf (fitXf h)).exec g x).next.had = g.had := by
              show (GrainTransformer.exec (fitXf h) g x).next.had = g.had
              unfold GrainTransformer.exec
              rcases g.transformer x.1 with _ | _ <;> rfl
            rcases hE : (grainXf (fitXf h)).exec g x with ⟨o, _ | e, g2⟩
            · rw [hE] at hx
              simp only at hx ⊢
              rw [ih g2, hx]
            · rw [hE] at hx
              exact hx
        have h3 := h2 (b.take (min r b.length)) ⟨true, some (startOf h L c maps), m⟩
        rw [hR] at h3
        obtain ⟨a1, a2, a3⟩ := g'
        simp only at h1 h3
        rw [h1, h3]
      have hfit : Est.fit (grainHooks h L c createFunc) (some b) ⟨.training, false, ⟨maps, m, r⟩⟩
          = (.ok (if r - min r b.length ≠ 0 then .continue else .complete),
            ⟨if r - min r b.length ≠ 0 then .training else .finished, false,
              ⟨maps, g'.transformers, r - min r b.length⟩⟩) := by
        unfold Est.fit
        simp only [ne_eq, not_true_eq_false, if_false, hne]
        have : (grainHooks h L c createFunc).fit b ⟨maps, m, r⟩
            = (.ok (if r - min r b.length ≠ 0 then .continue else .complete),
              ⟨maps, g'.transformers, r - min r b.length⟩) := by
          simp only [grainHooks, s3]
        rw [this]
        by_cases hz : r - min r b.length = 0
        · simp [hz]
        · simp [hz]
      simp only
      simp only [offer, if_true, hfit]
      by_cases hz : r ≤ b.length
      · -- the cap is reached
        have h0 : r - min r b.length = 0 := by omega
        have h1 : r - b.length = 0 := by omega
        have hdone : ∀ bs : List (List (K × ι)), offer (grainHooks h L c createFunc) bs
            ⟨.finished, false, ⟨maps, g'.transformers, 0⟩⟩ = (.ok (), ⟨.finished, false, ⟨maps, g'.transformers, 0⟩⟩) := by
          intro bs
          cases bs <;> simp [offer]
        rw [h0, h1]
        simp only [List.take_zero, Xf.execAll, ne_eq, not_true_eq_false, if_false, hdone]
        refine ⟨fun _ => ?_, by simp⟩
        rw [if_pos (by omega)]
        congr 3
        omega
      · have h0 : r - min r b.length = r - b.length := by omega
        have h1 : r - b.length ≠ 0 := by omega
        obtain ⟨i1, i2⟩ := ih hb' (r - b.length) g'.transformers (by omega) s4
        rw [← hcr] at i1 i2
        rw [h0]
        simp only [ne_eq, h1, not_false_eq_true, if_true]
        rcases hB : (grainXf (fitXf h)).execAll g' (bs.flatten.take (r - b.length)) with ⟨o2, e2, g2⟩
        rw [hB] at i1 i2
        simp only at i1 i2
        refine ⟨fun he => ?_, fun x he => ?_⟩
        · rw [i1 he, hlen]
          congr 1
          have : (r - b.length ≤ bs.flatten.length) ↔ r ≤ b.length + bs.flatten.length := by omega
          simp only [this]
          congr 2
          omega
        · exact i2 x he
    · rw [hR] at s1 s2
      simp only [reduceCtorEq, false_implies, Option.some.injEq, true_and]
      rintro _ rfl
      have hs := s2 x rfl
      have hfit : (Est.fit (grainHooks h L c createFunc) (some b) ⟨.training, false, ⟨maps, m, r⟩⟩).1 = .error x := by
        unfold Est.fit
        simp only [ne_eq, not_true_eq_false, if_false, hne]
        have : ((grainHooks h L c createFunc).fit b ⟨maps, m, r⟩).1 = .error x := by
          simp only [grainHooks]
          rcases hF : GrainEst.fitAll h L c (b.take (min r b.length)) ⟨maps, m, r⟩ with ⟨_ | _, g2⟩
          · rw [hF] at hs; simp only at hs; rw [hs]
          · rw [hF] at hs; cases hs
        rcases hF : (grainHooks h L c createFunc).fit b ⟨maps, m, r⟩ with ⟨_ | _, g2⟩
        · rw [hF] at this; simp only at this; rw [this]
        · rw [hF] at this; cases this
      simp only [offer, if_true]
      rcases hF : Est.fit (grainHooks h L c createFunc) (some b) ⟨.training, false, ⟨maps, m, r⟩⟩ with ⟨_ | _, g2⟩
      · rw [hF] at hfit; simp only at hfit; rw [hfit]
      · rw [hF] at hfit; cases hfit

/-! ### Completion -/

private theorem emplace_eq_set [LinearOrder K] {V : Type} (m : OMap K V) (k : K) (v : V) (h : m.find? k = none) :
    m.emplace k v = m.set k v := by
  obtain ⟨l, hl⟩ := m
  simp only [OMap.emplace, OMap.set, OMap.mk.injEq, OMap.find?, Option.map_eq_none_iff] at h ⊢
  clear hl
  induction l with
  | nil => rfl
  | cons a l ih =>
    obtain ⟨k', v'⟩ := a
    simp only [emplaceSorted, setSorted]
    by_cases hk : k = k'
    · subst hk; simp at h
    · rw [List.find?_cons_of_neg (by simpa using Ne.symm hk)] at h
      rw [if_neg hk, if_neg hk, ih h]

private theorem scan_same [LinearOrder K] (name : String) (k : K) (sizes : List Nat) :
    ∀ (i : Nat) (s : GrainScan K α), (∀ (j : Nat) n, sizes[j]? = some n → (s.maps.getD (i + j) []).length = n) →
    scanColumns name k sizes i s = (.ok (), s) := by
  induction sizes with
  | nil => intro i s _; rfl
  | cons n sizes ih =>
    intro i s hs
    have h0 := hs 0 n rfl
    simp only [scanColumns]
    rw [if_neg (by simpa using h0)]
    apply ih
    intro j n' hj
    have := hs (j + 1) n' (by simpa using hj)
    rw [show i + 1 + j = i + (j + 1) by omega]
    exact this

private theorem addToColumn_absent (name : String) (a : α) (l : List (String × List α))
    (h : ∀ e ∈ l, e.1 ≠ name) : addToColumn name a l = l ++ [(name, [a])] := by
  induction l with
  | nil => rfl
  | cons e l ih =>
    obtain ⟨n, as⟩ := e
    have h1 : n ≠ name := h (n, as) (by simp)
    simp only [addToColumn, if_neg h1, List.cons_append]
    rw [ih (fun e he => h e (by simp [he]))]

private theorem scan_found [LinearOrder K] (name : String) (k : K) (maps : AnnotationMaps α) (col : Nat)
    (hcol : col < maps.length) (habs : ∀ e ∈ maps.getD col [], e.1 ≠ name) (a : α) (found : OMap K α) (c : Nat)
    (hc : found.entries.length ≠ 0 → c = col) :
    ∀ (d i : Nat), i + d = col →
    scanColumns name k ((maps.map List.length).drop i) i ⟨maps.modify col (addToColumn name a), found, c, false⟩
      = (.ok (), ⟨maps, found.emplace k a, col, true⟩) := by
  have hget : ∀ j, (maps.modify col (addToColumn name a)).getD j []
      = if j = col then (maps.getD col []) ++ [(name, [a])] else maps.getD j [] := by
    intro j
    rw [List.getD_eq_getElem?_getD, List.getElem?_modify]
    by_cases hj : j = col
    · subst hj
      rw [if_pos rfl]
      have hx : maps[j]? = some (maps.getD j []) := by
        rw [List.getD_eq_getElem?_getD, List.getElem?_eq_getElem hcol]
        rfl
      rw [hx]
      simp only [if_true]
      show addToColumn name a (maps.getD j []) = _
      rw [addToColumn_absent _ _ _ habs]
    · have : ¬ col = j := fun h => hj h.symm
      rw [if_neg hj]
      simp only [this, if_false]
      rw [List.getD_eq_getElem?_getD]
      rcases maps[j]? with _ | _ <;> rfl
  intro d
  induction d with
  | zero =>
    intro i hi
    have hi : i = col := by omega
    subst hi
    have hdrop : (maps.map List.length).drop i = (maps.getD i []).length :: (maps.map List.length).drop (i + 1) := by
      rw [List.drop_eq_getElem_cons (by simpa using hcol)]
      congr 1
      rw [List.getElem_map, List.getD_eq_getElem?_getD, List.getElem?_eq_getElem hcol]
      rfl
    have hfind : ((maps.getD i []) ++ [(name, [a])]).find? (fun e => e.1 == name) = some (name, [a]) := by
      rw [List.find?_append, List.find?_eq_none.2 (by intro e he; simpa using habs e he)]
      simp
    have hfilter : ((maps.getD i []) ++ [(name, [a])]).filter (fun e => !(e.1 == name)) = maps.getD i [] := by
      rw [List.filter_append, List.filter_eq_self.2 (by intro e he; simpa using habs e he)]
      simp
    have hback : (maps.modify i (addToColumn name a)).set i (maps.getD i []) = maps := by
      apply List.ext_getElem?
      intro j
      rw [List.getElem?_set, List.length_modify]
      by_cases hj : i = j
      · subst hj
        rw [if_pos rfl, if_pos hcol, List.getD_eq_getElem?_getD, List.getElem?_eq_getElem hcol]
        rfl
      · rw [if_neg hj, List.getElem?_modify]
        simp only [hj, if_false]
        rcases maps[j]? with _ | _ <;> rfl
    rw [hdrop]
    simp only [scanColumns, hget, if_true, hfind, hfilter, hback]
    rw [if_pos (by simp), if_neg (by simp), if_neg (by simp), if_neg (by
      intro ⟨h1, h2⟩
      exact h2 (hc h1))]
    apply scan_same
    intro j n hj
    rw [List.getElem?_drop, List.getElem?_map] at hj
    simp only
    rw [List.getD_eq_getElem?_getD]
    rcases hm : maps[i + 1 + j]? with _ | x
    · rw [hm] at hj; simp at hj
    · rw [hm] at hj
      simpa using hj
  | succ d ih =>
    intro i hi
    have hil : i < maps.length := by omega
    have hdrop : (maps.map List.length).drop i = (maps.getD i []).length :: (maps.map List.length).drop (i + 1) := by
      rw [List.drop_eq_getElem_cons (by simpa using hil)]
      congr 1
      rw [List.getElem_map, List.getD_eq_getElem?_getD, List.getElem?_eq_getElem hil]
      rfl
    rw [hdrop]
    have hic : ¬ i = col := by omega
    simp only [scanColumns, hget, hic, if_false, ne_eq, not_true_eq_false]
    exact ih (i + 1) (by omega)

/-- Completing the grains one after the other. -/
private theorem complete_grains [LinearOrder K] (h : Hooks σ ι T) (L : StoreLens σ α) (c : GrainConfig K σ α)
    (hk : KeepsAnnotations h L) (maps : AnnotationMaps α) (col : Nat) (hcol : col < maps.length)
    (habs : ∀ e ∈ maps.getD col [], e.1 ≠ c.name) (done : K → Est σ) (a : K → Option α) (r : Nat)
    (es : List (K × Est σ)) :
    ∀ (m : OMap K (Est σ)) (found : OMap K α) (cc : Nat), es.Pairwise (fun a b => a.1 < b.1) →
    (∀ e ∈ es, L.get e.2.inner = maps ∧ Est.completeTraining h e.2 = (.ok (), done e.1) ∧
      L.get (done e.1).inner = published col c.name maps (a e.1)) →
    (∀ e ∈ es, found.find? e.1 = none) → (found.entries.length ≠ 0 → cc = col) →
    ∃ found' cc' m', completeGrains h L c (maps.map List.length) es ⟨maps, m, r⟩ found cc
        = (.ok (found', cc'), ⟨maps, m', r⟩) ∧
      (found'.entries.length ≠ 0 → cc' = col) ∧
      ∀ k, (k ∈ es.map (·.1) → m'.find? k = some (done k) ∧ found'.find? k = a k) ∧
        (k ∉ es.map (·.1) → m'.find? k = m.find? k ∧ found'.find? k = found.find? k) := by
  induction es with
  | nil => intro m found cc _ _ _ hcc; exact ⟨found, cc, m, rfl, hcc, fun k => ⟨by simp, fun _ => ⟨rfl, rfl⟩⟩⟩
  | cons e es ih =>
    intro m found cc hs hes hf hcc
    obtain ⟨k, e⟩ := e
    rw [List.pairwise_cons] at hs
    obtain ⟨h1, h2, h3⟩ := hes (k, e) (by simp)
    simp only at h1 h2 h3
    have hes' : ∀ e ∈ es, L.get e.2.inner = maps ∧ Est.completeTraining h e.2 = (.ok (), done e.1) ∧
      L.get (done e.1).inner = published col c.name maps (a e.1) := fun x hx => hes x (by simp [hx])
    have hnk : k ∉ es.map (·.1) := by
      intro hm
      obtain ⟨e2, he2, rfl⟩ := List.mem_map.1 hm
      exact lt_irrefl _ (hs.1 e2 he2)
    have hne : ∀ e2 ∈ es, e2.1 ≠ k := fun e2 he2 => (ne_of_lt (hs.1 e2 he2)).symm
    -- one grain
    have hone : ∃ f1 c1 ad, scanColumns c.name k (maps.map List.length) 0
          ⟨published col c.name maps (a k), found, cc, false⟩ = (.ok (), ⟨maps, f1, c1, ad⟩) ∧
        (f1.entries.length ≠ 0 → c1 = col) ∧ f1.find? k = a k ∧ ∀ j, j ≠ k → f1.find? j = found.find? j := by
      rcases ha : a k with _ | v
      · refine ⟨found, cc, false, ?_, hcc, by rw [hf (k, e) (by simp)], fun _ _ => rfl⟩
        apply scan_same
        intro j n hj
        rw [List.getElem?_map] at hj
        simp only [published, Nat.zero_add]
        rw [List.getD_eq_getElem?_getD]
        rcases hm : maps[j]? with _ | x
        · rw [hm] at hj; simp at hj
        · rw [hm] at hj
          simpa using hj
      · have hp : published col c.name maps (some v) = maps.modify col (addToColumn c.name v) := by
          simp only [published, addAnnotation]
          rw [if_neg (by omega)]
        have hs := scan_found c.name k maps col hcol habs v found cc hcc col 0 (by omega)
        rw [List.drop_zero] at hs
        refine ⟨found.emplace k v, col, true, by rw [hp]; exact hs, fun _ => rfl, ?_, ?_⟩
        · rw [emplace_eq_set _ _ _ (hf (k, e) (by simp)), OMap.find?_set_self]
        · intro j hj
          rw [emplace_eq_set _ _ _ (hf (k, e) (by simp)), OMap.find?_set_other _ _ _ _ hj]
    obtain ⟨f1, c1, ad, o1, o2, o3, o4⟩ := hone
    obtain ⟨found', cc', m', i1, i2, i3⟩ := ih (m.set k (done k)) f1 c1 hs.2 hes'
      (fun e2 he2 => by rw [o4 _ (hne e2 he2)]; exact hf e2 (by simp [he2])) o2
    refine ⟨found', cc', m', ?_, i2, fun j => ⟨fun hj => ?_, fun hj => ?_⟩⟩
    · simp only [completeGrains, onGrain, set_inner L h hk e maps h1, h2, h3, o1, i1]
    · rw [List.map_cons, List.mem_cons] at hj
      by_cases hjk : j = k
      · subst hjk
        obtain ⟨j1, j2⟩ := (i3 j).2 hnk
        rw [j1, j2, OMap.find?_set_self, o3]
        exact ⟨rfl, rfl⟩
      · exact (i3 j).1 (hj.resolve_left hjk)
    · rw [List.map_cons, List.mem_cons, not_or] at hj
      obtain ⟨j1, j2⟩ := (i3 j).2 hj.2
      rw [j1, j2, OMap.find?_set_other _ _ _ _ hj.1, o4 j hj.1]
      exact ⟨rfl, rfl⟩

/-- An exception while the rows are executed is the exception of one of the grains. -/
private theorem grain_error [LinearOrder K] {I O : Type} (X : Xf T I O) (x : Err) (xs : List (K × I)) :
    ∀ g : GrainTransformer K T, ((grainXf X).execAll g xs).err = some x →
    ∃ k, ofGrain k xs ≠ [] ∧ (g.transformer k = .error x ∨
      ∃ t, g.transformer k = .ok t ∧ (X.execAll t (ofGrain k xs)).err = some x) := by
  induction xs with
  | nil => intro g h; cases h
  | cons r xs ih =>
    intro g h
    obtain ⟨k, i⟩ := r
    have hx : (grainXf X).exec g (k, i) = GrainTransformer.exec X g (k, i) := rfl
    simp only [Xf.execAll, hx] at h
    unfold GrainTransformer.exec at h
    rcases ht : g.transformer k with y | t
    · simp only [ht] at h
      cases h
      exact ⟨k, by rw [ofGrain_cons_self]; simp, .inl ht⟩
    · simp only [ht] at h
      rcases hE : X.exec t i with ⟨o, _ | y, t'⟩
      · simp only [hE] at h
        obtain ⟨j, j1, j2⟩ := ih _ h
        by_cases hjk : j = k
        · subst hjk
          have hj : ({ g with transformers := g.transformers.set j t' } : GrainTransformer K T).transformer j = .ok t' := by
            unfold GrainTransformer.transformer
            rw [OMap.find?_set_self]
          rw [hj] at j2
          rcases j2 with j2 | ⟨t2, j2, j3⟩
          · cases j2
          · cases j2
            refine ⟨j, by rw [ofGrain_cons_self]; simp, .inr ⟨t, ht, ?_⟩⟩
            rw [ofGrain_cons_self]
            simp only [Xf.execAll, hE]
            exact j3
        · have hj : ({ g with transformers := g.transformers.set k t' } : GrainTransformer K T).transformer j
              = g.transformer j := by
            unfold GrainTransformer.transformer
            rw [OMap.find?_set_other _ _ _ _ hjk]
          rw [hj] at j2
          have ho : ofGrain j ((k, i) :: xs) = ofGrain j xs := by
            simp [ofGrain, Ne.symm hjk]
          exact ⟨j, by rw [ho]; exact j1, by rw [ho]; exact j2⟩
      · simp only [hE] at h
        cases h
        refine ⟨k, by rw [ofGrain_cons_self]; simp, .inr ⟨t, ht, ?_⟩⟩
        rw [ofGrain_cons_self]
        simp only [Xf.execAll, hE]

/-- One grain of the loop that completes the grains. -/
private theorem scan_one [LinearOrder K] (c : GrainConfig K σ α) (maps : AnnotationMaps α) (col : Nat)
    (hcol : col < maps.length) (habs : ∀ e ∈ maps.getD col [], e.1 ≠ c.name) (k : K) (a : Option α)
    (found : OMap K α) (cc : Nat) (hcc : found.entries.length ≠ 0 → cc = col) :
    ∃ f1 c1 ad, scanColumns c.name k (maps.map List.length) 0 ⟨published col c.name maps a, found, cc, false⟩
      = (.ok (), ⟨maps, f1, c1, ad⟩) ∧ (f1.entries.length ≠ 0 → c1 = col) := by
  rcases a with _ | v
  · refine ⟨found, cc, false, ?_, hcc⟩
    apply scan_same
    intro j n hj
    rw [List.getElem?_map] at hj
    simp only [published, Nat.zero_add]
    rw [List.getD_eq_getElem?_getD]
    rcases hm : maps[j]? with _ | x
    · rw [hm] at hj; simp at hj
    · rw [hm] at hj
      simpa using hj
  · have hp : published col c.name maps (some v) = maps.modify col (addToColumn c.name v) := by
      simp only [published, addAnnotation]
      rw [if_neg (by omega)]
    have hs := scan_found c.name k maps col hcol habs v found cc hcc col 0 (by omega)
    rw [List.drop_zero] at hs
    exact ⟨found.emplace k v, col, true, by rw [hp]; exact hs, fun _ => rfl⟩

/-- If completing one of the grains throws, so does completing all. -/
private theorem complete_throws [LinearOrder K] (h : Hooks σ ι T) (L : StoreLens σ α) (c : GrainConfig K σ α)
    (hk : KeepsAnnotations h L) (maps : AnnotationMaps α) (col : Nat) (hcol : col < maps.length)
    (habs : ∀ e ∈ maps.getD col [], e.1 ≠ c.name) (r : Nat) (es : List (K × Est σ)) :
    ∀ (m : OMap K (Est σ)) (found : OMap K α) (cc : Nat),
    (∀ e ∈ es, L.get e.2.inner = maps ∧ ∀ d, Est.completeTraining h e.2 = (.ok (), d) →
      ∃ a, L.get d.inner = published col c.name maps a) →
    (∃ e ∈ es, ∃ x, (Est.completeTraining h e.2).1 = .error x) → (found.entries.length ≠ 0 → cc = col) →
    ∃ e ∈ es, ∃ x, (Est.completeTraining h e.2).1 = .error x ∧
      (completeGrains h L c (maps.map List.length) es ⟨maps, m, r⟩ found cc).1 = .error x := by
  induction es with
  | nil => intro m found cc _ he; obtain ⟨_, he, _⟩ := he; cases he
  | cons e es ih =>
    intro m found cc hes hex hcc
    obtain ⟨k, e⟩ := e
    obtain ⟨h1, h2⟩ := hes (k, e) (by simp)
    simp only at h1 h2
    simp only [completeGrains, onGrain, set_inner L h hk e maps h1]
    rcases hC : Est.completeTraining h e with ⟨x | u, d⟩
    · exact ⟨(k, e), by simp, x, by rw [hC], rfl⟩
    · cases u
      obtain ⟨a, ha⟩ := h2 d hC
      obtain ⟨f1, c1, ad, o1, o2⟩ := scan_one c maps col hcol habs k a found cc hcc
      simp only [ha, o1]
      have hex' : ∃ e ∈ es, ∃ x, (Est.completeTraining h e.2).1 = .error x := by
        obtain ⟨e2, he2, x, hx⟩ := hex
        rcases List.mem_cons.1 he2 with rfl | he2
        · simp only at hx
          rw [hC] at hx
          cases hx
        · exact ⟨e2, he2, x, hx⟩
      obtain ⟨e2, he2, x, hx, hy⟩ := ih ({ maps := maps, estimators := m.set k d, remaining := r } : GrainEst K σ α).estimators f1 c1
        (fun x hx => hes x (by simp [hx])) hex' o2
      exact ⟨e2, by simp [he2], x, hx, hy⟩

/-! ### The theorems -/

private theorem startOf_alone [LinearOrder K] (h : Hooks σ ι T) (L : StoreLens σ α) (c : GrainConfig K σ α)
    (maps : AnnotationMaps α) (rows : List ι) (e : Est σ)
    (ht : trainAlone h rows (Est.new (L.set maps c.fresh)) = (.ok (), e)) :
    ∃ e0 e1, startOf h L c maps = .ok e0 ∧ fitRows h rows e0 = (.ok (), e1) ∧
      Est.completeTraining h e1 = (.ok (), e) := by
  unfold trainAlone at ht
  unfold startOf
  rcases hB : Est.beginTraining h (Est.new (L.set maps c.fresh)) with ⟨_ | u, e0⟩
  · rw [hB] at ht; cases ht
  · cases u
    rw [hB] at ht
    simp only at ht
    rcases hF : fitRows h rows e0 with ⟨_ | u, e1⟩
    · rw [hF] at ht; cases ht
    · cases u
      rw [hF] at ht
      exact ⟨e0, e1, rfl, hF, ht⟩

/-- **C37 (training).**  Let the grain estimator be trained on any batches, with any interleaving of the grains, and let
`rows` be the rows up to the limit.  If every grain with rows can be trained alone on its own rows (a new estimator, the
same annotations), giving `e k` and publishing `a k` (or nothing), then training succeeds, the estimator of every grain
with rows ends up as `e k`, there are no others, and the annotations published by the grains are published together as
one annotation of the grain estimator, which maps each grain to its own. -/
theorem C37_train [LinearOrder K] (h : Hooks σ ι T) (L : StoreLens σ α) (c : GrainConfig K σ α)
    (hk : KeepsAnnotations h L) (hi : c.inferenceOnly = false) (createFunc : Option (Except Err T))
    (cap : Nat) (hcap : 0 < cap) (maps : AnnotationMaps α) (col : Nat) (hcol : col < maps.length)
    (habs : ∀ e ∈ maps.getD col [], e.1 ≠ c.name)
    (batches : List (List (K × ι))) (hne : ∀ b ∈ batches, b ≠ [])
    (e : K → Est σ) (a : K → Option α)
    (halone : ∀ k, ofGrain k (batches.flatten.take cap) ≠ [] →
      trainAlone h (ofGrain k (batches.flatten.take cap)) (Est.new (L.set maps c.fresh)) = (.ok (), e k) ∧
      L.get (e k).inner = published col c.name maps (a k)) :
    ∃ g, trainOnce (grainHooks h L c createFunc) batches (GrainEst.new maps cap) = (.ok (), ⟨.completed, false, g⟩) ∧
      (∀ k, g.estimators.find? k = if ofGrain k (batches.flatten.take cap) ≠ [] then some (e k) else none) ∧
      ∃ found : OMap K α,
        (∀ k, found.find? k = if ofGrain k (batches.flatten.take cap) ≠ [] then a k else none) ∧
        g.maps = published col ("Grain" ++ c.name) maps
          (if found.entries.length = 0 then none else some (c.wrap found)) := by
  obtain ⟨o1, _⟩ := offer_grain h L c hk createFunc maps batches hne cap .empty hcap (by simp [OMap.find?_empty])
  obtain ⟨x1, x2, _⟩ := C37_execute (fitXf h) (batches.flatten.take cap)
    (⟨true, some (startOf h L c maps), .empty⟩ : GrainTransformer K (Est σ))
  have htr : ∀ k, (⟨true, some (startOf h L c maps), .empty⟩ : GrainTransformer K (Est σ)).transformer k
      = startOf h L c maps := fun k => rfl
  generalize hrows : batches.flatten.take cap = rows at *
  have hrun : ∀ k, ofGrain k rows ≠ [] → ∃ e0, startOf h L c maps = .ok e0 ∧
      ((fitXf h).execAll e0 (ofGrain k rows)).err = none ∧
      Est.completeTraining h ((fitXf h).execAll e0 (ofGrain k rows)).next = (.ok (), e k) := by
    intro k hkk
    obtain ⟨e0, e1, h1, h2, h3⟩ := startOf_alone h L c maps _ _ (halone k hkk).1
    rw [fitRows_eq] at h2
    rcases hE : (fitXf h).execAll e0 (ofGrain k rows) with ⟨o, er, nx⟩
    rw [hE] at h2
    rcases er with _ | er
    · simp only [Prod.mk.injEq, true_and] at h2
      subst h2
      exact ⟨e0, h1, by rw [hE], by rw [hE]; exact h3⟩
    · cases h2
  have herr : ((grainXf (fitXf h)).execAll ⟨true, some (startOf h L c maps), .empty⟩ rows).err = none := by
    rw [x1]
    intro k hkk
    obtain ⟨e0, h1, h2, _⟩ := hrun k hkk
    exact ⟨e0, by rw [htr]; exact h1, h2⟩
  have x3 := x2 herr
  have o2 := o1 herr
  have smaps := ((fitAll_sim h L c hk maps 0 rows .empty (by simp [OMap.find?_empty])).1 herr).2
  rcases hR : (grainXf (fitXf h)).execAll ⟨true, some (startOf h L c maps), .empty⟩ rows with ⟨oo, ee, gg⟩
  rw [hR] at x3 o2 smaps
  simp only at x3 o2 smaps
  -- the estimators after fitting
  have hest : ∀ k es, gg.transformers.find? k = some es → ofGrain k rows ≠ [] ∧
      Est.completeTraining h es = (.ok (), e k) := by
    intro k es hes
    by_cases hkk : ofGrain k rows = []
    · rw [((x3 k).1 hkk).2, OMap.find?_empty] at hes
      cases hes
    · obtain ⟨e0, h1, h2, h3⟩ := hrun k hkk
      rw [((x3 k).2 e0 hkk (by rw [htr]; exact h1)).2] at hes
      cases hes
      exact ⟨hkk, h3⟩
  have hin : ∀ k, k ∈ gg.transformers.entries.map (·.1) ↔ ofGrain k rows ≠ [] := by
    intro k
    constructor
    · intro hm
      obtain ⟨p, hp, rfl⟩ := List.mem_map.1 hm
      exact (hest p.1 p.2 (OMap.find?_of_mem _ _ _ hp)).1
    · intro hkk
      obtain ⟨e0, h1, h2, h3⟩ := hrun k hkk
      have := ((x3 k).2 e0 hkk (by rw [htr]; exact h1)).2
      exact List.mem_map.2 ⟨_, OMap.mem_of_find? _ _ _ this, rfl⟩
  obtain ⟨found, cc, m', c1, c2, c3⟩ := complete_grains h L c hk maps col hcol habs e a (cap - batches.flatten.length)
    gg.transformers.entries gg.transformers .empty 0 gg.transformers.sorted
    (by
      intro p hp
      have h1 := OMap.find?_of_mem _ _ _ hp
      obtain ⟨h2, h3⟩ := hest _ _ h1
      exact ⟨smaps _ _ h1, h3, (halone _ h2).2⟩)
    (by simp [OMap.find?_empty]) (by simp [OMap.empty])
  -- the life cycle
  have hbeg : Est.beginTraining (grainHooks h L c createFunc) (GrainEst.new maps cap)
      = (.ok (), ⟨.training, false, ⟨maps, .empty, cap⟩⟩) := by
    simp only [Est.beginTraining, GrainEst.new, Est.new, grainHooks, hi]
    have : (cap != 0) = true := by simp; omega
    simp [this]
  have hdata : Est.onDataCompleted (grainHooks h L c createFunc)
      ⟨if cap ≤ batches.flatten.length then .finished else .training, false,
        ⟨maps, gg.transformers, cap - batches.flatten.length⟩⟩
      = (.ok (), ⟨.finished, false, ⟨maps, gg.transformers, cap - batches.flatten.length⟩⟩) := by
    by_cases hc : cap ≤ batches.flatten.length
    · rw [if_pos hc]; simp [Est.onDataCompleted]
    · rw [if_neg hc]; simp [Est.onDataCompleted, grainHooks]
  refine ⟨⟨published col ("Grain" ++ c.name) maps (if found.entries.length = 0 then none else some (c.wrap found)), m',
    cap - batches.flatten.length⟩, ?_, fun k => ?_, found, fun k => ?_, rfl⟩
  · unfold trainOnce
    rw [hbeg]
    simp only [o2, hdata, Est.completeTraining]
    rw [if_neg (by simp)]
    simp only [grainHooks, c1]
    by_cases hf : found.entries.length = 0
    · simp [hf, published]
    · have hcc := c2 hf
      subst hcc
      have : addAnnotation (some (c.wrap found)) cc ("Grain" ++ c.name) maps
          = (.ok (), (addAnnotation (some (c.wrap found)) cc ("Grain" ++ c.name) maps).2) := by
        simp only [addAnnotation]
        rw [if_neg (by omega)]
      simp only [ne_eq, hf, not_false_eq_true, if_true, if_false, published]
      rw [this]
  · by_cases hkk : ofGrain k rows ≠ []
    · rw [if_pos hkk]
      exact ((c3 k).1 ((hin k).2 hkk)).1
    · rw [if_neg hkk]
      obtain ⟨h1, _⟩ := (c3 k).2 (fun hm => hkk ((hin k).1 hm))
      rw [h1, ((x3 k).1 (Decidable.of_not_not hkk)).2]
      rfl
  · by_cases hkk : ofGrain k rows ≠ []
    · rw [if_pos hkk]
      exact ((c3 k).1 ((hin k).2 hkk)).2
    · rw [if_neg hkk]
      exact ((c3 k).2 (fun hm => hkk ((hin k).1 hm))).2

/-- **C37 (training, exceptions).**  If `begin_training` or some `fit` of a grain trained alone on its rows throws (or
asks to start over), so does training the grains together. -/
theorem C37_train_throws [LinearOrder K] (h : Hooks σ ι T) (L : StoreLens σ α) (c : GrainConfig K σ α)
    (hk : KeepsAnnotations h L) (hi : c.inferenceOnly = false) (createFunc : Option (Except Err T))
    (cap : Nat) (hcap : 0 < cap) (maps : AnnotationMaps α)
    (batches : List (List (K × ι))) (hne : ∀ b ∈ batches, b ≠ []) (k : K)
    (hrow : ofGrain k (batches.flatten.take cap) ≠ [])
    (hthrow : ∀ e0, Est.beginTraining h (Est.new (L.set maps c.fresh)) = (.ok (), e0) →
      ∃ x, (fitRows h (ofGrain k (batches.flatten.take cap)) e0).1 = .error x) :
    ∃ x, (trainOnce (grainHooks h L c createFunc) batches (GrainEst.new maps cap)).1 = .error x := by
  obtain ⟨_, o1⟩ := offer_grain h L c hk createFunc maps batches hne cap .empty hcap (by simp [OMap.find?_empty])
  obtain ⟨x1, _, _⟩ := C37_execute (fitXf h) (batches.flatten.take cap)
    (⟨true, some (startOf h L c maps), .empty⟩ : GrainTransformer K (Est σ))
  rcases hE : ((grainXf (fitXf h)).execAll (⟨true, some (startOf h L c maps), .empty⟩ : GrainTransformer K (Est σ))
    (batches.flatten.take cap)).err with _ | x
  · obtain ⟨e0, h1, h2⟩ := x1.1 hE k hrow
    have h3 : startOf h L c maps = .ok e0 := h1
    unfold startOf at h3
    rcases hB : Est.beginTraining h (Est.new (L.set maps c.fresh)) with ⟨_ | u, e2⟩
    · rw [hB] at h3; cases h3
    · cases u
      rw [hB] at h3
      cases h3
      obtain ⟨x, hx⟩ := hthrow e0 hB
      rw [fitRows_eq, h2] at hx
      cases hx
  · have hbeg : Est.beginTraining (grainHooks h L c createFunc) (GrainEst.new maps cap)
        = (.ok (), ⟨.training, false, ⟨maps, .empty, cap⟩⟩) := by
      simp only [Est.beginTraining, GrainEst.new, Est.new, grainHooks, hi]
      have : (cap != 0) = true := by simp; omega
      simp [this]
    refine ⟨x, ?_⟩
    have := o1 x hE
    unfold trainOnce
    rw [hbeg]
    simp only
    rcases hF : offer (grainHooks h L c createFunc) batches ⟨.training, false, ⟨maps, .empty, cap⟩⟩ with ⟨_ | _, g2⟩
    · rw [hF] at this; simp only at this; rw [this]
    · rw [hF] at this; cases this

/-- **C37 (training, exceptions at completion).**  If training some grain alone on its rows throws, at any point up to
and including `complete_training`, so does
training the grains together, with an exception of one of the grains trained alone. -/
theorem C37_alone_throws [LinearOrder K] (h : Hooks σ ι T) (L : StoreLens σ α) (c : GrainConfig K σ α)
    (hk : KeepsAnnotations h L) (hi : c.inferenceOnly = false) (createFunc : Option (Except Err T))
    (cap : Nat) (hcap : 0 < cap) (maps : AnnotationMaps α) (col : Nat) (hcol : col < maps.length)
    (habs : ∀ e ∈ maps.getD col [], e.1 ≠ c.name)
    (batches : List (List (K × ι))) (hne : ∀ b ∈ batches, b ≠ [])
    (hpub : ∀ k e, ofGrain k (batches.flatten.take cap) ≠ [] →
      trainAlone h (ofGrain k (batches.flatten.take cap)) (Est.new (L.set maps c.fresh)) = (.ok (), e) →
      ∃ a, L.get e.inner = published col c.name maps a)
    (k : K) (hrow : ofGrain k (batches.flatten.take cap) ≠ []) (x : Err)
    (hthrow : (trainAlone h (ofGrain k (batches.flatten.take cap)) (Est.new (L.set maps c.fresh))).1 = .error x) :
    ∃ j y, ofGrain j (batches.flatten.take cap) ≠ [] ∧
      (trainAlone h (ofGrain j (batches.flatten.take cap)) (Est.new (L.set maps c.fresh))).1 = .error y ∧
      (trainOnce (grainHooks h L c createFunc) batches (GrainEst.new maps cap)).1 = .error y := by
  obtain ⟨o1, o1'⟩ := offer_grain h L c hk createFunc maps batches hne cap .empty hcap (by simp [OMap.find?_empty])
  obtain ⟨x1, x2, _⟩ := C37_execute (fitXf h) (batches.flatten.take cap)
    (⟨true, some (startOf h L c maps), .empty⟩ : GrainTransformer K (Est σ))
  have htr : ∀ k, (⟨true, some (startOf h L c maps), .empty⟩ : GrainTransformer K (Est σ)).transformer k
      = startOf h L c maps := fun k => rfl
  have hbeg : Est.beginTraining (grainHooks h L c createFunc) (GrainEst.new maps cap)
      = (.ok (), ⟨.training, false, ⟨maps, .empty, cap⟩⟩) := by
    simp only [Est.beginTraining, GrainEst.new, Est.new, grainHooks, hi]
    have : (cap != 0) = true := by simp; omega
    simp [this]
  generalize hrows : batches.flatten.take cap = rows at *
  rcases hE : ((grainXf (fitXf h)).execAll (⟨true, some (startOf h L c maps), .empty⟩ : GrainTransformer K (Est σ))
    rows).err with _ | x
  · have x3 := x2 hE
    have o2 := o1 hE
    have x4 := x1.1 hE
    have smaps := ((fitAll_sim h L c hk maps 0 rows .empty (by simp [OMap.find?_empty])).1 hE).2
    rcases hR : (grainXf (fitXf h)).execAll ⟨true, some (startOf h L c maps), .empty⟩ rows with ⟨oo, ee, gg⟩
    rw [hR] at x3 o2 smaps
    simp only at x3 o2 smaps
    have hrun : ∀ k, ofGrain k rows ≠ [] → ∃ e1, gg.transformers.find? k = some e1 ∧
        trainAlone h (ofGrain k rows) (Est.new (L.set maps c.fresh)) = Est.completeTraining h e1 := by
      intro k hkk
      obtain ⟨e0, h1, h2⟩ := x4 k hkk
      rw [htr] at h1
      refine ⟨_, ((x3 k).2 e0 hkk (by rw [htr]; exact h1)).2, ?_⟩
      unfold startOf at h1
      rcases hB : Est.beginTraining h (Est.new (L.set maps c.fresh)) with ⟨_ | u, e2⟩
      · rw [hB] at h1; cases h1
      · cases u
        rw [hB] at h1
        cases h1
        unfold trainAlone
        simp only [hB, fitRows_eq, h2]
    have hdata : Est.onDataCompleted (grainHooks h L c createFunc)
        ⟨if cap ≤ batches.flatten.length then .finished else .training, false,
          ⟨maps, gg.transformers, cap - batches.flatten.length⟩⟩
        = (.ok (), ⟨.finished, false, ⟨maps, gg.transformers, cap - batches.flatten.length⟩⟩) := by
      by_cases hc : cap ≤ batches.flatten.length
      · rw [if_pos hc]; simp [Est.onDataCompleted]
      · rw [if_neg hc]; simp [Est.onDataCompleted, grainHooks]
    obtain ⟨p, hp, y, hpy, hy⟩ := complete_throws h L c hk maps col hcol habs (cap - batches.flatten.length)
      gg.transformers.entries gg.transformers .empty 0
      (by
        intro p hp
        have h1 := OMap.find?_of_mem _ _ _ hp
        refine ⟨smaps _ _ h1, fun d hd => ?_⟩
        have hkk : ofGrain p.1 rows ≠ [] := by
          intro h0
          rw [((x3 p.1).1 h0).2, OMap.find?_empty] at h1
          cases h1
        obtain ⟨e1, h2, h3⟩ := hrun p.1 hkk
        rw [h1] at h2
        cases h2
        exact hpub p.1 d hkk (h3.trans hd))
      (by
        obtain ⟨e1, h2, h3⟩ := hrun k hrow
        rw [h3] at hthrow
        exact ⟨(k, e1), OMap.mem_of_find? _ _ _ h2, _, hthrow⟩)
      (by simp [OMap.empty])
    have h1 := OMap.find?_of_mem _ _ _ hp
    have hkk : ofGrain p.1 rows ≠ [] := by
      intro h0
      rw [((x3 p.1).1 h0).2, OMap.find?_empty] at h1
      cases h1
    obtain ⟨e1, h2, h3⟩ := hrun p.1 hkk
    rw [h1] at h2
    cases h2
    refine ⟨p.1, y, hkk, by rw [h3]; exact hpy, ?_⟩
    unfold trainOnce
    rw [hbeg]
    simp only [o2, hdata, Est.completeTraining]
    rw [if_neg (by simp)]
    simp only [grainHooks]
    rcases hG : completeGrains h L c (maps.map List.length) gg.transformers.entries
      ⟨maps, gg.transformers, cap - batches.flatten.length⟩ .empty 0 with ⟨_ | _, g2⟩
    · rw [hG] at hy
      simp only at hy
      rw [hy]
    · rw [hG] at hy
      cases hy
  · obtain ⟨j, j1, j2⟩ := grain_error (fitXf h) x rows _ hE
    refine ⟨j, x, j1, ?_, ?_⟩
    · rw [htr] at j2
      unfold startOf at j2
      unfold trainAlone
      rcases hB : Est.beginTraining h (Est.new (L.set maps c.fresh)) with ⟨z | u, e2⟩
      · rw [hB] at j2
        rcases j2 with j2 | ⟨t, j2, _⟩
        · cases j2; rfl
        · cases j2
      · cases u
        rw [hB] at j2
        rcases j2 with j2 | ⟨t, j2, j3⟩
        · cases j2
        · cases j2
          simp only [fitRows_eq, j3]
    have := o1' x hE
    unfold trainOnce
    rw [hbeg]
    simp only
    rcases hF : offer (grainHooks h L c createFunc) batches ⟨.training, false, ⟨maps, .empty, cap⟩⟩ with ⟨_ | _, g2⟩
    · rw [hF] at this; simp only at this; rw [this]
    · rw [hF] at this; cases this

private theorem createGrains_spec [LinearOrder K] (h : Hooks σ ι T) (L : StoreLens σ α) (maps : AnnotationMaps α) (r : Nat)
    (t : K → T) (es : List (K × Est σ)) :
    ∀ (m0 : OMap K (Est σ)) (m : OMap K T), es.Pairwise (fun a b => a.1 < b.1) → (∀ e ∈ es, m.find? e.1 = none) →
    (∀ p ∈ es, ∃ e', Est.createTransformer h { p.2 with inner := L.set maps p.2.inner } = (.ok (t p.1), e') ∧
      L.get e'.inner = maps) →
    ∃ m' m1, createGrains h L es ⟨maps, m0, r⟩ m = (.ok m', ⟨maps, m1, r⟩) ∧
      ∀ k, (k ∈ es.map (·.1) → m'.find? k = some (t k)) ∧ (k ∉ es.map (·.1) → m'.find? k = m.find? k) := by
  induction es with
  | nil => intro m0 m _ _ _; exact ⟨m, m0, rfl, fun k => ⟨by simp, fun _ => rfl⟩⟩
  | cons p es ih =>
    intro m0 m hs hf hc
    obtain ⟨k, e⟩ := p
    rw [List.pairwise_cons] at hs
    obtain ⟨e', h1, h2⟩ := hc (k, e) (by simp)
    simp only at h1 h2
    have hne : ∀ e2 ∈ es, e2.1 ≠ k := fun e2 he2 => (ne_of_lt (hs.1 e2 he2)).symm
    have hem := emplace_eq_set m k (t k) (hf (k, e) (by simp))
    obtain ⟨m', m1, i1, i2⟩ := ih (m0.set k e') (m.emplace k (t k)) hs.2
      (fun e2 he2 => by rw [hem, OMap.find?_set_other _ _ _ _ (hne e2 he2)]; exact hf e2 (by simp [he2]))
      (fun e2 he2 => hc e2 (by simp [he2]))
    refine ⟨m', m1, ?_, fun j => ⟨fun hj => ?_, fun hj => ?_⟩⟩
    · simp only [createGrains, onGrain, h1, h2, i1]
    · by_cases hj2 : j ∈ es.map (·.1)
      · exact (i2 j).1 hj2
      · rw [List.map_cons, List.mem_cons] at hj
        have := hj.resolve_right hj2
        simp only at this
        subst this
        rw [(i2 j).2 hj2, hem, OMap.find?_set_self]
    · rw [List.map_cons, List.mem_cons, not_or] at hj
      rw [(i2 j).2 hj.2, hem, OMap.find?_set_other _ _ _ _ hj.1]

/-- **C37 (the transformer).**  If the estimator of every grain can make its transformer `t k` (with the annotations there
now, which it leaves alone), the grain estimator makes a transformer that has exactly these, and the function for new
grains.  Without any grain this function is required. -/
theorem C37_create [LinearOrder K] (h : Hooks σ ι T) (L : StoreLens σ α) (c : GrainConfig K σ α)
    (createFunc : Option (Except Err T)) (g : GrainEst K σ α) (t : K → T)
    (hc : ∀ k e, g.estimators.find? k = some e →
      ∃ e', Est.createTransformer h { e with inner := L.set g.maps e.inner } = (.ok (t k), e') ∧
        L.get e'.inner = g.maps) :
    (((∃ k e, g.estimators.find? k = some e) ∨ createFunc.isSome) →
      ∃ x, (Est.createTransformer (grainHooks h L c createFunc) ⟨.completed, false, g⟩).1 = .ok x ∧
        x.create = createFunc ∧ (x.had = true ↔ ∃ k e, g.estimators.find? k = some e) ∧
        ∀ k, x.transformers.find? k = (g.estimators.find? k).map fun _ => t k) ∧
    ((∀ k, g.estimators.find? k = none) → createFunc = none →
      (Est.createTransformer (grainHooks h L c createFunc) ⟨.completed, false, g⟩).1 = .error .runtimeError) := by
  obtain ⟨m', m1, h1, h2⟩ := createGrains_spec h L g.maps g.remaining t g.estimators.entries g.estimators .empty
    g.estimators.sorted (by simp [OMap.find?_empty])
    (fun p hp => hc p.1 p.2 (OMap.find?_of_mem _ _ _ hp))
  have hin : ∀ k, k ∈ g.estimators.entries.map (·.1) ↔ ∃ e, g.estimators.find? k = some e := by
    intro k
    constructor
    · intro hm
      obtain ⟨p, hp, rfl⟩ := List.mem_map.1 hm
      exact ⟨p.2, OMap.find?_of_mem _ _ _ hp⟩
    · rintro ⟨e, he⟩
      exact List.mem_map.2 ⟨_, OMap.mem_of_find? _ _ _ he, rfl⟩
  have hfind : ∀ k, m'.find? k = (g.estimators.find? k).map fun _ => t k := by
    intro k
    rcases he : g.estimators.find? k with _ | e
    · rw [(h2 k).2 (by rw [hin, he]; simp)]
      rfl
    · rw [(h2 k).1 ((hin k).2 ⟨e, he⟩)]
      rfl
  have hlen : m'.entries.length = 0 ↔ ∀ k, g.estimators.find? k = none := by
    constructor
    · intro hl k
      have hm : m'.find? k = none := by
        unfold OMap.find?
        rw [List.length_eq_zero_iff.1 hl]
        rfl
      rw [hfind] at hm
      simpa using hm
    · intro hn
      apply List.length_eq_zero_iff.2
      apply List.eq_nil_iff_forall_not_mem.2
      intro p hp
      have := OMap.find?_of_mem _ _ _ hp
      rw [hfind, hn] at this
      cases this
  have h1' : createGrains h L g.estimators.entries g .empty = (.ok m', ⟨g.maps, m1, g.remaining⟩) := h1
  constructor
  · intro hor
    by_cases hl : m'.entries.length = 0
    · have hno := hlen.1 hl
      have hcf : createFunc.isSome := by
        rcases hor with ⟨k, e, he⟩ | hor
        · rw [hno k] at he; cases he
        · exact hor
      obtain ⟨cf, hcf⟩ := Option.isSome_iff_exists.1 hcf
      subst hcf
      refine ⟨⟨false, some cf, .empty⟩, ?_, rfl, by simp [hno], fun k => by rw [hno]; rfl⟩
      have hl := List.length_eq_zero_iff.1 hl
      simp [Est.createTransformer, grainHooks, h1', hl, GrainTransformer.newCreate]
    · refine ⟨⟨true, createFunc, m'⟩, ?_, rfl, ?_, hfind⟩
      · have hl : m'.entries ≠ [] := fun hh => hl (by rw [hh]; rfl)
        simp [Est.createTransformer, grainHooks, h1', hl, GrainTransformer.newMap]
      · simp only [true_iff]
        rcases hE : m'.entries with _ | ⟨p, l⟩
        · rw [hE] at hl; simp at hl
        · obtain ⟨e, he⟩ := (hin p.1).1 (by
            have hmem : p ∈ m'.entries := by rw [hE]; simp
            have := OMap.find?_of_mem m' p.1 p.2 hmem
            rcases Decidable.em (p.1 ∈ g.estimators.entries.map (·.1)) with hx | hx
            · exact hx
            · rw [(h2 _).2 hx] at this; cases this)
          exact ⟨_, e, he⟩
  · intro hno hcf
    subst hcf
    have hl := List.length_eq_zero_iff.1 (hlen.2 hno)
    simp [Est.createTransformer, grainHooks, h1', hl]

/-! Non-vacuity: estimators that sum their rows (refusing negative ones), publish the sum unless it is zero, and make the
sum their transformer. -/

private def sumHooks : Hooks (AnnotationMaps (List (Nat × Int)) × Int) Int Int where
  begin s := (.ok true, s)
  fit xs s := if xs.any (· < 0) then (.error .runtimeError, s) else (.ok .continue, (s.1, s.2 + xs.sum))
  onDataCompleted s := (.ok true, s)
  complete s := if s.2 = 0 then (.ok (), s) else
    match addAnnotation (some [(0, s.2)]) 0 "Sum" s.1 with
    | (r, m) => (r, (m, s.2))
  create s := (.ok (some s.2), s)

private def sumLens : StoreLens (AnnotationMaps (List (Nat × Int)) × Int) (List (Nat × Int)) := ⟨(·.1), fun m s => (m, s.2)⟩

private def sumConfig : GrainConfig Nat (AnnotationMaps (List (Nat × Int)) × Int) (List (Nat × Int)) :=
  ⟨false, ([], 0), "Sum", fun m => m.entries.flatMap fun e => e.2.map fun x => (e.1, x.2)⟩

private theorem sum_keeps : KeepsAnnotations sumHooks sumLens where
  get_set _ _ := rfl
  set_get _ := rfl
  begin _ := rfl
  fit xs s := by
    simp only [sumHooks]
    split <;> rfl

example : ∃ g, trainOnce (grainHooks sumHooks sumLens sumConfig none) [[(1, 5), (2, 3)], [(1, 7), (3, 0)], [(4, -1)]]
      (GrainEst.new [[]] 4) = (.ok (), ⟨.completed, false, g⟩) ∧
    g.maps = [[("GrainSum", [[(1, 12), (2, 3)]])]] ∧
    (Est.createTransformer (grainHooks sumHooks sumLens sumConfig none) ⟨.completed, false, g⟩).1.map
      (fun t => t.transformers.entries) = .ok [(1, 12), (2, 3), (3, 0)] := ⟨_, rfl, by decide +kernel, by decide +kernel⟩

/-- The hypotheses of `C37_train` are met by this case. -/
example : ∃ g, trainOnce (grainHooks sumHooks sumLens sumConfig none) [[(1, 5), (2, 3)], [(1, 7), (3, 0)], [(4, -1)]]
      (GrainEst.new [[]] 4) = (.ok (), ⟨.completed, false, g⟩) := by
  obtain ⟨g, h, _⟩ := C37_train sumHooks sumLens sumConfig sum_keeps rfl none 4 (by decide) [[]] 0 (by decide)
    (by simp) [[(1, 5), (2, 3)], [(1, 7), (3, 0)], [(4, -1)]] (by simp)
    (fun k => if k = 1 then ⟨.completed, false, ([[("Sum", [[(0, 12)]])]], 12)⟩
      else if k = 2 then ⟨.completed, false, ([[("Sum", [[(0, 3)]])]], 3)⟩ else ⟨.completed, false, ([[]], 0)⟩)
    (fun k => if k = 1 then some [(0, 12)] else if k = 2 then some [(0, 3)] else none)
    (by
      intro k hk
      by_cases h1 : k = 1
      · subst h1; exact ⟨rfl, rfl⟩
      by_cases h2 : k = 2
      · subst h2; exact ⟨rfl, rfl⟩
      by_cases h3 : k = 3
      · subst h3; exact ⟨rfl, rfl⟩
      · exfalso
        apply hk
        simp [ofGrain, Ne.symm h1, Ne.symm h2, Ne.symm h3])
  exact ⟨g, h⟩

/-- Without the limit the row of grain 4 throws. -/
example : (trainOnce (grainHooks sumHooks sumLens sumConfig none) [[(1, 5), (2, 3)], [(1, 7), (3, 0)], [(4, -1)]]
      (GrainEst.new [[]] 9)).1 = .error .runtimeError := by decide +kernel

end Feat
