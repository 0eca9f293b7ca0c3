import Verif.Props.PipelineTrain
/-
C13: the stages of a pipeline are trained in order, for arbitrary stages and transformers and any sequence
of calls; and a nested pipeline is not trained as its stages would be.
-/
namespace Feat
variable {G V T : Type}

/-- A stage is begun only when every stage before it is completely trained. -/
def StagesInOrder (es : List (Elem G V T)) : Prop :=
  es.Pairwise fun a b => b.state ≠ .pending → a.state = .completed

/-- Perform calls; the result is given only if none of them threw. -/
def runCalls {σ ι τ : Type} (h : Hooks σ ι τ) : List (EstCall ι) → Est σ → Option (Est σ)
  | [], e => some e
  | c :: cs, e =>
    match EstCall.run h c e with
    | (.ok _, e) => runCalls h cs e
    | (.error _, _) => none

private abbrev Fresh (es : List (Elem G V T)) : Prop := ∀ e ∈ es, e.state = .pending

private theorem fresh_of (e : Elem G V T) (es) (h : StagesInOrder (e :: es)) (hs : e.state ≠ .completed) :
    Fresh es := by
  intro x hx
  exact Decidable.byContradiction fun hne => hs (List.rel_of_pairwise_cons h hx hne)

private theorem inorder_of_fresh (es : List (Elem G V T)) (h : Fresh es) : StagesInOrder es := by
  induction es with
  | nil => exact .nil
  | cons e es ih =>
    refine .cons (fun b hb hne => absurd (h b (by simp [hb])) hne) (ih fun x hx => h x (by simp [hx]))

private theorem cons_fresh (e : Elem G V T) (es) (h : Fresh es) : StagesInOrder (e :: es) :=
  .cons (fun b hb hne => absurd (h b hb) hne) (inorder_of_fresh es h)

private theorem cons_completed (e : Elem G V T) (es) (hc : e.state = .completed) (h : StagesInOrder es) :
    StagesInOrder (e :: es) := .cons (fun _ _ _ => hc) h

private theorem est_create_state (h : Hooks G V T) (s : Est G) :
    (Est.createTransformer h s).2.state = s.state := by
  unfold Est.createTransformer
  split
  · rfl
  · split
    · rfl
    · split <;> rfl

private theorem create_state (e e' : Elem G V T) (g g' : G) (r)
    (h : e.createIfNecessary g = (r, e', g')) : e'.state = e.state := by
  have hs := est_create_state e.hooks ⟨e.state, e.created, g⟩
  unfold Elem.createIfNecessary Elem.call at h
  rcases h1 : Est.createTransformer e.hooks ⟨e.state, e.created, g⟩ with ⟨x | t, s⟩
  · rw [h1] at h hs
    simp only at h hs
    split at h
    · cases h; rfl
    · split at h
      · cases h; rfl
      · cases h; exact hs
  · rw [h1] at h hs
    simp only at h hs
    split at h
    · cases h; rfl
    · split at h
      · cases h; rfl
      · cases h; exact hs

private theorem complete_state (e e' : Elem G V T) (g g' : G)
    (h : e.call (Est.completeTraining e.hooks) g = (.ok (), e', g')) : e'.state = .completed := by
  unfold Elem.call Est.completeTraining at h
  simp only at h
  split at h
  · cases h
  · split at h
    · cases h
    · cases h; rfl

private theorem chained_ok (e : Elem G V T) (rest : List (Elem G V T)) (g : G)
    (next : G → Except Err Bool × List (Elem G V T) × G) (es') (g')
    (hn : ∀ g b es' g', next g = (.ok b, es', g') → StagesInOrder es')
    (h : Pipeline.completeChained e rest g next = (.ok (), es', g')) :
    StagesInOrder es' ∧ ∃ e' rest', es' = e' :: rest' ∧ e'.state = .completed := by
  unfold Pipeline.completeChained at h
  rcases h1 : e.call (Est.completeTraining e.hooks) g with ⟨x | u, e1, g1⟩
  · rw [h1] at h; cases h
  · cases u
    rw [h1] at h
    simp only at h
    have hs := complete_state e e1 g g1 h1
    rcases h2 : e1.createIfNecessary g1 with ⟨x | u, e2, g2⟩
    · rw [h2] at h; cases h
    · cases u
      rw [h2] at h
      simp only at h
      have hs2 := create_state _ _ _ _ _ h2
      rcases h3 : next g2 with ⟨x | b, r3, g3⟩
      · rw [h3] at h; cases h
      · rw [h3] at h
        cases h
        have hc : e2.state = .completed := by rw [hs2, hs]
        exact ⟨cons_completed _ _ hc (hn _ _ _ _ h3), _, _, rfl, hc⟩

private theorem begin_ok (es : List (Elem G V T)) : ∀ (g : G) (b es' g'), Fresh es →
    Pipeline.begin es g = (.ok b, es', g') → StagesInOrder es' := by
  induction es with
  | nil => intro g b es' g' _ h; cases h
  | cons e es ih =>
    intro g b es' g' hf h
    cases es with
    | nil =>
      rw [Pipeline.begin] at h
      rcases h1 : e.call (Est.beginTraining e.hooks) g with ⟨x | u, e1, g1⟩
      · rw [h1] at h; cases h
      · cases u
        rw [h1] at h
        cases h
        exact cons_fresh _ _ (fun x hx => nomatch hx)
    | cons n es =>
      rw [Pipeline.begin, if_pos (hf e (by simp))] at h
      rcases h1 : e.call (Est.beginTraining e.hooks) g with ⟨x | u, e1, g1⟩
      · rw [h1] at h; cases h
      · cases u
        rw [h1] at h
        simp only at h
        split at h
        · rcases h2 : Pipeline.completeChained e1 (n :: es) g1 (Pipeline.begin (n :: es)) with ⟨x | u, es2, g2⟩
          · rw [h2] at h; cases h
          · cases u
            rw [h2] at h
            cases h
            exact (chained_ok _ _ _ _ _ _
              (fun g b es' g' hb => ih g b es' g' (fun x hx => hf x (by simp [hx])) hb) h2).1
        · cases h
          exact cons_fresh _ _ (fun x hx => hf x (by simp [hx]))

private theorem fit_fresh (X : Xf T V V) (es : List (Elem G V T)) : ∀ (items) (g : G) (r es' g'),
    Fresh es → Pipeline.fit X es items g = (.ok r, es', g') → Fresh es' := by
  induction es with
  | nil => intro _ g b es' g' _ h; cases h
  | cons e es ih =>
    intro items g r es' g' hf h
    have he : e.state = .pending := hf e (by simp)
    cases es with
    | nil =>
      rw [Pipeline.fit] at h
      simp [Elem.call, Est.fit, he] at h
    | cons n es =>
      have hr : Fresh (n :: es) := fun x hx => hf x (by simp [hx])
      rw [Pipeline.fit, if_neg (by simp [he])] at h
      split at h
      · split at h
        · cases h
        · rename_i t _
          split at h
          · cases h
          · split at h
            · cases h
              intro x hx
              rcases List.mem_cons.1 hx with rfl | hx
              · exact he
              · exact hr x hx
            · rename_i outs _ _ _
              rcases h2 : Pipeline.fit X (n :: es) outs g with ⟨x | r2, es2, g2⟩
              · rw [h2] at h; cases h
              · rw [h2] at h
                cases h
                intro x hx
                rcases List.mem_cons.1 hx with rfl | hx
                · exact he
                · exact ih _ _ _ _ _ hr h2 x hx
      · rcases h2 : Pipeline.fit X (n :: es) items g with ⟨x | r2, es2, g2⟩
        · rw [h2] at h; cases h
        · rw [h2] at h
          cases h
          intro x hx
          rcases List.mem_cons.1 hx with rfl | hx
          · exact he
          · exact ih _ _ _ _ _ hr h2 x hx

private theorem fit_ok (X : Xf T V V) (es : List (Elem G V T)) : ∀ (items) (g : G) (r es' g'),
    StagesInOrder es → Pipeline.fit X es items g = (.ok r, es', g') → StagesInOrder es' := by
  induction es with
  | nil => intro _ g b es' g' _ h; cases h
  | cons e es ih =>
    intro items g r es' g' hf h
    cases es with
    | nil =>
      rw [Pipeline.fit] at h
      rcases h1 : e.call (Est.fit e.hooks (some items)) g with ⟨x | u, e1, g1⟩
      · rw [h1] at h; cases h
      · rw [h1] at h
        cases h
        exact cons_fresh _ _ (fun x hx => nomatch hx)
    | cons n es =>
      have hr : StagesInOrder (n :: es) := List.Pairwise.of_cons hf
      -- passing the items on
      have pass : ∀ (items' : List V) (e' : Elem G V T) (r es2 g2), e'.state = e.state →
          Pipeline.fit X (n :: es) items' g = (.ok r, es2, g2) → StagesInOrder (e' :: es2) := by
        intro items' e' r es2 g2 hs h2
        by_cases hc : e.state = .completed
        · exact cons_completed _ _ (by rw [hs, hc]) (ih _ _ _ _ _ hr h2)
        · exact cons_fresh _ _ (fit_fresh X _ _ _ _ _ _ (fresh_of e _ hf hc) h2)
      rw [Pipeline.fit] at h
      split at h
      · rename_i htr
        have hfr := fresh_of e _ hf (by simp [htr])
        rcases h1 : e.call (Est.fit e.hooks (some items)) g with ⟨x | r1, e1, g1⟩
        · rw [h1] at h; cases h
        · rw [h1] at h
          have main : ∀ r' : FitResult,
              (match Pipeline.completeChained e1 (n :: es) g1 (Pipeline.begin (n :: es)) with
                | (.error x, es, g) => ((.error x, es, g) : Except Err FitResult × List (Elem G V T) × G)
                | (.ok (), es, g) => (.ok (if Pipeline.hasAllFinished es then .complete else .reset), es, g))
              = (.ok r', es', g') → StagesInOrder es' := by
            intro r' h
            rcases h2 : Pipeline.completeChained e1 (n :: es) g1 (Pipeline.begin (n :: es)) with ⟨x | u, es2, g2⟩
            · rw [h2] at h; cases h
            · cases u
              rw [h2] at h
              cases h
              exact (chained_ok _ _ _ _ _ _ (fun g b es' g' hb => begin_ok _ g b es' g' hfr hb) h2).1
          cases r1 with
          | «continue» => cases h; exact cons_fresh _ _ hfr
          | complete => exact main r h
          | reset => exact main r h
      · split at h
        · split at h
          · cases h
          · rename_i t _
            split at h
            · cases h
            · split at h
              · cases h
                exact List.pairwise_cons.2 ⟨fun b hb hne => List.rel_of_pairwise_cons hf hb hne, hr⟩
              · rename_i outs _ _ _
                rcases h2 : Pipeline.fit X (n :: es) outs g with ⟨x | r2, es2, g2⟩
                · rw [h2] at h; cases h
                · rw [h2] at h
                  cases h
                  exact pass _ _ _ _ _ rfl h2
        · rcases h2 : Pipeline.fit X (n :: es) items g with ⟨x | r2, es2, g2⟩
          · rw [h2] at h; cases h
          · rw [h2] at h
            cases h
            exact pass _ _ _ _ _ rfl h2

private theorem data_fresh (X : Xf T V V) (k : Nat) : ∀ (es : List (Elem G V T)) (g : G) (r es' g'),
    Fresh es → Pipeline.dataCompletedN X k es g = (.ok r, es', g') → Fresh es' := by
  induction k with
  | zero => intro es g b es' g' _ h; rw [Pipeline.dataCompletedN] at h; cases h
  | succ k ih =>
    intro es g r es' g' hf h
    cases es with
    | nil => cases h
    | cons e es =>
      have he : e.state = .pending := hf e (by simp)
      have mk : ∀ (e' : Elem G V T) es2, e'.state = e.state → Fresh es2 → Fresh (e' :: es2) := by
        intro e' es2 h1 h2 x hx
        rcases List.mem_cons.1 hx with rfl | hx
        · rw [h1, he]
        · exact h2 x hx
      cases es with
      | nil =>
        rw [Pipeline.dataCompletedN] at h
        simp [Elem.call, Est.onDataCompleted, he] at h
      | cons n es =>
        have hr : Fresh (n :: es) := fun x hx => hf x (by simp [hx])
        rw [Pipeline.dataCompletedN, if_neg (by simp [he])] at h
        split at h
        · split at h
          · cases h
          · split at h
            · cases h
            · split at h
              · rcases h2 : Pipeline.dataCompletedN X k (n :: es) g with ⟨x | r2, es2, g2⟩
                · rw [h2] at h; cases h
                · rw [h2] at h
                  cases h
                  exact mk _ _ rfl (ih _ _ _ _ _ hr h2)
              · rename_i outs _ _ _
                rcases h1 : Pipeline.fit X (n :: es) outs g with ⟨x | r1, es1, g1⟩
                · rw [h1] at h; cases h
                · rw [h1] at h
                  simp only at h
                  rcases h2 : Pipeline.dataCompletedN X k es1 g1 with ⟨x | r2, es2, g2⟩
                  · rw [h2] at h; cases h
                  · rw [h2] at h
                    cases h
                    exact mk _ _ rfl (ih _ _ _ _ _ (fit_fresh X _ _ _ _ _ _ hr h1) h2)
        · rcases h2 : Pipeline.dataCompletedN X k (n :: es) g with ⟨x | r2, es2, g2⟩
          · rw [h2] at h; cases h
          · rw [h2] at h
            cases h
            exact mk _ _ rfl (ih _ _ _ _ _ hr h2)

private theorem data_ok (X : Xf T V V) (k : Nat) : ∀ (es : List (Elem G V T)) (g : G) (r es' g'),
    StagesInOrder es → Pipeline.dataCompletedN X k es g = (.ok r, es', g') → StagesInOrder es' := by
  induction k with
  | zero => intro es g b es' g' _ h; rw [Pipeline.dataCompletedN] at h; cases h
  | succ k ih =>
    intro es g r es' g' hf h
    cases es with
    | nil => cases h
    | cons e es =>
      cases es with
      | nil =>
        rw [Pipeline.dataCompletedN] at h
        rcases h1 : e.call (Est.onDataCompleted e.hooks) g with ⟨x | u, e1, g1⟩
        · rw [h1] at h; cases h
        · cases u
          rw [h1] at h
          cases h
          exact cons_fresh _ _ (fun x hx => nomatch hx)
      | cons n es =>
        have hr : StagesInOrder (n :: es) := List.Pairwise.of_cons hf
        have pass : ∀ (es1 : List (Elem G V T)) g1 (e' : Elem G V T) r es2 g2, e'.state = e.state →
            StagesInOrder es1 → (e.state ≠ .completed → Fresh es1) →
            Pipeline.dataCompletedN X k es1 g1 = (.ok r, es2, g2) → StagesInOrder (e' :: es2) := by
          intro es1 g1 e' r es2 g2 hs ho hfr h2
          by_cases hc : e.state = .completed
          · exact cons_completed _ _ (by rw [hs, hc]) (ih _ _ _ _ _ ho h2)
          · exact cons_fresh _ _ (data_fresh X k _ _ _ _ _ (hfr hc) h2)
        rw [Pipeline.dataCompletedN] at h
        split at h
        · rename_i htr
          have hfr := fresh_of e _ hf (by simp [htr])
          rcases h1 : e.call (Est.onDataCompleted e.hooks) g with ⟨x | u, e1, g1⟩
          · rw [h1] at h; cases h
          · cases u
            rw [h1] at h
            simp only at h
            split at h
            · rcases h2 : Pipeline.completeChained e1 (n :: es) g1 (Pipeline.begin (n :: es)) with ⟨x | u, es2, g2⟩
              · rw [h2] at h; cases h
              · cases u
                rw [h2] at h
                cases h
                exact (chained_ok _ _ _ _ _ _ (fun g b es' g' hb => begin_ok _ g b es' g' hfr hb) h2).1
            · cases h
              exact cons_fresh _ _ hfr
        · split at h
          · split at h
            · cases h
            · split at h
              · cases h
              · split at h
                · rcases h2 : Pipeline.dataCompletedN X k (n :: es) g with ⟨x | r2, es2, g2⟩
                  · rw [h2] at h; cases h
                  · rw [h2] at h
                    cases h
                    exact pass _ _ _ _ _ _ rfl hr (fresh_of e _ hf) h2
                · rename_i outs _ _ _
                  rcases h1 : Pipeline.fit X (n :: es) outs g with ⟨x | r1, es1, g1⟩
                  · rw [h1] at h; cases h
                  · rw [h1] at h
                    simp only at h
                    rcases h2 : Pipeline.dataCompletedN X k es1 g1 with ⟨x | r2, es2, g2⟩
                    · rw [h2] at h; cases h
                    · rw [h2] at h
                      cases h
                      exact pass _ _ _ _ _ _ rfl (fit_ok X _ _ _ _ _ _ hr h1)
                        (fun hc => fit_fresh X _ _ _ _ _ _ (fresh_of e _ hf hc) h1) h2
          · rcases h2 : Pipeline.dataCompletedN X k (n :: es) g with ⟨x | r2, es2, g2⟩
            · rw [h2] at h; cases h
            · rw [h2] at h
              cases h
              exact pass _ _ _ _ _ _ rfl hr (fresh_of e _ hf) h2

private theorem complete_ok (k : Nat) : ∀ (es : List (Elem G V T)) (g : G) (es' g'),
    StagesInOrder es → Pipeline.completeN k es g = (.ok (), es', g') → StagesInOrder es' := by
  induction k with
  | zero => intro es g es' g' _ h; rw [Pipeline.completeN] at h; cases h
  | succ k ih =>
    intro es g es' g' hf h
    cases es with
    | nil => cases h
    | cons e es =>
      cases es with
      | nil =>
        rw [Pipeline.completeN] at h
        rcases h1 : e.call (Est.completeTraining e.hooks) g with ⟨x | u, e1, g1⟩
        · rw [h1] at h; cases h
        · cases u
          rw [h1] at h
          simp only at h
          rcases h2 : e1.createIfNecessary g1 with ⟨x | u, e2, g2⟩
          · rw [h2] at h; cases h
          · rw [h2] at h
            cases h
            exact cons_fresh _ _ (fun x hx => nomatch hx)
      | cons n es =>
        have hr : StagesInOrder (n :: es) := List.Pairwise.of_cons hf
        rw [Pipeline.completeN] at h
        split at h
        · rename_i hnc
          have hfr := fresh_of e _ hf hnc
          rcases h2 : Pipeline.completeChained e (n :: es) g (Pipeline.begin (n :: es)) with ⟨x | u, es2, g2⟩
          · rw [h2] at h; cases h
          · cases u
            obtain ⟨ho, e', rest', rfl, hc⟩ :=
              chained_ok _ _ _ _ _ _ (fun g b es' g' hb => begin_ok _ g b es' g' hfr hb) h2
            rw [h2] at h
            simp only at h
            rcases h3 : Pipeline.completeN k rest' g2 with ⟨x | u, es3, g3⟩
            · rw [h3] at h; cases h
            · cases u
              rw [h3] at h
              cases h
              exact cons_completed _ _ hc (ih _ _ _ _ (List.Pairwise.of_cons ho) h3)
        · rename_i hc
          simp only [ne_eq, Decidable.not_not] at hc
          rcases h3 : Pipeline.completeN k (n :: es) g with ⟨x | u, es3, g3⟩
          · rw [h3] at h; cases h
          · cases u
            rw [h3] at h
            cases h
            exact cons_completed _ _ hc (ih _ _ _ _ hr h3)

private structure Inv (e : Est (List (Elem G V T) × G)) : Prop where
  order : StagesInOrder e.inner.1
  fresh : e.state = .pending → Fresh e.inner.1

private theorem inv_step (X : Xf T V V) (c : EstCall V) (e e' : Est (List (Elem G V T) × G)) (r)
    (hi : Inv e) (h : EstCall.run (Pipeline.hooks X) c e = (.ok r, e')) : Inv e' := by
  obtain ⟨st, cr, es, g⟩ := e
  obtain ⟨ho, hf⟩ := hi
  simp only at ho hf
  cases c with
  | begin =>
    simp only [EstCall.run, Est.beginTraining, Pipeline.hooks] at h
    split at h
    · cases h
    · rename_i hst
      simp only [ne_eq, Decidable.not_not] at hst
      rcases h1 : Pipeline.begin es g with ⟨x | b, es1, g1⟩
      · simp only [h1] at h; cases h
      · have := begin_ok es g b es1 g1 (hf hst) h1
        simp only [h1] at h
        cases b <;> cases h <;> exact ⟨this, fun h => by cases h⟩
  | fit p =>
    simp only [EstCall.run, Est.fit, Pipeline.hooks] at h
    split at h
    · cases h
    · rename_i hst
      simp only [ne_eq, Decidable.not_not] at hst
      cases p with
      | none => cases h
      | some items =>
        simp only at h
        split at h
        · cases h
        · rcases h1 : Pipeline.fit X es items g with ⟨x | b, es1, g1⟩
          · simp only [h1] at h; cases h
          · have := fit_ok X es items g b es1 g1 ho h1
            simp only [h1] at h
            cases b <;> cases h <;> refine ⟨this, fun h => ?_⟩ <;> simp_all
  | dataCompleted =>
    simp only [EstCall.run, Est.onDataCompleted, Pipeline.hooks] at h
    split at h
    · cases h
    · rename_i hst
      split at h
      · rcases h1 : Pipeline.dataCompleted X es g with ⟨x | b, es1, g1⟩
        · simp only [h1] at h; cases h
        · have := data_ok X _ es g b es1 g1 ho h1
          simp only [h1] at h
          cases b <;> cases h <;> refine ⟨this, fun h => ?_⟩ <;> simp_all
      · cases h
        exact ⟨ho, hf⟩
  | complete =>
    simp only [EstCall.run, Est.completeTraining, Pipeline.hooks] at h
    split at h
    · cases h
    · rcases h1 : Pipeline.complete es g with ⟨x | b, es1, g1⟩
      · simp only [h1] at h; cases h
      · cases b
        have := complete_ok _ es g es1 g1 ho h1
        simp only [h1] at h
        cases h
        exact ⟨this, fun h => by cases h⟩
  | create =>
    simp only [EstCall.run, Est.createTransformer, Pipeline.hooks] at h
    split at h
    · cases h
    · split at h
      · cases h
      · cases h
        exact ⟨ho, hf⟩

/-- **C13** For arbitrary stages, transformers and call sequences: as long as no call on the pipeline has
thrown, no stage has begun training before every earlier stage was completely trained. -/
theorem C13_order (X : Xf T V V) (stages : List (Stage G V T)) (g : G) (calls : List (EstCall V))
    (e : Est (List (Elem G V T) × G))
    (h : runCalls (Pipeline.hooks X) calls (Est.new (stages.map Elem.new, g)) = some e) :
    StagesInOrder e.inner.1 := by
  have main : ∀ (calls : List (EstCall V)) (e0 e : Est (List (Elem G V T) × G)), Inv e0 →
      runCalls (Pipeline.hooks X) calls e0 = some e → Inv e := by
    intro calls
    induction calls with
    | nil => intro e0 e hi h; cases h; exact hi
    | cons c cs ih =>
      intro e0 e hi h
      rw [runCalls] at h
      split at h
      · rename_i r e1 heq
        exact ih _ _ (inv_step X c e0 e1 r hi heq) h
      · cases h
  have hf : Fresh (stages.map (Elem.new (G := G))) := by
    intro x hx
    obtain ⟨s, _, rfl⟩ := List.mem_map.1 hx
    rfl
  exact (main calls _ e ⟨inorder_of_fresh _ hf, fun _ => hf⟩ h).order

/-! ### Concrete pipelines -/

/-- A stage that adds up what it is given (in component `i` of the common state), finished after `cap`
items if that is given, and whose transformer adds the sum to each value. -/
def sumStage (i : Nat) (cap : Option Nat) : Stage (List (Nat × Nat)) Nat Nat where
  isTransformer := true
  hooks :=
    { begin := fun g => (.ok true, g)
      fit := fun items g =>
        let g' := g.modify i fun p => (p.1 + items.sum, p.2 + items.length)
        (.ok (match cap with
          | none => .continue
          | some c => if c ≤ ((g'.getD i (0, 0)).2) then .complete else .continue), g')
      onDataCompleted := fun g => (.ok true, g)
      complete := fun g => (.ok (), g)
      create := fun g => (.ok (some (g.getD i (0, 0)).1), g) }

/-- A transformer that adds. -/
def addXf : Xf Nat Nat Nat := Xf.ofFun fun t x => .ok (t + x)

private theorem sum_onePass (i cap) : OnePass (sumStage i cap).hooks := by
  constructor
  · intro items g
    simp only [sumStage]
    cases cap with
    | none => simp
    | some c => simp only; split <;> simp
  · intro g; simp [sumStage]

/-- The hypotheses of `C13_sequential_partial` are met and its conclusion is not trivial: two stages, the
first of which has seen enough after one item. -/
example : StatelessButLast addXf [sumStage 0 (some 1), sumStage 1 none] ∧
    (∀ s ∈ [sumStage 0 (some 1), sumStage 1 none], OnePass s.hooks) ∧
    (sequential addXf [[1, 2], [3]] [] [sumStage 0 (some 1), sumStage 1 none] [(0, 0), (0, 0)]).1
      = .ok [some 3, some 15] := by
  refine ⟨fun s _ g t g' _ => ⟨fun v => rfl, rfl⟩, ?_, rfl⟩
  intro s hs
  simp only [List.mem_cons, List.not_mem_nil, or_false] at hs
  rcases hs with rfl | rfl <;> exact sum_onePass _ _

/-- `C13_order` is about calls that do happen. -/
example : (runCalls (Pipeline.hooks addXf) [.begin, .fit (some [1, 2]), .fit (some [1, 2]), .dataCompleted,
    .complete, .create] (Est.new ([sumStage 0 (some 1), sumStage 1 none].map Elem.new, [(0, 0), (0, 0)]))).map
    (fun e => (e.state, e.inner.1.map (fun s => (s.state, s.xf)))) =
    some (.completed, [(.completed, some 3), (.completed, some 9)]) := by
  decide

/-- A pipeline as a stage of another pipeline. -/
def nestedStage : Stage (List (Elem (List (Nat × Nat)) Nat Nat) × List (Nat × Nat)) Nat (List (Option Nat)) where
  isTransformer := true
  hooks := Pipeline.hooks addXf

/-- The last stage of the outer pipeline; it needs no training and passes values on. -/
def passStage : Stage (List (Elem (List (Nat × Nat)) Nat Nat) × List (Nat × Nat)) Nat (List (Option Nat)) where
  isTransformer := true
  hooks :=
    { begin := fun g => (.ok false, g), fit := fun _ g => (.error .runtimeError, g)
      onDataCompleted := fun g => (.ok true, g), complete := fun g => (.ok (), g)
      create := fun g => (.ok (some []), g) }

/-- **C13 is false for nested pipelines.** The pipeline of two summing stages, the first of which has seen
enough after two items, trains its second stage on all the (transformed) data when used on its own; as the
first stage of an outer pipeline it is completed when the inner pipeline asks to start over, so that its
second stage is completed without having seen any data. -/
theorem C13_nested_pipeline :
    ((trainAndCreate (Pipeline.hooks addXf) [[1, 2], [3]] 10
        (Est.new ([sumStage 0 (some 2), sumStage 1 none].map Elem.new, [(0, 0), (0, 0)]))).map
        fun o => o.1.toOption) = some (some [some 3, some 15]) ∧
    ((trainAndCreate (Pipeline.hooks (Chain.xf addXf 2)) [[1, 2], [3]] 10
        (Est.new ([nestedStage, passStage].map Elem.new,
          ([sumStage 0 (some 2), sumStage 1 none].map Elem.new, [(0, 0), (0, 0)])))).map
        fun o => o.1.toOption) = some (some [some [some 3, some 0], some []]) := by
  decide

/-- A transformer that emits the sum of the values so far, starting with its state; `flush` resets it. -/
def runningXf : Xf Nat Nat Nat where
  exec t x := ⟨[t + x], none, t + x⟩
  flush _ := ⟨[], none, 0⟩

/-- A stage that needs no training and whose transformer starts with 0. -/
def runningStage : Stage (List (Nat × Nat)) Nat Nat where
  isTransformer := true
  hooks :=
    { begin := fun g => (.ok false, g), fit := fun _ g => (.error .runtimeError, g)
      onDataCompleted := fun g => (.ok true, g), complete := fun g => (.ok (), g)
      create := fun g => (.ok (some 0), g) }

/-- A stage that only learns. -/
def learnStage (i : Nat) (cap : Option Nat) : Stage (List (Nat × Nat)) Nat Nat :=
  { sumStage i cap with isTransformer := false }

/-- **C13 is false for transformers that keep state** (such as lags, fills and windows) **before a stage that
has seen enough before the end of the data.** The first stage emits running sums; the second one stops after
one item. The pass is then broken off without flushing the first stage, which begins the next pass where it
was: the third stage is trained on 2 and 4 and not on the running sums 1 and 3 of the data.  And if the stage
that stops early is the last one, the first transformer of the trained pipeline is left with a sum of
training data. -/
theorem C13_stateful_stage :
    ((trainAndCreate (Pipeline.hooks runningXf) [[1], [2]] 10
        (Est.new ([runningStage, learnStage 0 (some 1), learnStage 1 none].map Elem.new, [(0, 0), (0, 0)]))).map
        fun o => (o.1.toOption, o.2.inner.2)) = some (some [some 0, none, none], [(1, 1), (6, 2)]) ∧
    (sequential runningXf [[1, 2]] [] [runningStage, learnStage 0 (some 1), learnStage 1 none]
        [(0, 0), (0, 0)]).2 = [(4, 2), (4, 2)] ∧
    (runningXf.execAll 0 [1, 2]).outs = [1, 3] ∧
    ((trainAndCreate (Pipeline.hooks runningXf) [[1], [2]] 10
        (Est.new ([runningStage, learnStage 0 (some 1)].map Elem.new, [(0, 0)]))).map
        fun o => (o.1.toOption, o.2.inner.2)) = some (some [some 1, none], [(1, 1)]) := by
  decide

end Feat
