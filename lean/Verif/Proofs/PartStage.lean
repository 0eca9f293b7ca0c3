import Verif.Model.TimeSeriesTraining
import Verif.Spec.Components
import Verif.Spec.PipelineTraining
/-
Training an estimator that is a stage of a pipeline and owns a part of its state.
-/
namespace Feat
variable {T G V σ ι : Type}

/-- Reading and writing a part of a state. -/
structure IsPart (get : G → σ) (put : σ → G → G) : Prop where
  get_put : ∀ s g, get (put s g) = s
  put_put : ∀ s s' g, put s (put s' g) = put s g
  put_get : ∀ g, put (get g) g = g

private def eUp (put : σ → G → G) (e : Est σ) (g : G) : Est G := ⟨e.state, e.created, put e.inner g⟩

variable {get : G → σ} {put : σ → G → G} (hp : IsPart get put) (read : V → ι) (h : Hooks σ ι Unit)
include hp

private theorem begin_part (e : Est σ) (g : G) :
    Est.beginTraining (partStage (T := T) get put read h).hooks (eUp put e g)
      = ((Est.beginTraining h e).1, eUp put (Est.beginTraining h e).2 g) := by
  obtain ⟨st, cr, t⟩ := e
  obtain ⟨hbegin, hfit, hdata, hcomplete, hcreate⟩ := h
  cases st <;> try rfl
  simp only [Est.beginTraining, eUp, ne_eq, not_true_eq_false, if_false, partStage, hp.get_put, hp.put_put]
  rcases hbegin t with ⟨_ | b, t'⟩
  · rfl
  · cases b <;> rfl

private theorem fit_part (items : List V) (e : Est σ) (g : G) :
    Est.fit (partStage (T := T) get put read h).hooks (some items) (eUp put e g)
      = ((Est.fit h (some (items.map read)) e).1, eUp put (Est.fit h (some (items.map read)) e).2 g) := by
  obtain ⟨st, cr, t⟩ := e
  obtain ⟨hbegin, hfit, hdata, hcomplete, hcreate⟩ := h
  cases st <;> try rfl
  cases items with
  | nil => rfl
  | cons x xs =>
    simp only [Est.fit, eUp, ne_eq, not_true_eq_false, if_false, partStage, hp.get_put, hp.put_put,
      List.length_cons, List.map_cons, List.length_map, Nat.add_eq_zero_iff, Nat.one_ne_zero, and_false]
    rcases hfit (read x :: xs.map read) t with ⟨_ | r, t'⟩
    · rfl
    · cases r <;> rfl

private theorem data_part (e : Est σ) (g : G) :
    Est.onDataCompleted (partStage (T := T) get put read h).hooks (eUp put e g)
      = ((Est.onDataCompleted h e).1, eUp put (Est.onDataCompleted h e).2 g) := by
  obtain ⟨st, cr, t⟩ := e
  obtain ⟨hbegin, hfit, hdata, hcomplete, hcreate⟩ := h
  cases st <;> try rfl
  simp only [Est.onDataCompleted, eUp, partStage, hp.get_put, hp.put_put]
  rcases hdata t with ⟨_ | b, t'⟩
  · rfl
  · cases b <;> rfl

private theorem complete_part (e : Est σ) (g : G) :
    Est.completeTraining (partStage (T := T) get put read h).hooks (eUp put e g)
      = ((Est.completeTraining h e).1, eUp put (Est.completeTraining h e).2 g) := by
  obtain ⟨st, cr, t⟩ := e
  obtain ⟨hbegin, hfit, hdata, hcomplete, hcreate⟩ := h
  cases st <;> try rfl
  all_goals
    simp only [Est.completeTraining, eUp, partStage, hp.get_put, hp.put_put]
    rcases hcomplete t with ⟨_ | _, t'⟩ <;> rfl

omit hp in
private theorem via_none (X : Xf T V V) (n : Nat) (b : List V) : via X (List.replicate n none) b = .ok b := by
  induction n with
  | zero => rfl
  | succ n ih => simp only [List.replicate_succ, via, viaOne, ih]

private theorem offer_part (X : Xf T V V) (n : Nat) (bs : List (List V)) (hb : NoEmptyBatch bs) (e : Est σ) (g : G) :
    offerVia X (List.replicate n none) (partStage get put read h).hooks bs (eUp put e g)
      = ((offer h (bs.map (List.map read)) e).1, eUp put (offer h (bs.map (List.map read)) e).2 g) := by
  induction bs generalizing e with
  | nil => rfl
  | cons b bs ih =>
    have ih := ih (fun b' h => hb b' (by simp [h]))
    simp only [offerVia, offer, via_none, List.map_cons]
    by_cases hs : e.state = .training
    · rw [if_pos (show (eUp put e g).state = .training from hs), if_pos hs]
      obtain ⟨v, vs, rfl⟩ := List.exists_cons_of_ne_nil (hb b (by simp))
      simp only [fit_part hp read h]
      rcases Est.fit h (some ((v :: vs).map read)) e with ⟨_ | r, e'⟩
      · rfl
      · exact ih e'
    · rw [if_neg (show ¬ (eUp put e g).state = .training from hs), if_neg hs]

/-- Training the stage is training the estimator. -/
theorem trainStage_part (X : Xf T V V) (n : Nat) (bs : List (List V)) (hb : NoEmptyBatch bs) (g : G) :
    (trainStage X (List.replicate n none) bs (partStage get put read h) (Est.new g)).1
        = (trainOnce h (bs.map (List.map read)) (Est.new (get g))).1.map (fun _ => none) ∧
    (trainStage X (List.replicate n none) bs (partStage get put read h) (Est.new g)).2.inner
        = put (trainOnce h (bs.map (List.map read)) (Est.new (get g))).2.inner g := by
  have h0 : (Est.new g : Est G) = eUp put (Est.new (get g)) g := by simp [Est.new, eUp, hp.put_get]
  rw [h0]
  simp only [trainStage, Op.andThen, trainOnce, begin_part hp read h]
  rcases Est.beginTraining h (Est.new (get g)) with ⟨_ | u, e1⟩
  · exact ⟨rfl, rfl⟩
  cases u
  simp only [offer_part hp read h X n bs hb]
  rcases offer h (bs.map (List.map read)) e1 with ⟨_ | u, e2⟩
  · exact ⟨rfl, rfl⟩
  cases u
  simp only [data_part hp read h]
  rcases Est.onDataCompleted h e2 with ⟨_ | u, e3⟩
  · exact ⟨rfl, rfl⟩
  cases u
  simp only [complete_part hp read h]
  rcases Est.completeTraining h e3 with ⟨_ | u, e4⟩
  · exact ⟨rfl, rfl⟩
  cases u
  exact ⟨rfl, rfl⟩

omit hp in
/-- If the estimator needs one pass, so does the stage. -/
theorem onePass_part (h1 : ∀ items s, (h.fit items s).1 ≠ .ok .reset) (h2 : ∀ s, (h.onDataCompleted s).1 ≠ .ok false) :
    OnePass (partStage (T := T) get put read h).hooks :=
  ⟨fun items g => h1 (items.map read) (get g), fun g => h2 (get g)⟩

end Feat
