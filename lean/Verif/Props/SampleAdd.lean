import Verif.Model.SampleAdd
import Verif.Props.Estimator
/-
C85: the sample featurizer.
-/
namespace Feat

/-- The items of the `fit` calls of a history that did not throw. -/
def acceptedItems (e : Est UInt32) : List (EstCall UInt16) → List UInt16
  | [] => []
  | c :: cs =>
    (match c, (c.run sampleAddHooks e).1 with
      | .fit (some items), .ok _ => items
      | _, _ => []) ++ acceptedItems (c.run sampleAddHooks e).2 cs

private theorem addItems_toNat (xs : List UInt16) (acc : UInt32) :
    (addItems xs acc).toNat = (acc.toNat + (xs.map UInt16.toNat).sum) % 2 ^ 32 := by
  induction xs generalizing acc with
  | nil =>
    have := acc.toNat_lt
    simp only [addItems, List.map_nil, List.sum_nil, Nat.add_zero]
    omega
  | cons x xs ih =>
    simp only [addItems, ih, UInt32.toNat_add, UInt16.toNat_toUInt32, List.map_cons, List.sum_cons]
    omega

private theorem add_step (e : Est UInt32) (c : EstCall UInt16) :
    (c.run sampleAddHooks e).2.inner.toNat = (e.inner.toNat + (((match c, (c.run sampleAddHooks e).1 with
      | .fit (some items), .ok _ => items
      | _, _ => []) : List UInt16).map UInt16.toNat).sum) % 2 ^ 32 := by
  obtain ⟨st, cr, s⟩ := e
  have hs := s.toNat_lt
  have h0 : s.toNat = s.toNat % 2 ^ 32 := by omega
  cases c with
  | fit p =>
    cases st <;> rcases p with _ | (_ | ⟨b, bs⟩) <;>
      simp [EstCall.run, Est.fit, sampleAddHooks, Except.map] <;> first | exact h0 | skip
    exact addItems_toNat (b :: bs) s
  | begin => cases st <;> simp [EstCall.run, Est.beginTraining, sampleAddHooks] <;> exact h0
  | dataCompleted => cases st <;> simp [EstCall.run, Est.onDataCompleted, sampleAddHooks] <;> exact h0
  | complete => cases st <;> simp [EstCall.run, Est.completeTraining, sampleAddHooks] <;> exact h0
  | create => cases st <;> cases cr <;> simp [EstCall.run, Est.createTransformer, sampleAddHooks] <;> exact h0

/-- **C85** After any history of calls on a new estimator, failed ones included: a transformer that can be created adds, modulo
2³², the sum of all numbers of the `fit` calls that did not throw. -/
theorem C85_sample_add (history : List (EstCall UInt16)) (delta : UInt32)
    (h : (EstCall.create.run sampleAddHooks (Est.after sampleAddHooks (Est.new 0) history)).1 = .ok (.transformer delta))
    (input : UInt16) :
    (sampleAddExecute delta input).toNat
      = (input.toNat + ((acceptedItems (Est.new 0) history).map UInt16.toNat).sum) % 2 ^ 32 := by
  have key : ∀ (cs : List (EstCall UInt16)) (e : Est UInt32),
      (Est.after sampleAddHooks e cs).inner.toNat = (e.inner.toNat + ((acceptedItems e cs).map UInt16.toNat).sum) % 2 ^ 32 := by
    intro cs
    induction cs with
    | nil =>
      intro e
      have := e.inner.toNat_lt
      simp only [Est.after, acceptedItems, List.map_nil, List.sum_nil, Nat.add_zero]
      omega
    | cons c cs ih =>
      intro e
      simp only [Est.after, acceptedItems, List.map_append, List.sum_append]
      rw [ih, add_step e c]
      omega
  have hd : delta = (Est.after sampleAddHooks (Est.new 0) history).inner := by
    generalize Est.after sampleAddHooks (Est.new 0) history = e at h
    obtain ⟨st, cr, s⟩ := e
    cases st <;> cases cr <;> simp [EstCall.run, Est.createTransformer, sampleAddHooks, Except.map] at h
    exact h.symm
  have h1 := key history (Est.new 0)
  rw [← hd] at h1
  simp only [sampleAddExecute, UInt32.toNat_add, UInt16.toNat_toUInt32, h1, Est.new, UInt32.toNat_zero]
  omega

/-- Two batches, an empty one in between (refused), then the end of the data. -/
example : (EstCall.create.run sampleAddHooks (Est.after sampleAddHooks (Est.new 0)
      [.begin, .fit (some [1, 2]), .fit (some []), .fit (some [40000, 40000]), .dataCompleted, .complete])).1
      = .ok (.transformer 80003) ∧ sampleAddExecute 80003 5 = 80008 := by
  constructor
  · rfl
  · decide

end Feat
