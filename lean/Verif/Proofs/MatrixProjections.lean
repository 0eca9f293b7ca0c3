import Verif.Model.MatrixProjections
import Verif.Spec.MatrixProjections
import Verif.Props.Estimator
import Mathlib.Tactic.Linarith
/-
Call histories of the estimators of C77 and C78.
-/
namespace Feat

/-- The items of a call, if it is a `fit` call that succeeds. -/
def EstCall.fitted {ι τ : Type} : EstCall ι → Except Err (EstOut τ) → List (List ι)
  | .fit (some items), .ok _ => [items]
  | _, _ => []

/-- The items of the successful `fit` calls of a history, in order. -/
def Est.fitted {σ ι τ : Type} (h : Hooks σ ι τ) (e : Est σ) : List (EstCall ι) → List (List ι)
  | [] => []
  | c :: cs => c.fitted (c.run h e).1 ++ ((c.run h e).2).fitted h cs

namespace MatrixProjections
variable (train : DMat → DMat)

/-- What is known of the estimator when the items in `g` have been fitted. -/
private def Inv (e : Est DMat) (g : List (List DMat)) : Prop :=
  (g = [] ∧ e.inner = DMat.empty ∧ e.state ≠ .finished) ∨
  (∃ A, g = [[A]] ∧ 0 < A.rows ∧ 0 < A.cols ∧ (e.inner = train A ∨ e.inner = DMat.empty) ∧
    (e.state = .finished ∨ e.state = .completed))

private theorem inv_step (e : Est DMat) (g : List (List DMat)) (c : EstCall DMat) (hI : Inv train e g) :
    Inv train (c.run (matrixHooks train) e).2
      (g ++ c.fitted (c.run (matrixHooks train) e).1) := by
  obtain ⟨st, cr, s⟩ := e
  cases c with
  | begin =>
    simp only [EstCall.run, Est.beginTraining, matrixHooks, EstCall.fitted, List.append_nil]
    cases st <;> simp_all [Inv]
  | dataCompleted =>
    simp only [EstCall.run, Est.onDataCompleted, matrixHooks, EstCall.fitted, List.append_nil]
    cases st <;> simp_all [Inv]
  | complete =>
    simp only [EstCall.run, Est.completeTraining, matrixHooks, EstCall.fitted, List.append_nil]
    cases st <;> simp_all [Inv]
  | create =>
    simp only [EstCall.run, Est.createTransformer, matrixHooks, EstCall.fitted, List.append_nil]
    cases st <;> simp_all [Inv]
    by_cases h0 : s.rows = 0 ∨ s.cols = 0 <;> cases cr <;> simp_all
    all_goals
      rcases hI with hI | ⟨A, hI⟩
      · exact Or.inl hI.1
      · exact Or.inr ⟨A, hI.1, hI.2.1, hI.2.2.1⟩
  | fit p =>
    by_cases hst : st = .training
    · subst hst
      have hI' : g = [] ∧ s = DMat.empty := by
        rcases hI with ⟨h1, h2, _⟩ | ⟨A, _, _, _, _, h⟩
        · exact ⟨h1, h2⟩
        · simp at h
      obtain ⟨rfl, rfl⟩ := hI'
      cases p with
      | none => simp [EstCall.run, EstCall.fitted, Est.fit, Inv, Except.map]
      | some items =>
        rcases items with _ | ⟨A, _ | ⟨B, rest⟩⟩
        · simp [EstCall.run, EstCall.fitted, Est.fit, Inv, Except.map]
        · by_cases hA : A.rows = 0 ∨ A.cols = 0
          · simp [EstCall.run, EstCall.fitted, Est.fit, Inv, Except.map, matrixHooks, hA]
          · have h1 : 0 < A.rows := by omega
            have h2 : 0 < A.cols := by omega
            simp [EstCall.run, EstCall.fitted, Est.fit, Inv, Except.map, matrixHooks, hA, h1, h2]
        · simp [EstCall.run, EstCall.fitted, Est.fit, Inv, Except.map, matrixHooks]
    · have : EstCall.run (matrixHooks train) (.fit p) ⟨st, cr, s⟩ = (.error .runtimeError, ⟨st, cr, s⟩) := by
        simp [EstCall.run, Est.fit, hst, Except.map]
      rw [this]
      cases p <;> simpa [EstCall.fitted] using hI

private theorem inv_after (cs : List (EstCall DMat)) : ∀ (e : Est DMat) (g : List (List DMat)),
    Inv train e g → Inv train (e.after (matrixHooks train) cs) (g ++ e.fitted (matrixHooks train) cs) := by
  induction cs with
  | nil => intro e g h; simpa [Est.after, Est.fitted] using h
  | cons c cs ih =>
    intro e g h
    have := ih _ _ (inv_step train e g c h)
    simpa only [Est.after, Est.fitted, List.append_assoc] using this

/-- Whatever is called on an estimator: when it hands out a transformer, exactly one matrix, which is not
empty, was fitted, and the transformer holds what is computed from it. -/
theorem history (calls : List (EstCall DMat)) (t : DMat)
    (h : (EstCall.create.run (matrixHooks train)
      ((Est.new DMat.empty).after (matrixHooks train) calls)).1 = .ok (.transformer t)) :
    ∃ A : DMat, (Est.new DMat.empty).fitted (matrixHooks train) calls = [[A]] ∧
      0 < A.rows ∧ 0 < A.cols ∧ t = train A := by
  have hI := inv_after train calls (Est.new DMat.empty) [] (Or.inl ⟨rfl, rfl, by simp [Est.new]⟩)
  rw [List.nil_append] at hI
  obtain ⟨e, he⟩ : ∃ e, (Est.new DMat.empty).after (matrixHooks train) calls = e := ⟨_, rfl⟩
  rw [he] at h hI
  obtain ⟨st, cr, s⟩ := e
  have hs : s.rows * s.cols ≠ 0 ∧ t = s := by
    simp only [EstCall.run, Est.createTransformer, matrixHooks] at h
    cases st <;> simp [Except.map] at h
    cases cr <;> simp at h
    by_cases h0 : s.rows = 0 ∨ s.cols = 0
    · simp [h0] at h
    · simp only [h0] at h
      simp at h
      exact ⟨by simpa using h0, h.symm⟩
  rcases hI with ⟨_, h2, _⟩ | ⟨A, h1, h2, h3, h4, _⟩
  · simp only at h2; rw [h2] at hs; simp [DMat.empty] at hs
  · rcases h4 with h4 | h4
    · exact ⟨A, h1, h2, h3, hs.2.trans h4⟩
    · simp only at h4; rw [h4] at hs; simp [DMat.empty] at hs

/-- Training on a matrix that is not empty hands out what is computed from it. -/
theorem trained (A : DMat) (hr : 0 < A.rows) (hc : 0 < A.cols)
    (h : 0 < (train A).rows ∧ 0 < (train A).cols) :
    (EstCall.create.run (matrixHooks train) ((Est.new DMat.empty).after (matrixHooks train)
      [.begin, .fit (some [A]), .complete])).1 = .ok (.transformer (train A)) := by
  have h1 : ¬ (A.rows = 0 ∨ A.cols = 0) := by omega
  have h2 : ¬ ((train A).rows = 0 ∨ (train A).cols = 0) := by omega
  simp [EstCall.run, Est.after, Est.new, Est.beginTraining, Est.fit, Est.completeTraining,
    Est.createTransformer, matrixHooks, h1, h2, Except.map]

/-- Without a fitted matrix no transformer is made. -/
theorem untrained (calls : List (EstCall DMat))
    (h : (Est.new DMat.empty).fitted (matrixHooks train) calls = []) :
    ∃ e : Err, e.isException ∧ (EstCall.create.run (matrixHooks train)
      ((Est.new DMat.empty).after (matrixHooks train) calls)).1 = .error e := by
  have hI := inv_after train calls (Est.new DMat.empty) [] (Or.inl ⟨rfl, rfl, by simp [Est.new]⟩)
  rw [List.nil_append, h] at hI
  obtain ⟨e, he⟩ : ∃ e, (Est.new DMat.empty).after (matrixHooks train) calls = e := ⟨_, rfl⟩
  rw [he] at hI ⊢
  obtain ⟨st, cr, s⟩ := e
  rcases hI with ⟨_, h2, _⟩ | ⟨A, h1, _⟩
  · simp only at h2; subst h2
    cases st <;> cases cr <;>
      simp [EstCall.run, Est.createTransformer, matrixHooks, Except.map, DMat.empty, Err.isException]
  · simp at h1

end MatrixProjections
end Feat
