import Verif.Model.Estimator
import Mathlib.Tactic.Tauto
import Mathlib.Order.Basic
/-
C09 training life cycle, C10 at most one transformer, C11 annotations.
-/
namespace Feat
variable {σ ι τ : Type}

/-- Calls permitted in a state (the documented protocol). -/
def Permitted : TrainingState → EstCall ι → Prop
  | .pending, .begin => True
  | .training, .fit p => ∃ items, p = some items ∧ items ≠ []
  | .training, .dataCompleted | .finished, .dataCompleted => True
  | .training, .complete | .finished, .complete => True
  | .completed, .create => True
  | _, _ => False

/-- Documented transitions of successful calls. -/
def Edge : TrainingState → EstCall ι → TrainingState → Prop
  | .pending, .begin, s => s = .training ∨ s = .finished
  | .training, .fit _, s => s = .training ∨ s = .finished
  | .training, .dataCompleted, s => s = .training ∨ s = .finished
  | .finished, .dataCompleted, s => s = .finished
  | .training, .complete, s | .finished, .complete, s => s = .completed
  | .completed, .create, s => s = .completed
  | _, _, _ => False

/-- Progress of a state. -/
def TrainingState.rank : TrainingState → Nat
  | .pending => 0 | .training => 1 | .finished => 2 | .completed => 3

/-- The estimator after a history of calls (failed ones included). -/
def Est.after (h : Hooks σ ι τ) (e : Est σ) : List (EstCall ι) → Est σ
  | [] => e
  | c :: cs => ((c.run h e).2).after h cs

/-- One step, in full. -/
private theorem step (h : Hooks σ ι τ) (e : Est σ) (c : EstCall ι) :
    (¬ Permitted e.state c → ∃ x, x.isException ∧ c.run h e = (.error x, e)) ∧
    (∀ x, (c.run h e).1 = .error x → (c.run h e).2.state = e.state) ∧
    (∀ r, (c.run h e).1 = .ok r → Edge e.state c (c.run h e).2.state) := by
  obtain ⟨st, cr, s⟩ := e
  cases c with
  | begin =>
    simp only [EstCall.run, Est.beginTraining]
    cases st <;> simp [Permitted, Err.isException, Edge, Except.map]
    rcases h.begin s with ⟨_ | _ | _, s'⟩ <;> simp
  | fit p =>
    simp only [EstCall.run, Est.fit]
    cases st <;> simp [Permitted, Err.isException, Edge, Except.map]
    cases p with
    | none => simp
    | some items =>
      by_cases hi : items = []
      · simp [hi]
      · simp only [hi, if_false]
        rcases h.fit items s with ⟨_ | _ | _ | _, s'⟩ <;> simp [hi]
  | dataCompleted =>
    simp only [EstCall.run, Est.onDataCompleted]
    cases st <;> simp [Permitted, Err.isException, Edge, Except.map]
    rcases h.onDataCompleted s with ⟨_ | _ | _, s'⟩ <;> simp
  | complete =>
    simp only [EstCall.run, Est.completeTraining]
    cases st <;> simp [Permitted, Err.isException, Edge, Except.map] <;>
      rcases h.complete s with ⟨_ | _, s'⟩ <;> simp
  | create =>
    simp only [EstCall.run, Est.createTransformer]
    cases st <;> simp [Permitted, Err.isException, Edge, Except.map]
    cases cr <;> simp
    rcases h.create s with ⟨_ | _ | _, s'⟩ <;> simp

private theorem edge_rank {s s' : TrainingState} {c : EstCall ι} (h : Edge s c s') :
    s.rank ≤ s'.rank := by
  cases s <;> cases c <;> simp only [Edge] at h <;>
    (first | exact absurd h id | (rcases h with rfl | rfl <;> decide))

private theorem step_rank (h : Hooks σ ι τ) (e : Est σ) (c : EstCall ι) :
    e.state.rank ≤ (c.run h e).2.state.rank := by
  obtain ⟨_, h2, h3⟩ := step h e c
  cases hr : (c.run h e).1 with
  | error x => exact Nat.le_of_eq (by rw [h2 x hr])
  | ok r => exact edge_rank (h3 r hr)

private theorem after_rank (h : Hooks σ ι τ) : ∀ (cs : List (EstCall ι)) (e : Est σ),
    e.state.rank ≤ (e.after h cs).state.rank
  | [], _ => Nat.le_refl _
  | c :: cs, e => Nat.le_trans (step_rank h e c) (after_rank h cs _)

/-- **C09** For every concrete estimator (arbitrary hooks, which may also throw), after any history of
calls, for every next call:
* a call the state does not permit (a null or empty `fit` buffer included) throws an exception and
  leaves the whole object — state and the concrete estimator's data — unchanged;
* a call that throws for any other reason leaves the state unchanged;
* a successful call follows the documented transitions;
and whatever is called later, the state never moves back; in particular `Completed` is final. -/
theorem C09_life_cycle (h : Hooks σ ι τ) (s : σ) (history : List (EstCall ι)) (c : EstCall ι)
    (later : List (EstCall ι)) :
    let e := (Est.new s).after h history
    (¬ Permitted e.state c → ∃ x, x.isException ∧ c.run h e = (.error x, e)) ∧
    (∀ x, (c.run h e).1 = .error x → (c.run h e).2.state = e.state) ∧
    (∀ r, (c.run h e).1 = .ok r → Edge e.state c (c.run h e).2.state) ∧
    e.state.rank ≤ (e.after h later).state.rank ∧
    (e.state = .completed → (e.after h later).state = .completed) := by
  intro e
  obtain ⟨h1, h2, h3⟩ := step h e c
  refine ⟨h1, h2, h3, after_rank h later e, fun hc => ?_⟩
  have := after_rank h later e
  rw [hc] at this
  revert this
  cases (e.after h later).state <;> simp [TrainingState.rank]

/-- Which hook answer leads where: `begin_training` starts training exactly if the hook returns true,
`fit` finishes exactly on `Complete`, `on_data_completed` finishes exactly if the hook returns true. -/
theorem C09_hook_answers (h : Hooks σ ι τ) (e : Est σ) :
    (∀ b s', e.state = .pending → h.begin e.inner = (.ok b, s') →
      (EstCall.begin.run h e).2 = { e with state := if b then .training else .finished, inner := s' }) ∧
    (∀ items r s', e.state = .training → items ≠ [] → h.fit items e.inner = (.ok r, s') →
      ((EstCall.fit (some items)).run h e).2 =
        { e with state := if r = .complete then .finished else .training, inner := s' }) ∧
    (∀ b s', e.state = .training → h.onDataCompleted e.inner = (.ok b, s') →
      (EstCall.dataCompleted.run h e).2 =
        { e with state := if b then .finished else .training, inner := s' }) ∧
    (∀ s', e.state = .training ∨ e.state = .finished → h.complete e.inner = (.ok (), s') →
      (EstCall.complete.run h e).2 = { e with state := .completed, inner := s' }) := by
  obtain ⟨st, cr, s⟩ := e
  refine ⟨?_, ?_, ?_, ?_⟩
  · intro b s' hs hb
    simp only at hs hb; subst hs
    cases b <;> simp [EstCall.run, Est.beginTraining, hb]
  · intro items r s' hs hi hb
    simp only at hs hb; subst hs
    cases r <;> simp [EstCall.run, Est.fit, hb, hi]
  · intro b s' hs hb
    simp only at hs hb; subst hs
    cases b <;> simp [EstCall.run, Est.onDataCompleted, hb]
  · intro s' hs hb
    simp only at hs hb
    rcases hs with hs | hs <;> subst hs <;> simp [EstCall.run, Est.completeTraining, hb]

/-- A concrete estimator (counts items, finishes at 3, yields its count). -/
def exampleHooks : Hooks Nat Nat Nat where
  begin := fun s => (.ok true, s)
  fit items := fun s => (.ok (if s + items.length ≥ 3 then .complete else .continue), s + items.length)
  onDataCompleted := fun s => (.ok true, s)
  complete := fun s => (.ok (), s)
  create := fun s => (.ok (some s), s)

/-- Reachable: a full life cycle with two refused calls in between. -/
example : ((Est.new 0).after exampleHooks
      [.fit (some [1]), .begin, .fit (some [1]), .fit none, .fit (some [5, 6])]).state = .finished ∧
    ((Est.new 0).after exampleHooks
      [.begin, .fit (some [1]), .dataCompleted, .complete, .begin]).state = .completed ∧
    ¬ Permitted (ι := Nat) .finished (.fit (some [1])) :=
  ⟨by decide, by decide, id⟩

/-- The transformers handed out along a history of calls. -/
def Est.transformers (h : Hooks σ ι τ) (e : Est σ) : List (EstCall ι) → List τ
  | [] => []
  | c :: cs =>
    (match (c.run h e).1 with
      | .ok (.transformer t) => [t]
      | _ => []) ++ ((c.run h e).2).transformers h cs

private def handsOut : Except Err (EstOut τ) → Bool
  | .ok (.transformer _) => true
  | _ => false

private theorem create_step (h : Hooks σ ι τ) (e : Est σ) (c : EstCall ι) :
    (c.run h e).2.created = (e.created || handsOut (c.run h e).1) ∧
    (handsOut (c.run h e).1 = true → e.state = .completed ∧ e.created = false) := by
  obtain ⟨st, cr, s⟩ := e
  cases c with
  | begin =>
    simp only [EstCall.run, Est.beginTraining]
    cases st <;> simp [Except.map, handsOut]
    rcases h.begin s with ⟨_ | _ | _, s'⟩ <;> simp
  | fit p =>
    simp only [EstCall.run, Est.fit]
    cases st <;> simp [Except.map, handsOut]
    cases p with
    | none => simp
    | some items =>
      by_cases hi : items = []
      · simp [hi]
      · simp only [hi, if_false]
        rcases h.fit items s with ⟨_ | _ | _ | _, s'⟩ <;> simp [hi]
  | dataCompleted =>
    simp only [EstCall.run, Est.onDataCompleted]
    cases st <;> simp [Except.map, handsOut]
    rcases h.onDataCompleted s with ⟨_ | _ | _, s'⟩ <;> simp
  | complete =>
    simp only [EstCall.run, Est.completeTraining]
    cases st <;> simp [Except.map, handsOut] <;>
      rcases h.complete s with ⟨_ | _, s'⟩ <;> simp
  | create =>
    simp only [EstCall.run, Est.createTransformer]
    cases st <;> simp [Except.map, handsOut]
    cases cr <;> simp
    rcases h.create s with ⟨_ | _ | _, s'⟩ <;> simp

private theorem transformers_cons (h : Hooks σ ι τ) (e : Est σ) (c : EstCall ι)
    (cs : List (EstCall ι)) :
    ∃ l : List τ, e.transformers h (c :: cs) = l ++ ((c.run h e).2).transformers h cs ∧
      l.length ≤ 1 ∧ (l ≠ [] ↔ handsOut (c.run h e).1 = true) := by
  refine ⟨_, rfl, ?_⟩
  rcases (c.run h e).1 with _ | _ | _ | _ <;> simp [handsOut]

private theorem none_after_created (h : Hooks σ ι τ) : ∀ (cs : List (EstCall ι)) (e : Est σ),
    e.created = true → e.transformers h cs = []
  | [], _, _ => rfl
  | c :: cs, e, hc => by
    obtain ⟨h1, h2⟩ := create_step h e c
    obtain ⟨l, hl, _, hl2⟩ := transformers_cons h e c cs
    have hno : ¬ handsOut (c.run h e).1 = true := fun hh => by
      have := (h2 hh).2; rw [hc] at this; simp at this
    rw [hl, none_after_created h cs _ (by rw [h1, hc]; rfl), List.append_nil]
    by_contra hne
    exact hno (hl2.1 hne)

/-- **C10** Whatever is called on an estimator, in whatever order, at most one transformer is ever
handed out. -/
theorem C10_at_most_one (h : Hooks σ ι τ) (s : σ) (calls : List (EstCall ι)) :
    ((Est.new s).transformers h calls).length ≤ 1 := by
  suffices ∀ (cs : List (EstCall ι)) (e : Est σ), (e.transformers h cs).length ≤ 1 from this _ _
  intro cs
  induction cs with
  | nil => intro e; simp [Est.transformers]
  | cons c cs ih =>
    intro e
    obtain ⟨l, hl, hl1, hl2⟩ := transformers_cons h e c cs
    rw [hl]
    by_cases hne : l = []
    · subst hne; simpa using ih _
    · have h1 := (create_step h e c).1
      rw [hl2.1 hne, Bool.or_true] at h1
      rw [none_after_created h cs _ h1, List.append_nil]
      exact hl1

/-- **C10** A transformer is handed out only by an estimator that completed training and has not handed
one out before; every other attempt throws an exception and changes nothing. -/
theorem C10_only_completed (h : Hooks σ ι τ) (s : σ) (history : List (EstCall ι)) :
    let e := (Est.new s).after h history
    (∀ c t, (EstCall.run h c e).1 = .ok (.transformer t) →
      e.state = .completed ∧ (Est.new s).transformers h history = []) ∧
    (e.state ≠ .completed ∨ (Est.new s).transformers h history ≠ [] →
      EstCall.create.run h e = (.error .runtimeError, e)) := by
  intro e
  have inv : ∀ (cs : List (EstCall ι)) (e : Est σ),
      (e.after h cs).created = true ↔ e.created = true ∨ e.transformers h cs ≠ [] := by
    intro cs
    induction cs with
    | nil => intro e; simp [Est.after, Est.transformers]
    | cons c cs ih =>
      intro e
      obtain ⟨l, hl, hl1, hl2⟩ := transformers_cons h e c cs
      rw [hl]
      simp only [Est.after, ih, (create_step h e c).1, Bool.or_eq_true, ← hl2]
      simp only [ne_eq, List.append_eq_nil_iff, not_and]
      tauto
  have hinv := inv history (Est.new s)
  simp only [Est.new, Bool.false_eq_true, false_or] at hinv
  refine ⟨?_, ?_⟩
  · intro c t ht
    obtain ⟨h1, h2⟩ := (create_step h e c).2 (by rw [ht]; rfl)
    refine ⟨h1, ?_⟩
    by_contra hne
    have := hinv.2 hne
    rw [show (Est.after h ⟨.pending, false, s⟩ history) = e from rfl, h2] at this
    simp at this
  · intro hh
    rcases hh with hh | hh
    · simp [EstCall.run, Est.createTransformer, hh, Except.map]
    · have := hinv.2 hh
      rw [show (Est.after h ⟨.pending, false, s⟩ history) = e from rfl] at this
      by_cases hs : e.state = .completed
      · simp [EstCall.run, Est.createTransformer, hs, this, Except.map]
      · simp [EstCall.run, Est.createTransformer, hs, Except.map]

example : (Est.new 0).transformers exampleHooks
    [.create, .begin, .fit (some [1, 2]), .complete, .create, .create, .complete] = [2] := by decide

/-! ### C11 -/

/-- The annotations stored under a column and a name, oldest first. -/
def stored {α : Type} (maps : AnnotationMaps α) (col : Nat) (name : String) : List α :=
  match (maps.getD col []).find? (fun e => e.1 == name) with
  | none => []
  | some e => e.2

/-- An attempt to add an annotation. -/
structure AddCall (α : Type) where
  annotation : Option α
  col : Nat
  name : String

/-- The store after a history of attempts. -/
def afterAdds {α : Type} (maps : AnnotationMaps α) : List (AddCall α) → AnnotationMaps α
  | [] => maps
  | c :: cs => afterAdds (addAnnotation c.annotation c.col c.name maps).2 cs

/-- The valid additions for a column and a name in a history, in order. -/
def addsFor {α : Type} (ncols : Nat) (calls : List (AddCall α)) (col : Nat) (name : String) :
    List α :=
  calls.filterMap fun c => if c.col = col ∧ c.name = name ∧ c.col < ncols then c.annotation else none

private theorem find_addToColumn {α : Type} (name name' : String) (a : α) :
    ∀ m : List (String × List α),
    (match (addToColumn name a m).find? (fun e => e.1 == name') with
      | none => [] | some e => e.2) =
    (match m.find? (fun e => e.1 == name') with
      | none => [] | some e => e.2) ++ (if name = name' then [a] else [])
  | [] => by
    by_cases h : name = name' <;> simp [addToColumn, h]
  | (n, as) :: rest => by
    have ih := find_addToColumn name name' a rest
    by_cases hn : n = name
    · subst hn
      by_cases h : n = name'
      · subst h; simp [addToColumn]
      · simp [addToColumn, h]
    · by_cases h : n = name'
      · subst h
        simp [addToColumn, hn, Ne.symm hn]
      · simp only [addToColumn, if_neg hn, List.find?_cons]
        rw [show (n == name') = false by simpa using h]
        exact ih

private theorem stored_add {α : Type} (maps : AnnotationMaps α) (c : AddCall α) (col : Nat)
    (name : String) :
    stored (addAnnotation c.annotation c.col c.name maps).2 col name
      = stored maps col name ++ addsFor maps.length [c] col name ∧
    (addAnnotation c.annotation c.col c.name maps).2.length = maps.length := by
  obtain ⟨a, ccol, cname⟩ := c
  cases a with
  | none => simp [addAnnotation, addsFor]
  | some a =>
    by_cases hc : ccol < maps.length
    · have hc' : ¬ (ccol ≥ maps.length) := by omega
      simp only [addAnnotation, if_neg hc']
      refine ⟨?_, by simp⟩
      by_cases hcol : ccol = col
      · subst hcol
        have hget : (maps.modify ccol (addToColumn cname a)).getD ccol []
            = addToColumn cname a (maps.getD ccol []) := by
          simp only [List.getD_eq_getElem?_getD, List.getElem?_modify]
          rw [List.getElem?_eq_getElem hc]; simp
        have := find_addToColumn cname name a (maps.getD ccol [])
        simp only [stored, hget, this, addsFor]
        by_cases hn : cname = name <;> simp [hn, hc]
      · have hget : (maps.modify ccol (addToColumn cname a)).getD col [] = maps.getD col [] := by
          simp only [List.getD_eq_getElem?_getD, List.getElem?_modify]
          cases maps[col]? <;> simp [hcol]
        simp only [stored, hget]; simp [addsFor, hcol]
    · have hc' : ccol ≥ maps.length := by omega
      simp [addAnnotation, addsFor, hc, hc']

/-- **C11** After any history of additions, what is stored under a column and name is what was stored
before followed by exactly the valid additions made for that very column and name, in order: nothing
is ever removed, reordered or changed, and no other column or name is affected. -/
theorem C11_append_only {α : Type} (maps : AnnotationMaps α) (calls : List (AddCall α)) (col : Nat)
    (name : String) :
    stored (afterAdds maps calls) col name
      = stored maps col name ++ addsFor maps.length calls col name := by
  induction calls generalizing maps with
  | nil => simp [afterAdds, addsFor]
  | cons c cs ih =>
    obtain ⟨h1, h2⟩ := stored_add maps c col name
    show stored (afterAdds (addAnnotation c.annotation c.col c.name maps).2 cs) col name = _
    rw [ih, h1, h2, List.append_assoc]
    congr 1
    simp only [addsFor, List.filterMap_cons, List.filterMap_nil]
    split <;> simp_all

/-- **C11** A lookup yields the earliest stored annotation of the requested kind, or nothing; it throws
exactly on an invalid column or an empty name. -/
theorem C11_lookup {α : Type} (maps : AnnotationMaps α) (kind : α → Bool) (col : Nat)
    (name : String) :
    (col < maps.length ∧ name ≠ "" →
      getAnnotation kind maps col name = .ok ((stored maps col name).find? kind)) ∧
    (¬ (col < maps.length ∧ name ≠ "") →
      getAnnotation kind maps col name = .error .invalidArgument) := by
  constructor
  · rintro ⟨h1, h2⟩
    simp only [getAnnotation, stored]
    rw [if_neg (by omega), if_neg h2]
    cases (maps.getD col []).find? (fun e => e.1 == name) <;> simp
  · intro h
    simp only [getAnnotation]
    by_cases h1 : col < maps.length
    · rw [if_neg (by omega), if_pos (by by_contra h2; exact h ⟨h1, h2⟩)]
    · rw [if_pos (by omega)]

/-- **C11** A null annotation or an invalid column is rejected with an exception and changes nothing;
every other addition succeeds. An estimator with an empty name or without columns cannot be made. -/
theorem C11_rejections {α : Type} (maps : AnnotationMaps α) (a : Option α) (col : Nat)
    (name : String) :
    (a = none ∨ maps.length ≤ col →
      addAnnotation a col name maps = (.error .invalidArgument, maps)) ∧
    (a ≠ none ∧ col < maps.length → (addAnnotation a col name maps).1 = .ok ()) ∧
    (newEstimatorOk name maps = .ok () ↔ name ≠ "" ∧ maps ≠ []) := by
  refine ⟨?_, ?_, ?_⟩
  · intro h
    cases a with
    | none => rfl
    | some a =>
      simp only [reduceCtorEq, false_or] at h
      simp [addAnnotation, h]
  · rintro ⟨h1, h2⟩
    cases a with
    | none => exact absurd rfl h1
    | some a => simp [addAnnotation, Nat.not_le.2 h2]
  · by_cases h1 : name = ""
    · simp [newEstimatorOk, h1]
    · cases maps <;> simp [newEstimatorOk, h1]

/-- A two-column history with rejected additions in between. -/
example :
    let maps : AnnotationMaps Nat := [[], []]
    let calls : List (AddCall Nat) := [⟨some 3, 0, "Mean"⟩, ⟨none, 0, "Mean"⟩, ⟨some 4, 1, "Mean"⟩,
      ⟨some 6, 0, "Mean"⟩, ⟨some 7, 2, "Mean"⟩, ⟨some 8, 0, "Max"⟩]
    stored (afterAdds maps calls) 0 "Mean" = [3, 6] ∧
    getAnnotation (fun n => n % 2 == 0) (afterAdds maps calls) 0 "Mean" = .ok (some 6) :=
  ⟨rfl, rfl⟩

end Feat
