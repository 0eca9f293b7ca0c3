import Verif.Spec.Progress
import Verif.Props.Clients
/-
**C106** What can be trained in C++ can be trained through the C interface.
-/
namespace Feat.CApi
variable {σ ι τ O : Type}

/-- What remains of a training that succeeds. -/
private def Remains (H : Hooks σ ι τ) (bs : List (List ι)) (t : τ) (n : Nat) : Todo ι → Est σ → Prop
  | .ask rest, e => ∃ e₁ e₂, trainLoop H bs n rest e = some (.ok (), e₁) ∧ Est.completeTraining H e₁ = (.ok (), e₂) ∧
      (Est.createTransformer H e₂).1 = .ok t
  | .fit b rest, e => ∃ e₁ e₂, e.state = .training ∧ trainLoop H bs n (b :: rest) e = some (.ok (), e₁) ∧
      Est.completeTraining H e₁ = (.ok (), e₂) ∧ (Est.createTransformer H e₂).1 = .ok t
  | .dataCompleted, e => ∃ e' e₁ e₂, Est.onDataCompleted H e = (.ok (), e') ∧ trainLoop H bs n bs e' = some (.ok (), e₁) ∧
      Est.completeTraining H e₁ = (.ok (), e₂) ∧ (Est.createTransformer H e₂).1 = .ok t
  | .complete, e => ∃ e₂, Est.completeTraining H e = (.ok (), e₂) ∧ (Est.createTransformer H e₂).1 = .ok t
  | .make, e => (Est.createTransformer H e).1 = .ok t

/-- How many calls remain at most. -/
private def left (n : Nat) : Todo ι → Nat
  | .ask _ => 3 * n + 1
  | .fit _ _ => 3 * n
  | .dataCompleted => 3 * n + 2
  | .complete => 1
  | .make => 0

private theorem fit_step {H : Hooks σ ι τ} {bs : List (List ι)} {n : Nat} {b : List ι} {rest : List (List ι)} {e e₁ : Est σ}
    (ht : e.state = .training) (h : trainLoop H bs n (b :: rest) e = some (.ok (), e₁)) :
    ∃ m r e', n = m + 1 ∧ Est.fit H (some b) e = (.ok r, e') ∧
      ((r = .reset ∧ trainLoop H bs m bs e' = some (.ok (), e₁)) ∨
       (r ≠ .reset ∧ rest ≠ [] ∧ trainLoop H bs m rest e' = some (.ok (), e₁)) ∨
       (r ≠ .reset ∧ rest = [] ∧ ∃ e'', Est.onDataCompleted H e' = (.ok (), e'') ∧
          trainLoop H bs m bs e'' = some (.ok (), e₁))) := by
  rcases n with _ | m
  · cases h
  · rw [trainLoop, if_neg (fun hh => hh ht)] at h
    rcases hf : Est.fit H (some b) e with ⟨x | r, e'⟩
    · simp only [hf] at h
      cases h
    · refine ⟨m, r, e', rfl, rfl, ?_⟩
      simp only [hf] at h
      by_cases hr : r = .reset
      · subst hr
        exact .inl ⟨rfl, h⟩
      · right
        have h : (if rest.isEmpty then
            match Est.onDataCompleted H e' with
            | (.error x, e) => some (.error x, e)
            | (.ok (), e) => trainLoop H bs m bs e
          else trainLoop H bs m rest e') = some (.ok (), e₁) := by
          cases r <;> first | exact h | exact absurd rfl hr
        by_cases hn : rest = []
        · right
          rw [if_pos (by simp [hn])] at h
          rcases ho : Est.onDataCompleted H e' with ⟨x | _, e''⟩
          · simp only [ho] at h
            cases h
          · simp only [ho] at h
            exact ⟨hr, hn, e'', rfl, h⟩
        · left
          rw [if_neg (by simpa using hn)] at h
          exact ⟨hr, hn, h⟩

private theorem remains {H : Hooks σ ι τ} {bs : List (List ι)} {t : τ} {n : Nat} {e₀ ez : Est σ} {s : σ}
    (hbegin : Est.beginTraining H (Est.new s) = (.ok (), e₀))
    (ht : trainAndCreate H bs n (Est.new s) = some (.ok t, ez)) {l : List (Sight ι)} {todo : Todo ι} (hd : Doing bs l todo) :
    ∀ e, AllHappened H l e₀ e → ∃ m, Remains H bs t m todo e ∧ l.length + left m todo ≤ 3 * n + 2 := by
  have hcases : (bs = [] ∧ Remains H bs t n .complete e₀) ∨ (bs ≠ [] ∧ Remains H bs t n (.ask bs) e₀) := by
    unfold trainAndCreate at ht
    rw [hbegin] at ht
    by_cases hb : bs = []
    · refine .inl ⟨hb, ?_⟩
      simp only [if_pos (show bs.isEmpty = true by simp [hb])] at ht
      rcases hc : Est.completeTraining H e₀ with ⟨x | _, e₂⟩
      · simp only [hc] at ht; cases ht
      · simp only [hc] at ht
        exact ⟨e₂, hc, by rw [Option.some.inj ht]⟩
    · refine .inr ⟨hb, ?_⟩
      simp only [if_neg (show ¬ bs.isEmpty = true by simpa using hb)] at ht
      rcases hl : trainLoop H bs n bs e₀ with _ | ⟨x | _, e₁⟩
      · simp only [hl] at ht; cases ht
      · simp only [hl] at ht; cases ht
      · simp only [hl] at ht
        rcases hc : Est.completeTraining H e₁ with ⟨x | _, e₂⟩
        · simp only [hc] at ht; cases ht
        · simp only [hc] at ht
          exact ⟨e₁, e₂, hl, hc, by rw [Option.some.inj ht]⟩
  induction hd with
  | nothing h =>
    rintro e rfl
    rcases hcases with ⟨-, h'⟩ | ⟨h', -⟩
    · exact ⟨n, h', by simp [left]⟩
    · exact absurd h h'
  | start h =>
    rintro e rfl
    rcases hcases with ⟨h', -⟩ | ⟨-, h'⟩
    · exact absurd h' h
    · exact ⟨n, h', by simp [left]⟩
  | training h ih =>
    intro e ha
    obtain ⟨m, h1, m', ⟨h2, rfl⟩, rfl⟩ := happened_split _ _ _ _ _ ha
    obtain ⟨k, ⟨e₁, e₂, r1, r2, r3⟩, hk⟩ := ih _ h1
    exact ⟨k, ⟨e₁, e₂, h2.symm, r1, r2, r3⟩, by simp [left] at hk ⊢; omega⟩
  | trained h hs ih =>
    intro e ha
    obtain ⟨m, h1, m', ⟨h2, rfl⟩, rfl⟩ := happened_split _ _ _ _ _ ha
    obtain ⟨k, ⟨e₁, e₂, r1, r2, r3⟩, hk⟩ := ih _ h1
    rcases k with _ | k
    · cases r1
    · rw [h2] at hs
      unfold trainLoop at r1
      rw [if_pos hs] at r1
      cases (Prod.mk.inj (Option.some.inj r1)).2
      exact ⟨k + 1, ⟨e₂, r2, r3⟩, by simp [left] at hk ⊢; omega⟩
  | reset h ih =>
    intro e ha
    obtain ⟨m, h1, m', h2, rfl⟩ := happened_split _ _ _ _ _ ha
    obtain ⟨k, ⟨e₁, e₂, r0, r1, r2, r3⟩, hk⟩ := ih m h1
    obtain ⟨k', r, e', rfl, hf, hh⟩ := fit_step r0 r1
    have hq := hf.symm.trans (show Est.fit H (some _) m = _ from h2)
    injection hq with hq1 hq2
    injection hq1 with hq1
    subst hq1 hq2
    rcases hh with ⟨-, hh⟩ | ⟨hh, -⟩ | ⟨hh, -⟩
    · exact ⟨k', ⟨e₁, e₂, hh, r2, r3⟩, by simp [left] at hk ⊢; omega⟩
    · exact absurd rfl hh
    · exact absurd rfl hh
  | next h hr hn ih =>
    intro e ha
    obtain ⟨m, h1, m', h2, rfl⟩ := happened_split _ _ _ _ _ ha
    obtain ⟨k, ⟨e₁, e₂, r0, r1, r2, r3⟩, hk⟩ := ih m h1
    obtain ⟨k', r, e', rfl, hf, hh⟩ := fit_step r0 r1
    have hq := hf.symm.trans (show Est.fit H (some _) m = _ from h2)
    injection hq with hq1 hq2
    injection hq1 with hq1
    subst hq1 hq2
    rcases hh with ⟨hh, -⟩ | ⟨-, -, hh⟩ | ⟨-, hh, -⟩
    · exact absurd hh hr
    · exact ⟨k', ⟨e₁, e₂, hh, r2, r3⟩, by simp [left] at hk ⊢; omega⟩
    · exact absurd hh hn
  | last h hr ih =>
    intro e ha
    obtain ⟨m, h1, m', h2, rfl⟩ := happened_split _ _ _ _ _ ha
    obtain ⟨k, ⟨e₁, e₂, r0, r1, r2, r3⟩, hk⟩ := ih m h1
    obtain ⟨k', r, e', rfl, hf, hh⟩ := fit_step r0 r1
    have hq := hf.symm.trans (show Est.fit H (some _) m = _ from h2)
    injection hq with hq1 hq2
    injection hq1 with hq1
    subst hq1 hq2
    rcases hh with ⟨hh, -⟩ | ⟨-, hh, -⟩ | ⟨-, -, e'', ho, hh⟩
    · exact absurd hh hr
    · exact absurd rfl hh
    · exact ⟨k', ⟨e'', e₁, e₂, ho, hh, r2, r3⟩, by simp [left] at hk ⊢; omega⟩
  | again h ih =>
    intro e ha
    obtain ⟨m, h1, m', h2, rfl⟩ := happened_split _ _ _ _ _ ha
    obtain ⟨k, ⟨e', e₁, e₂, ho, r1, r2, r3⟩, hk⟩ := ih m h1
    have hq := ho.symm.trans (show Est.onDataCompleted H m = _ from h2)
    injection hq with _ hq2
    subst hq2
    exact ⟨k, ⟨e₁, e₂, r1, r2, r3⟩, by simp [left] at hk ⊢; omega⟩
  | completed h ih =>
    intro e ha
    obtain ⟨m, h1, m', h2, rfl⟩ := happened_split _ _ _ _ _ ha
    obtain ⟨k, ⟨e₂, r2, r3⟩, hk⟩ := ih m h1
    have hq := r2.symm.trans (show Est.completeTraining H m = _ from h2)
    injection hq with _ hq2
    subst hq2
    exact ⟨k, r3, by simp [left] at hk ⊢; omega⟩

/-- **C106** If the C++ training with the batches `bs` succeeds with the transformer `t`, then a client that trains with these batches
through the C interface can always go on: its handle can be created in any process; and whatever was done with other handles so far, its
next call succeeds, until it has the handle of a transformer that is `t`; and it makes at most as many calls as this training does. -/
theorem C106_progress {F : Featurizer σ ι τ O} {s : σ} {bs : List (List ι)} {n : Nat} {t : τ} {ez : Est σ} (hnew : F.new = .ok s)
    (ht : trainAndCreate F.hooks bs n (Est.new s) = some (.ok t, ez)) {es₀ : List (Request ι × Reply O)} {w₀ : World σ τ}
    (h₀ : History F es₀ w₀) {l₁ : Luck} (hl₁ : l₁.Ok w₀) (hd₁ : l₁.Delivers w₀) :
    ∃ h w₁, serve F (.call (.createEstimator true) true) l₁ w₀ = (.returned true (.handle h) none, w₁) ∧
      ∀ {es₁ : List (Request ι × Reply O)} {w₂ : World σ τ}, Session F w₁ es₁ w₂ →
        (∀ e ∈ es₁, e.1 ≠ .call (.destroyEstimator h) true) → ∀ {todo : Todo ι}, Doing bs (sights h es₁) todo →
        (sights h es₁).length ≤ 3 * n + 2 ∧
        ∀ {c : Call ι}, todo.By h c → ∀ {l : Luck}, l.Ok w₂ → l.Delivers w₂ →
          ∃ v w₃, serve F (.call c true) l w₂ = (.returned true v none, w₃) ∧
            ((todo ≠ .make ∧ (∀ k, v ≠ .handle k) ∧ ∃ s todo', sightOf h (.call c true, (.returned true v none : Reply O)) = some s ∧
                Doing bs (sights h (es₁ ++ [(.call c true, .returned true v none)])) todo') ∨
             (todo = .make ∧ ∃ k, v = .handle k ∧ w₃.object k = some (.xf t))) := by
  obtain ⟨e₀, hbegin⟩ : ∃ e₀, Est.beginTraining F.hooks (Est.new s) = (.ok (), e₀) := by
    unfold trainAndCreate at ht
    rcases hb : Est.beginTraining F.hooks (Est.new s) with ⟨x | _, e₀⟩
    · simp only [hb] at ht; cases ht
    · exact ⟨e₀, rfl⟩
  have hc := C60_call h₀ hl₁ hd₁ (.createEstimator true) rfl
  simp only [direct, hnew, hbegin] at hc
  rcases hs₁ : serve F (.call (.createEstimator true) true) l₁ w₀ with ⟨rep, w₁⟩
  rw [hs₁] at hc
  obtain ⟨h, rfl, hh0, -, hobj⟩ := hc
  have hist₁ := h₀.step hl₁ hs₁ trivial
  refine ⟨h, w₁, rfl, ?_⟩
  intro es₁ w₂ s₁ hd todo hdo
  obtain ⟨e, ha, he⟩ := C104_sights hist₁ s₁ h e₀ (by rw [hobj, if_pos rfl]) hd
  obtain ⟨m, hrem, hlen⟩ := remains hbegin ht hdo e ha
  refine ⟨by omega, ?_⟩
  intro c hby l hl hdel
  have hcall := C60_call (s₁.history hist₁) hl hdel c (by cases hby <;> rfl)
  have hh : c.handle = h := by cases hby <;> rfl
  rw [hh, he] at hcall
  rcases hs₂ : serve F (.call c true) l w₂ with ⟨rep, w₃⟩
  rw [hs₂] at hcall
  have hsnoc : ∀ x, sights h (es₁ ++ [x]) = sights h es₁ ++ (sightOf h x).toList := by
    intro x
    simp only [sights, List.filterMap_append]
    congr 1
  cases hby with
  | ask =>
    simp only [direct, onEst, if_true] at hcall
    obtain ⟨rfl, -⟩ := hcall
    refine ⟨_, w₃, rfl, .inl ⟨nofun, nofun, ?_⟩⟩
    rw [hsnoc]
    simp only [sightOf, if_true, Option.toList]
    obtain ⟨e₁, e₂, r1, -, -⟩ := hrem
    by_cases hst : e.state = .training
    · rename_i rest
      rcases rest with _ | ⟨b, rest⟩
      · rcases m with _ | m
        · cases r1
        · rw [trainLoop, if_neg (fun hx => hx hst)] at r1
          cases r1
      · rw [hst]
        exact ⟨_, _, rfl, .training hdo⟩
    · exact ⟨_, _, rfl, .trained hdo hst⟩
  | @fit x rest =>
    obtain ⟨e₁, e₂, r0, r1, -, -⟩ := hrem
    obtain ⟨m', r, e', rfl, hf, hx⟩ := fit_step r0 r1
    simp only [direct, onEst, if_true, hf] at hcall
    obtain ⟨rfl, -⟩ := hcall
    refine ⟨_, w₃, rfl, .inl ⟨nofun, nofun, ?_⟩⟩
    rw [hsnoc]
    simp only [sightOf, if_true, Option.toList]
    rcases hx with ⟨rfl, -⟩ | ⟨h1, h2, -⟩ | ⟨h1, rfl, -⟩
    · exact ⟨_, _, rfl, .reset hdo⟩
    · exact ⟨_, _, rfl, .next hdo h1 h2⟩
    · exact ⟨_, _, rfl, .last hdo h1⟩
  | @fitBuffer b rest =>
    obtain ⟨e₁, e₂, r0, r1, -, -⟩ := hrem
    obtain ⟨m', r, e', rfl, hf, hx⟩ := fit_step r0 r1
    rcases b with _ | ⟨y, b⟩
    · unfold Est.fit at hf
      rw [if_neg (fun hx => hx r0)] at hf
      cases hf
    simp only [direct, onEst, hf] at hcall
    rw [if_neg (by simp)] at hcall
    obtain ⟨rfl, -⟩ := hcall
    refine ⟨_, w₃, rfl, .inl ⟨nofun, nofun, ?_⟩⟩
    rw [hsnoc]
    simp only [sightOf, if_true, Option.toList]
    rcases hx with ⟨rfl, -⟩ | ⟨h1, h2, -⟩ | ⟨h1, rfl, -⟩
    · exact ⟨_, _, rfl, .reset hdo⟩
    · exact ⟨_, _, rfl, .next hdo h1 h2⟩
    · exact ⟨_, _, rfl, .last hdo h1⟩
  | dataCompleted =>
    obtain ⟨e', e₁, e₂, ho, -⟩ := hrem
    simp only [direct, onEst, ho] at hcall
    obtain ⟨rfl, -⟩ := hcall
    refine ⟨_, w₃, rfl, .inl ⟨nofun, nofun, ?_⟩⟩
    rw [hsnoc]
    simp only [sightOf, if_true, Option.toList]
    exact ⟨_, _, rfl, .again hdo⟩
  | complete =>
    obtain ⟨e₂, ho, -⟩ := hrem
    simp only [direct, onEst, ho] at hcall
    obtain ⟨rfl, -⟩ := hcall
    refine ⟨_, w₃, rfl, .inl ⟨nofun, nofun, ?_⟩⟩
    rw [hsnoc]
    simp only [sightOf, if_true, Option.toList]
    exact ⟨_, _, rfl, .completed hdo⟩
  | make =>
    have hm : Est.createTransformer F.hooks e = (.ok t, (Est.createTransformer F.hooks e).2) := by
      rw [← show (Est.createTransformer F.hooks e).1 = .ok t from hrem]
    simp only [direct, if_true] at hcall
    rw [hm] at hcall
    obtain ⟨k, rfl, -, -, hob⟩ := hcall
    exact ⟨_, w₃, rfl, .inr ⟨rfl, k, rfl, by rw [hob, if_pos rfl]⟩⟩

end Feat.CApi
