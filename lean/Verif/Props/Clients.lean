import Verif.Spec.Clients
import Verif.Model.CPipelines
import Verif.Props.Sessions
import Verif.Props.Encoders
/-
C104 for a client that trains with the standard loop.
-/
namespace Feat.CApi
variable {σ ι τ O : Type}

/-- The call behind a sight, made directly: from the estimator `e` to the estimator `e'`. -/
def Sight.Happened (H : Hooks σ ι τ) : Sight ι → Est σ → Est σ → Prop
  | .state s, e, e' => s = e.state ∧ e' = e
  | .fitted xs r, e, e' => Est.fit H (some xs) e = (.ok r, e')
  | .dataCompleted, e, e' => Est.onDataCompleted H e = (.ok (), e')
  | .completed, e, e' => Est.completeTraining H e = (.ok (), e')
  | .other, _, _ => True

/-- All calls, one after the other. -/
def AllHappened (H : Hooks σ ι τ) : List (Sight ι) → Est σ → Est σ → Prop
  | [], e, e' => e' = e
  | s :: l, e, e' => ∃ m, s.Happened H e m ∧ AllHappened H l m e'

private theorem all_append (H : Hooks σ ι τ) (l l' : List (Sight ι)) (e m e' : Est σ) (h : AllHappened H l e m)
    (h' : AllHappened H l' m e') : AllHappened H (l ++ l') e e' := by
  induction l generalizing e with
  | nil => cases h; exact h'
  | cons s l ih => obtain ⟨a, ha, hl⟩ := h; exact ⟨a, ha, ih a hl⟩

theorem happened_split (H : Hooks σ ι τ) (l l' : List (Sight ι)) (e e' : Est σ) (h : AllHappened H (l ++ l') e e') :
    ∃ m, AllHappened H l e m ∧ AllHappened H l' m e' := by
  induction l generalizing e with
  | nil => exact ⟨e, rfl, h⟩
  | cons s l ih =>
    obtain ⟨a, ha, hl⟩ := h
    obtain ⟨m, h1, h2⟩ := ih a hl
    exact ⟨m, ⟨a, ha, h1⟩, h2⟩

private theorem sight_failed (k : Nat) (r : Request ι) (v : Value O) (err : Option Nat) (a : Step ι) (h : stepOf k r = some a) :
    sightOf k (r, .returned false v err) = some .other := by
  unfold sightOf
  split <;> simp_all

/-- One request while an estimator lives. -/
private theorem one_sight {F : Featurizer σ ι τ O} {es : List (Request ι × Reply O)} {w w' : World σ τ}
    (h : History F es w) {l : Luck} (hl : l.Ok w) {r : Request ι} {rep : Reply O}
    (hs : serve F r l w = (rep, w')) (hb : rep.cameBack) (k : Nat) (e : Est σ) (hk : w.object k = some (.est e))
    (hd : r ≠ .call (.destroyEstimator k) true) :
    ∃ e', w'.object k = some (.est e') ∧ ((sightOf k (r, rep) = none ∧ e' = e) ∨
      ∃ s, sightOf k (r, rep) = some s ∧ s.Happened F.hooks e e') := by
  rcases kept h hl hs hb k _ hk (fun e he => by cases he) with ⟨c, rfl, hck, ho⟩ | ⟨hw', hno⟩
  · cases c with
    | createEstimator out => have h0 := h.object_zero; rw [show (0 : Nat) = k from hck, hk] at h0; cases h0
    | createWithDefault out => have h0 := h.object_zero; rw [show (0 : Nat) = k from hck, hk] at h0; cases h0
    | loadTransformer b out => have h0 := h.object_zero; rw [show (0 : Nat) = k from hck, hk] at h0; cases h0
    | destroyEstimator i => exact absurd (by rw [show i = k from hck]) hd
    | getState i out =>
      cases out
      · exact ⟨e, refused hk ho, .inl ⟨rfl, rfl⟩⟩
      · obtain ⟨h1, h2⟩ := on_est (m := fun e => (.ok e.state, e)) rfl hk ho hb
        rcases h2 with ⟨a, ha, rfl⟩ | ⟨x, i, hx, _⟩
        · cases ha
          exact ⟨e, h1, .inr ⟨.state e.state, by simp [sightOf, show i = k from hck], rfl, rfl⟩⟩
        · cases hx
    | isTrainingComplete i out =>
      cases out
      · exact ⟨e, refused hk ho, .inl ⟨rfl, rfl⟩⟩
      · exact ⟨e, (on_est (m := fun e => (.ok (decide (e.state ≠ .training)), e)) rfl hk ho hb).1, .inl ⟨rfl, rfl⟩⟩
    | fit i x out =>
      have hi : i = k := hck
      cases out
      · exact ⟨e, refused hk ho, .inl ⟨rfl, rfl⟩⟩
      · simp only [direct, if_true] at ho
        rcases hm : Est.fit F.hooks (some [x]) e with ⟨r, e'⟩
        obtain ⟨h1, h2⟩ := on_est hm hk ho hb
        rcases h2 with ⟨a, rfl, rfl⟩ | ⟨y, j, rfl, _, rfl⟩
        · exact ⟨e', h1, .inr ⟨.fitted [x] a, by simp [sightOf, hi], hm⟩⟩
        · exact ⟨e', h1, .inr ⟨.other, sight_failed _ _ _ _ (.batch [x]) (by simp [stepOf, hi]), trivial⟩⟩
    | fitBuffer i xs out =>
      have hi : i = k := hck
      rcases xs with _ | xs
      · exact ⟨e, refused hk ho, .inl ⟨by cases out <;> rfl, rfl⟩⟩
      · simp only [direct] at ho
        by_cases hc : out = false ∨ xs = []
        · rw [if_pos hc] at ho
          refine ⟨e, refused hk ho, .inl ⟨?_, rfl⟩⟩
          rcases hc with rfl | rfl
          · cases xs <;> rfl
          · cases out <;> rfl
        · rw [if_neg hc] at ho
          rcases xs with _ | ⟨x, xs⟩
          · exact absurd (.inr rfl) hc
          · cases out
            · exact absurd (.inl rfl) hc
            · rcases hm : Est.fit F.hooks (some (x :: xs)) e with ⟨r, e'⟩
              obtain ⟨h1, h2⟩ := on_est hm hk ho hb
              rcases h2 with ⟨a, rfl, rfl⟩ | ⟨y, j, rfl, _, rfl⟩
              · exact ⟨e', h1, .inr ⟨.fitted (x :: xs) a, by simp [sightOf, hi], hm⟩⟩
              · exact ⟨e', h1, .inr ⟨.other, sight_failed _ _ _ _ (.batch (x :: xs)) (by simp [stepOf, hi]), trivial⟩⟩
    | onDataCompleted i =>
      have hi : i = k := hck
      rcases hm : Est.onDataCompleted F.hooks e with ⟨r, e'⟩
      obtain ⟨h1, h2⟩ := on_est hm hk ho hb
      rcases h2 with ⟨a, rfl, rfl⟩ | ⟨y, j, rfl, _, rfl⟩
      · exact ⟨e', h1, .inr ⟨.dataCompleted, by simp [sightOf, hi], hm⟩⟩
      · exact ⟨e', h1, .inr ⟨.other, sight_failed _ _ _ _ .dataCompleted (by simp [stepOf, hi]), trivial⟩⟩
    | completeTraining i =>
      have hi : i = k := hck
      rcases hm : Est.completeTraining F.hooks e with ⟨r, e'⟩
      obtain ⟨h1, h2⟩ := on_est hm hk ho hb
      rcases h2 with ⟨a, rfl, rfl⟩ | ⟨y, j, rfl, _, rfl⟩
      · exact ⟨e', h1, .inr ⟨.completed, by simp [sightOf, hi], hm⟩⟩
      · exact ⟨e', h1, .inr ⟨.other, sight_failed _ _ _ _ .complete (by simp [stepOf, hi]), trivial⟩⟩
    | createTransformer i out =>
      have hi : i = k := hck
      cases out
      · exact ⟨e, refused hk ho, .inl ⟨rfl, rfl⟩⟩
      · rcases one_est h hl hs hb k e hk hd with ⟨h1, _⟩ | ⟨s, _, h2, _⟩
        · simp [stepOf, hi] at h1
        · exact ⟨_, h2, .inr ⟨.other, by simp [sightOf, stepOf, hi], trivial⟩⟩
    | destroyTransformer i => exact (not_crashed ho hb).elim
    | save i out =>
      cases out
      · exact ⟨e, refused hk ho, .inl ⟨rfl, rfl⟩⟩
      · exact (not_crashed ho hb).elim
    | transform i x out =>
      cases out
      · exact ⟨e, refused hk ho, .inl ⟨rfl, rfl⟩⟩
      · exact (not_crashed ho hb).elim
    | flush i out =>
      cases out
      · exact ⟨e, refused hk ho, .inl ⟨rfl, rfl⟩⟩
      · exact (not_crashed ho hb).elim
  · refine ⟨e, hw', .inl ⟨?_, rfl⟩⟩
    have hnone : stepOf k r = none := by
      rcases one_est h hl hs hb k e hk hd with ⟨h1, _⟩ | ⟨s, h1, _⟩
      · exact h1
      · exfalso
        unfold stepOf at h1
        split at h1 <;> first | (split at h1 <;> [(rename_i hh; subst hh; exact hno _ rfl rfl); cases h1]) | cases h1
    unfold sightOf
    split
    all_goals first
      | (rename_i heq; have hn := hno _ (Prod.mk.inj heq).1; simp only [Call.handle] at hn; rw [if_neg hn])
      | (rename_i heq; cases heq; rw [hnone]; rfl)

/-- **C104** Whatever the client of an estimator learns from the replies comes from the same calls made directly in C++,
whatever is done with other handles in between. -/
theorem C104_sights {F : Featurizer σ ι τ O} {es₀ es : List (Request ι × Reply O)} {w₀ w : World σ τ}
    (h₀ : History F es₀ w₀) (h : Session F w₀ es w) (k : Nat) (e : Est σ) (hk : w₀.object k = some (.est e))
    (hd : ∀ x ∈ es, x.1 ≠ .call (.destroyEstimator k) true) :
    ∃ e', AllHappened F.hooks (sights k es) e e' ∧ w.object k = some (.est e') := by
  induction h with
  | start => exact ⟨e, rfl, hk⟩
  | @step es w₁ w' r rep l h hl hs hb ih =>
    obtain ⟨m, i1, i2⟩ := ih (fun e he => hd e (List.mem_append_left _ he))
    obtain ⟨e', h1, h2⟩ := one_sight (h.history h₀) hl hs hb k _ i2 (hd (r, rep) (by simp))
    refine ⟨e', ?_, h1⟩
    rcases h2 with ⟨h2, rfl⟩ | ⟨s, h2, h3⟩
    · have : sights k (es ++ [(r, rep)]) = sights k es := by simp [sights, h2]
      rw [this]; exact i1
    · have : sights k (es ++ [(r, rep)]) = sights k es ++ [s] := by simp [sights, h2]
      rw [this]; exact all_append _ _ _ _ _ _ i1 ⟨e', h3, rfl⟩

/-! ### The loop -/

theorem trainLoop_more (H : Hooks σ ι τ) (bs : List (List ι)) (n m : Nat) (rest : List (List ι)) (e : Est σ)
    (r : Except Err Unit × Est σ) (h : trainLoop H bs n rest e = some r) (hm : n ≤ m) : trainLoop H bs m rest e = some r := by
  induction n generalizing m rest e with
  | zero => cases h
  | succ n ih =>
    obtain ⟨m, rfl⟩ : ∃ k, m = k + 1 := ⟨m - 1, by omega⟩
    have hm : n ≤ m := by omega
    simp only [trainLoop] at h ⊢
    by_cases hs : e.state ≠ .training
    · rw [if_pos hs] at h ⊢; exact h
    · rw [if_neg hs] at h ⊢
      rcases rest with _ | ⟨b, rest⟩
      · exact h
      · simp only at h ⊢
        rcases hf : Est.fit H (some b) e with ⟨x | f, e'⟩
        · rw [hf] at h; exact h
        · rw [hf] at h
          cases f
          case reset => exact ih _ _ _ h hm
          all_goals
            simp only at h ⊢
            by_cases hr : rest.isEmpty = true
            · rw [if_pos hr] at h ⊢
              rcases ho : Est.onDataCompleted H e' with ⟨x | f, e''⟩
              · rw [ho] at h; exact h
              · rw [ho] at h; exact ih _ _ _ h hm
            · rw [if_neg hr] at h ⊢
              exact ih _ _ _ h hm

theorem trainAndCreate_more (H : Hooks σ ι τ) (bs : List (List ι)) (n m : Nat) (e : Est σ) (r : Except Err τ × Est σ)
    (h : trainAndCreate H bs n e = some r) (hm : n ≤ m) : trainAndCreate H bs m e = some r := by
  unfold trainAndCreate at h ⊢
  rcases hg : Est.beginTraining H e with ⟨x | _, e⟩
  · rw [hg] at h; exact h
  · rw [hg] at h
    simp only at h ⊢
    by_cases hb : bs.isEmpty = true
    · rw [if_pos hb] at h ⊢; exact h
    · rw [if_neg hb] at h ⊢
      rcases hl : trainLoop H bs n bs e with _ | r'
      · rw [hl] at h; cases h
      · rw [hl] at h
        rw [trainLoop_more H bs n m bs e r' hl hm]
        exact h

private theorem loop_run (H : Hooks σ ι τ) (bs rest : List (List ι)) (l : List (Sight ι)) (hl : Loop bs rest l) (e e' : Est σ)
    (h : AllHappened H l e e') : ∃ n, trainLoop H bs n rest e = some (.ok (), e') := by
  induction hl generalizing e with
  | done hs =>
    obtain ⟨m, ⟨rfl, rfl⟩, rfl⟩ := h
    exact ⟨1, by unfold trainLoop; rw [if_pos hs]⟩
  | reset hl ih =>
    obtain ⟨m, ⟨h1, rfl⟩, m', h2, h3⟩ := h
    obtain ⟨n, hn⟩ := ih m' h3
    refine ⟨n + 1, ?_⟩
    rw [trainLoop, if_neg (fun hh => hh h1.symm)]
    simp only [show Est.fit H (some _) m = _ from h2]
    exact hn
  | @next b rest r l hr hne hl ih =>
    obtain ⟨m, ⟨h1, rfl⟩, m', h2, h3⟩ := h
    obtain ⟨n, hn⟩ := ih m' h3
    refine ⟨n + 1, ?_⟩
    rw [trainLoop, if_neg (fun hh => hh h1.symm)]
    simp only [show Est.fit H (some _) m = _ from h2]
    have he : ¬ rest.isEmpty = true := by simpa using hne
    cases r
    · simp only [if_neg he]; exact hn
    · simp only [if_neg he]; exact hn
    · exact absurd rfl hr
  | @last b r l hr hl ih =>
    obtain ⟨m, ⟨h1, rfl⟩, m', h2, m'', h3, h4⟩ := h
    obtain ⟨n, hn⟩ := ih m'' h4
    refine ⟨n + 1, ?_⟩
    rw [trainLoop, if_neg (fun hh => hh h1.symm)]
    simp only [show Est.fit H (some _) m = _ from h2]
    cases r
    · simp only [List.isEmpty_nil, if_true, show Est.onDataCompleted H m' = _ from h3]; exact hn
    · simp only [List.isEmpty_nil, if_true, show Est.onDataCompleted H m' = _ from h3]; exact hn
    · exact absurd rfl hr

/-- Training with the standard loop through a handle, and the transformer made from it. -/
theorem standard_made {F : Featurizer σ ι τ O} {es₀ es₁ : List (Request ι × Reply O)} {w₀ w₁ w₂ w₃ : World σ τ} {l₁ l₂ : Luck}
    {h k : Nat} {bs : List (List ι)} (h₀ : History F es₀ w₀) (hl₁ : l₁.Ok w₀)
    (hc : serve F (.call (.createEstimator true) true) l₁ w₀ = (.returned true (.handle h) none, w₁))
    (s₁ : Session F w₁ es₁ w₂) (hd₁ : ∀ e ∈ es₁, e.1 ≠ .call (.destroyEstimator h) true)
    (hs : TrainsWith bs (sights h es₁))
    (hl₂ : l₂.Ok w₂) (ht : serve F (.call (.createTransformer h true) true) l₂ w₂ = (.returned true (.handle k) none, w₃)) :
    ∃ s n e t, F.new = .ok s ∧ trainAndCreate F.hooks bs n (Est.new s) = some (.ok t, e) ∧
      w₃.object k = some (.xf t) ∧ ∃ es, History F es w₃ := by
  obtain ⟨s, e, hn, hb, ho⟩ := C104_created h₀ hl₁ hc
  have hist₁ := h₀.step hl₁ hc trivial
  obtain ⟨e', e1, e2⟩ := C104_sights hist₁ s₁ h e ho hd₁
  obtain ⟨t, t1, t2⟩ := C104_made (s₁.history hist₁) hl₂ e2 ht
  have ha : w₃.object k = some (.xf t) ∧ ∃ es, History F es w₃ := ⟨t2, _, (s₁.history hist₁).step hl₂ ht trivial⟩
  have hct : Est.createTransformer F.hooks e' = (.ok t, (Est.createTransformer F.hooks e').2) := by rw [← t1]
  generalize sights h es₁ = l at hs e1
  cases hs with
  | empty hbs =>
    obtain ⟨m, h1, rfl⟩ := e1
    refine ⟨s, 0, (Est.createTransformer F.hooks e').2, t, hn, ?_, ha⟩
    have h1 : Est.completeTraining F.hooks e = (.ok (), e') := h1
    simp only [trainAndCreate, hb, hbs, List.isEmpty_nil, if_true, h1]
    rw [hct]
  | @loop l hne hl =>
    obtain ⟨m, h1, m', h2, rfl⟩ := happened_split _ _ _ _ _ e1
    obtain ⟨n, hn'⟩ := loop_run _ _ _ _ hl _ _ h1
    refine ⟨s, n, (Est.createTransformer F.hooks e').2, t, hn, ?_, ha⟩
    have h2 : Est.completeTraining F.hooks m = (.ok (), e') := h2
    have hem : ¬ bs.isEmpty = true := by simpa using hne
    simp only [trainAndCreate, hb, if_neg hem, hn', h2]
    rw [hct]

/-- **C104** A client trains an estimator through the C interface with the standard loop, seeing only the replies, while other
handles are used in between, and makes a transformer from it: the standard training with these batches in C++ ends, too, with a
transformer, and the answers of the handle are those of this transformer used alone (also after the estimator is destroyed). -/
theorem C104_standard {F : Featurizer σ ι τ O} {es₀ es₁ es₂ : List (Request ι × Reply O)} {w₀ w₁ w₂ w₃ w₄ : World σ τ} {l₁ l₂ : Luck}
    {h k : Nat} {bs : List (List ι)} (h₀ : History F es₀ w₀) (hl₁ : l₁.Ok w₀)
    (hc : serve F (.call (.createEstimator true) true) l₁ w₀ = (.returned true (.handle h) none, w₁))
    (s₁ : Session F w₁ es₁ w₂) (hd₁ : ∀ e ∈ es₁, e.1 ≠ .call (.destroyEstimator h) true)
    (hs : TrainsWith bs (sights h es₁))
    (hl₂ : l₂.Ok w₂) (ht : serve F (.call (.createTransformer h true) true) l₂ w₂ = (.returned true (.handle k) none, w₃))
    (s₂ : Session F w₃ es₂ w₄) (hd₂ : ∀ e ∈ es₂, e.1 ≠ .call (.destroyTransformer k) true) :
    ∃ s n e t, F.new = .ok s ∧ trainAndCreate F.hooks bs n (Est.new s) = some (.ok t, e) ∧
      answers k es₂ = (alone F.xf t (questions k es₂)).1 := by
  obtain ⟨s, n, e, t, h1, h2, h3, es, h4⟩ := standard_made h₀ hl₁ hc s₁ hd₁ hs hl₂ ht
  exact ⟨s, n, e, t, h1, h2, (C104_transformer h4 s₂ k t h3 hd₂).1⟩

/-! ### Pipelines -/

theorem only_alone {T : Type} (n : Nat) (Y : Xf T ι O) (t : T) (qs : List (Ask ι)) :
    alone (onlyXf n Y) (List.replicate n none ++ [some t]) qs
      = ((alone Y t qs).1, List.replicate n none ++ [some (alone Y t qs).2]) := by
  induction qs generalizing t with
  | nil => rfl
  | cons q qs ih =>
    have hd : ∀ t : T, (List.replicate n none ++ [some t]).drop n = [some t] := fun t => by
      rw [List.drop_append_of_le_length (by simp), List.drop_eq_nil_of_le (by simp), List.nil_append]
    have hq : q.run (onlyXf n Y) (List.replicate n none ++ [some t])
        = ⟨(q.run Y t).outs, (q.run Y t).err, List.replicate n none ++ [some (q.run Y t).next]⟩ := by
      cases q <;> simp only [Ask.run, onlyXf, hd]
    simp only [alone, hq, ih]

/-- The transformer behind the handle. -/
theorem pipeline_made {σ : Nat → Type} {α T : Type} {X : Xf T ι ι} {Y : Xf T ι O} {comps : (i : Nat) → Component (σ i) ι α} {n : Nat}
    {mk : AnnotationMaps α → Except Err T} {maps : AnnotationMaps α} {load : List UInt8 → Except Err (List (Option T))}
    {save : List (Option T) → Except Err (List UInt8)} {t : T}
    {es₀ es₁ : List (Request ι × Reply O)}
    {w₀ w₁ w₂ w₃ : World (List (Elem (CompState α σ) ι T) × CompState α σ) (List (Option T))} {l₁ l₂ : Luck}
    {h k : Nat} {bs : List (List ι)} (hy : FeaturizerYields X comps n mk bs maps (.ok t))
    (h₀ : History (pipelineC X Y comps n mk maps load save) es₀ w₀) (hl₁ : l₁.Ok w₀)
    (hc : serve (pipelineC X Y comps n mk maps load save) (.call (.createEstimator true) true) l₁ w₀
      = (.returned true (.handle h) none, w₁))
    (s₁ : Session (pipelineC X Y comps n mk maps load save) w₁ es₁ w₂)
    (hd₁ : ∀ e ∈ es₁, e.1 ≠ .call (.destroyEstimator h) true) (hs : TrainsWith bs (sights h es₁)) (hl₂ : l₂.Ok w₂)
    (ht : serve (pipelineC X Y comps n mk maps load save) (.call (.createTransformer h true) true) l₂ w₂
      = (.returned true (.handle k) none, w₃)) :
    w₃.object k = some (.xf (List.replicate n none ++ [some t])) ∧
      ∃ es, History (pipelineC X Y comps n mk maps load save) es w₃ := by
  obtain ⟨s, m, e, ts, h1, h2, h3⟩ := standard_made h₀ hl₁ hc s₁ hd₁ hs hl₂ ht
  obtain ⟨N, hN⟩ := hy
  obtain ⟨e', he'⟩ := hN (N + m) (by omega)
  have h2' := trainAndCreate_more _ _ _ (N + m) _ _ h2 (by omega)
  have hs' : s = (newFeaturizer comps n mk maps).inner := (Except.ok.inj h1).symm
  subst hs'
  have h4 : some (Except.ok (List.replicate n none ++ [some t]), e') = some (Except.ok ts, e) := he'.symm.trans h2'
  have h5 : List.replicate n none ++ [some t] = ts := Except.ok.inj (Prod.mk.inj (Option.some.inj h4)).1
  subst h5
  exact h3

/-- **C104** A featurizer that is a pipeline with one transformer: if the standard training on these batches yields the
transformer `t`, then a client who trains through the C interface with these batches gets the answers of `t`. -/
theorem C104_pipeline {σ : Nat → Type} {α T : Type} {X : Xf T ι ι} {Y : Xf T ι O} {comps : (i : Nat) → Component (σ i) ι α} {n : Nat}
    {mk : AnnotationMaps α → Except Err T} {maps : AnnotationMaps α} {load : List UInt8 → Except Err (List (Option T))}
    {save : List (Option T) → Except Err (List UInt8)} {t : T}
    {es₀ es₁ es₂ : List (Request ι × Reply O)}
    {w₀ w₁ w₂ w₃ w₄ : World (List (Elem (CompState α σ) ι T) × CompState α σ) (List (Option T))} {l₁ l₂ : Luck}
    {h k : Nat} {bs : List (List ι)} (hy : FeaturizerYields X comps n mk bs maps (.ok t))
    (h₀ : History (pipelineC X Y comps n mk maps load save) es₀ w₀) (hl₁ : l₁.Ok w₀)
    (hc : serve (pipelineC X Y comps n mk maps load save) (.call (.createEstimator true) true) l₁ w₀
      = (.returned true (.handle h) none, w₁))
    (s₁ : Session (pipelineC X Y comps n mk maps load save) w₁ es₁ w₂)
    (hd₁ : ∀ e ∈ es₁, e.1 ≠ .call (.destroyEstimator h) true) (hs : TrainsWith bs (sights h es₁)) (hl₂ : l₂.Ok w₂)
    (ht : serve (pipelineC X Y comps n mk maps load save) (.call (.createTransformer h true) true) l₂ w₂
      = (.returned true (.handle k) none, w₃))
    (s₂ : Session (pipelineC X Y comps n mk maps load save) w₃ es₂ w₄)
    (hd₂ : ∀ e ∈ es₂, e.1 ≠ .call (.destroyTransformer k) true) :
    answers k es₂ = (alone Y t (questions k es₂)).1 := by
  obtain ⟨h1, es, h2⟩ := pipeline_made hy h₀ hl₁ hc s₁ hd₁ hs hl₂ ht
  rw [(C104_transformer h2 s₂ k _ h1 hd₂).1]
  exact congrArg Prod.fst (only_alone n Y t _)

/-- The code of a value, with `ks` the training values in increasing order: its position, counted from 0, or from 1 if unknown
values are allowed and have the code 0; otherwise they are refused. -/
def codeOf {K : Type} [DecidableEq K] (ks : List K) (allow : Bool) (x : K) : Option (List UInt32) :=
  if x ∈ ks then some [UInt32.ofNat (ks.idxOf x + if allow then 1 else 0)]
  else if allow then some [0] else none

/-- **C104** (label encoder, with C20) A client trains a label encoder through the C interface with the standard loop, while
other handles are used: `Transform` gives every training value its position among the different training values in increasing
order (from 1 if unknown values are allowed) and every other value 0, or an error; in any order and any number of times. -/
theorem C104_label_encoder {K : Type} [LinearOrder K] {X : Xf (Encoder K) K K} {it : IterOrder K UInt32} {allow : Bool}
    {load : List UInt8 → Except Err (List (Option (Encoder K)))} {save : List (Option (Encoder K)) → Except Err (List UInt8)}
    {es₀ es₁ es₂ : List (Request K × Reply UInt32)} {w₀ w₁ w₂ w₃ w₄ : World _ (List (Option (Encoder K)))} {l₁ l₂ : Luck}
    {h k : Nat} {bs : List (List K)}
    (h₀ : History (labelEncoderC X it allow load save) es₀ w₀) (hl₁ : l₁.Ok w₀)
    (hc : serve (labelEncoderC X it allow load save) (.call (.createEstimator true) true) l₁ w₀
      = (.returned true (.handle h) none, w₁))
    (s₁ : Session (labelEncoderC X it allow load save) w₁ es₁ w₂)
    (hd₁ : ∀ e ∈ es₁, e.1 ≠ .call (.destroyEstimator h) true) (hs : TrainsWith bs (sights h es₁)) (hl₂ : l₂.Ok w₂)
    (ht : serve (labelEncoderC X it allow load save) (.call (.createTransformer h true) true) l₂ w₂
      = (.returned true (.handle k) none, w₃))
    (s₂ : Session (labelEncoderC X it allow load save) w₃ es₂ w₄)
    (hd₂ : ∀ e ∈ es₂, e.1 ≠ .call (.destroyTransformer k) true)
    (hne : bs ≠ []) (hb : NoEmptyBatch bs) (hlen : bs.flatten.length + 1 < 2 ^ 32) :
    ∃ ks : List K, ks.Pairwise (· < ·) ∧ (∀ x, x ∈ ks ↔ x ∈ bs.flatten) ∧
      answers k es₂ = (questions k es₂).map fun
        | .row x => codeOf ks allow x
        | .flush => some [] := by
  have htake : bs.flatten.take (2 ^ 64 - 1) = bs.flatten := List.take_of_length_le (by omega)
  obtain ⟨ks, t, k1, k2, k3, k4, k5⟩ := C20_label_encoder X it 0 (2 ^ 64 - 1) (by decide) allow bs hne hb [[]] (by simp)
    rfl rfl (by rw [htake]; exact hlen)
  rw [htake] at k2 k5
  refine ⟨ks, k1, k2, ?_⟩
  rw [C104_pipeline k3 h₀ hl₁ hc s₁ hd₁ hs hl₂ ht s₂ hd₂]
  generalize questions k es₂ = qs
  have hl : ks.length ≤ bs.flatten.length :=
    (List.subperm_of_subset (k1.imp (fun h => ne_of_lt h)) (fun x hx => (k2 x).1 hx)).length_le
  have hrow : ∀ x, Xf.exec (Xf.ofFun labelEncode) t x = ⟨(codeOf ks allow x).getD [], if (codeOf ks allow x).isSome then none else
      some .invalidArgument, t⟩ := by
    intro x
    by_cases hx : x ∈ ks
    · have hi := List.idxOf_lt_length_iff.2 hx
      obtain ⟨c, c1, c2⟩ := k4 _ hi
      rw [List.getElem_idxOf hi] at c1
      have hc : c = UInt32.ofNat (ks.idxOf x + if allow then 1 else 0) := by
        apply UInt32.toNat.inj
        rw [c2, UInt32.toNat_ofNat_of_lt']
        show _ < 2 ^ 32
        split <;> omega
      simp [Xf.ofFun, c1, codeOf, hx, hc]
    · have := k5 x (fun hh => hx ((k2 x).2 hh))
      cases allow <;> simp [Xf.ofFun, this, codeOf, hx]
  induction qs with
  | nil => rfl
  | cons q qs ih =>
    cases q with
    | row x =>
      simp only [alone, Ask.run, hrow, List.map_cons, ih]
      rcases codeOf ks allow x with _ | c <;> simp
    | flush =>
      have hf : Xf.flush (Xf.ofFun labelEncode) t = ⟨[], none, t⟩ := rfl
      simp only [alone, Ask.run, hf, List.map_cons, ih]

/-! ### A concrete case -/

private def encoder :=
  labelEncoderC (K := Nat) (Xf.ofFun fun _ x => .ok x) .reverse true (fun _ => .error .runtimeError) (fun _ => .error .runtimeError)

/-- One round of the loop through the handle `h`: the state, and one item. -/
private def round (h x : Nat) : List (Request Nat) := [.call (.getState h true) true, .call (.fit h x true) true]

/-- A client trains through the handle 7 with 30, 10 and 30, while another uses the handle 9. -/
private def twoClients : List (Request Nat) :=
  [.call (.createEstimator true) true] ++ round 7 30 ++ round 9 5 ++ round 7 10 ++
  [.call (.onDataCompleted 9) true] ++ round 7 30 ++ [.call (.fit 9 6 true) true, .call (.onDataCompleted 7) true,
  .call (.getState 7 true) true, .call (.completeTraining 9) true, .call (.completeTraining 7) true]

private def asked : List (Request Nat) :=
  [.call (.createTransformer 9 true) true, .call (.destroyEstimator 7) true, .call (.transform 41 10 true) true,
   .call (.transform 43 10 true) true, .call (.transform 41 30 true) true, .call (.transform 41 5 true) true,
   .call (.destroyTransformer 43) true, .call (.transform 41 10 true) true]

private def world₁ := (serve encoder (.call (.createEstimator true) true) (luck 0) World.start).2
private def world₂ := (serveAll encoder 1 twoClients world₁).2
private def world₃ := (serve encoder (.call (.createTransformer 7 true) true) (luck 17) world₂).2

set_option maxRecDepth 100000 in
/-- The hypotheses of `C104_label_encoder` are met; a request of the other client fails in between. -/
example : serve encoder (.call (.createEstimator true) true) (luck 0) World.start = (.returned true (.handle 7) none, world₁) ∧
    Session encoder world₁ (twoClients.zip (serveAll encoder 1 twoClients world₁).1) world₂ ∧
    TrainsWith [[30], [10], [30]] (sights 7 (twoClients.zip (serveAll encoder 1 twoClients world₁).1)) ∧
    (luck 17).Ok world₂ ∧
    serve encoder (.call (.createTransformer 7 true) true) (luck 17) world₂ = (.returned true (.handle 41) none, world₃) ∧
    Session encoder world₃ (asked.zip (serveAll encoder 18 asked world₃).1) (serveAll encoder 18 asked world₃).2 ∧
    answers 41 (asked.zip (serveAll encoder 18 asked world₃).1) = [some [1], some [2], some [0], some [1]] ∧
    NoEmptyBatch [[30], [10], [30]] := by
  refine ⟨by rfl, session_of _ _ _ (by decide +kernel), ?_, luck_ok (by decide +kernel) (by decide +kernel) (by omega), by rfl,
    session_of _ _ _ (by decide +kernel), by decide +kernel, by unfold NoEmptyBatch; decide⟩
  have : sights 7 (twoClients.zip (serveAll encoder 1 twoClients world₁).1)
      = [.state .training, .fitted [30] .continue, .state .training, .fitted [10] .continue, .state .training,
         .fitted [30] .continue, .dataCompleted, .state .finished] ++ [.completed] := by rfl
  rw [this]
  exact .loop (by decide) (.next (by decide) (by decide) (.next (by decide) (by decide) (.last (by decide) (.done (by decide)))))

end Feat.CApi
