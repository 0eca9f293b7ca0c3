import Verif.Proofs.CApi

/-!
# C52, C60, C61: the C interface

The specification is `Spec/CApi.lean`: `direct` says what a call must do in terms of direct calls of
the C++ methods on the object its handle stands for.
-/

namespace Feat

namespace CApi

variable {σ ι τ O : Type}

/-! ## Direct calls -/

/-- A failing direct call leaves a live object live. -/
theorem direct_fails_after {F : Featurizer σ ι τ O} {o : Option (Obj σ τ)} {c : Call ι} {e : Err}
    {a : Option (Obj σ τ)} (h : direct F o c = .fails e a) :
    (a = none ↔ o = none) ∨ c.handle = 0 := by
  cases c <;> unfold direct at h <;> simp only [onEst, onXf] at h <;>
    first
    | exact Or.inr rfl
    | left
      rcases o with _ | o
      · repeat' split at h
        all_goals first
          | contradiction
          | (injection h with _ h; subst h; simp)
      · repeat' split at h
        all_goals first
          | contradiction
          | (injection h with _ h; subst h; simp)

/-- Calls on estimators without undefined behaviour. -/
theorem onEst_no_ub {α : Type} {o : Option (Obj σ τ)} {m : Op (Est σ) α} {f : α → Value O}
    (hm : ∀ e, (m e).1 ≠ .error .ub) (a : Option (Obj σ τ)) : onEst o m f ≠ .fails .ub a := by
  unfold onEst
  rcases o with _ | (e | t | x)
  · simp
  · simp only
    have := hm e
    rcases hme : m e with ⟨x | v, e'⟩
    · rw [hme] at this
      simp only
      intro h
      injection h with h
      subst h
      exact this rfl
    · simp
  · simp
  · simp

theorem onXf_no_ub {α : Type} {o : Option (Obj σ τ)} {m : Op τ α} {f : α → Value O}
    (hm : ∀ e, (m e).1 ≠ .error .ub) (a : Option (Obj σ τ)) : onXf o m f ≠ .fails .ub a := by
  unfold onXf
  rcases o with _ | (e | t | x)
  · simp
  · simp
  · simp only
    have := hm t
    rcases hme : m t with ⟨x | v, e'⟩
    · rw [hme] at this
      simp only
      intro h
      injection h with h
      subst h
      exact this rfl
    · simp
  · simp

theorem beginTraining_no_ub {F : Featurizer σ ι τ O} (hF : F.Sound) (e : Est σ) :
    (Est.beginTraining F.hooks e).1 ≠ .error .ub := by
  have := hF.begin e.inner
  unfold Est.beginTraining
  split_ifs
  · simp
  · rcases h : F.hooks.begin e.inner with ⟨x | (_ | _), s⟩ <;> rw [h] at this <;> simp_all

theorem fit_no_ub {F : Featurizer σ ι τ O} (hF : F.Sound) (xs : Option (List ι)) (e : Est σ) :
    (Est.fit F.hooks xs e).1 ≠ .error .ub := by
  unfold Est.fit
  split_ifs
  · simp
  · rcases xs with _ | xs
    · simp
    · simp only
      split_ifs
      · simp
      · have := hF.fit xs e.inner
        rcases h : F.hooks.fit xs e.inner with ⟨x | (_ | _ | _), s⟩ <;> rw [h] at this <;> simp_all

theorem onDataCompleted_no_ub {F : Featurizer σ ι τ O} (hF : F.Sound) (e : Est σ) :
    (Est.onDataCompleted F.hooks e).1 ≠ .error .ub := by
  have := hF.onDataCompleted e.inner
  unfold Est.onDataCompleted
  split_ifs
  · simp
  · rcases h : F.hooks.onDataCompleted e.inner with ⟨x | (_ | _), s⟩ <;> rw [h] at this <;> simp_all
  · simp

theorem completeTraining_no_ub {F : Featurizer σ ι τ O} (hF : F.Sound) (e : Est σ) :
    (Est.completeTraining F.hooks e).1 ≠ .error .ub := by
  have := hF.complete e.inner
  unfold Est.completeTraining
  split_ifs
  · simp
  · rcases h : F.hooks.complete e.inner with ⟨x | u, s⟩ <;> rw [h] at this <;> simp_all

theorem createTransformer_no_ub {F : Featurizer σ ι τ O} (hF : F.Sound) (e : Est σ) :
    (Est.createTransformer F.hooks e).1 ≠ .error .ub := by
  have := hF.create e.inner
  unfold Est.createTransformer
  split_ifs
  · simp
  · simp
  · rcases h : F.hooks.create e.inner with ⟨x | (_ | t), s⟩ <;> rw [h] at this <;> simp_all

theorem executeOne_no_ub {F : Featurizer σ ι τ O} (hF : F.Sound) (x : ι) (t : τ) :
    (executeOne F.xf x t).1 ≠ .error .ub := by
  have h1 := hF.execErr t x
  have h2 := hF.execOne t x
  unfold executeOne
  rcases h : F.xf.exec t x with ⟨outs, e | e, t'⟩
  · rw [h] at h2
    obtain ⟨o, ho⟩ := h2 rfl
    simp only at ho
    subst ho
    simp
  · rw [h] at h1
    simp at h1 ⊢
    exact h1

theorem flushAll_no_ub {F : Featurizer σ ι τ O} (hF : F.Sound) (t : τ) :
    (flushAll F.xf t).1 ≠ .error .ub := by
  have h1 := hF.flush t
  unfold flushAll
  rcases h : F.xf.flush t with ⟨outs, e | e, t'⟩
  · simp
  · rw [h] at h1
    simp at h1 ⊢
    exact h1

/-- Direct calls of a sound featurizer have no undefined behaviour of their own. -/
theorem direct_no_ub {F : Featurizer σ ι τ O} (hF : F.Sound) (o : Option (Obj σ τ)) (c : Call ι)
    (a : Option (Obj σ τ)) : direct F o c ≠ .fails .ub a := by
  cases c with
  | createEstimator out =>
    simp only [direct]
    have h1 := hF.new
    rcases hn : F.new with e | s
    · rw [hn] at h1
      intro h
      simp only at h
      injection h with h
      exact h1 (by rw [h])
    · simp only
      have := beginTraining_no_ub hF (Est.new s)
      rcases hb : Est.beginTraining F.hooks (Est.new s) with ⟨x | u, e⟩
      · rw [hb] at this
        intro h
        simp only at h
        injection h with h
        exact this (by rw [h])
      · simp
  | createWithDefault out =>
    simp only [direct]
    have h1 := hF.newDefault
    rcases hn : F.newDefault with e | s
    · rw [hn] at h1
      intro h
      simp only at h
      injection h with h
      exact h1 (by rw [h])
    · simp
  | destroyEstimator h =>
    simp only [direct]
    rcases o with _ | (e | t | x) <;> simp
  | getState h out =>
    simp only [direct]
    split_ifs
    · exact onEst_no_ub (by simp) a
    · simp
  | isTrainingComplete h out =>
    simp only [direct]
    split_ifs
    · exact onEst_no_ub (by simp) a
    · simp
  | fit h x out =>
    simp only [direct]
    split_ifs
    · exact onEst_no_ub (fit_no_ub hF _) a
    · simp
  | fitBuffer h xs out =>
    simp only [direct]
    rcases xs with _ | xs
    · simp
    · simp only
      split_ifs
      · simp
      · exact onEst_no_ub (fit_no_ub hF _) a
  | onDataCompleted h => exact onEst_no_ub (onDataCompleted_no_ub hF) a
  | completeTraining h => exact onEst_no_ub (completeTraining_no_ub hF) a
  | createTransformer h out =>
    simp only [direct]
    split_ifs
    · rcases o with _ | (e | t | x)
      · simp
      · simp only
        have := createTransformer_no_ub hF e
        rcases hb : Est.createTransformer F.hooks e with ⟨x | u, e'⟩
        · rw [hb] at this
          intro h
          simp only at h
          injection h with h
          exact this (by rw [h])
        · simp
      · simp
      · simp
    · simp
  | loadTransformer buffer out =>
    simp only [direct]
    rcases buffer with _ | b
    · simp
    · simp only
      split_ifs
      · simp
      · have := hF.load b
        rcases hb : F.load b with e | t
        · rw [hb] at this
          intro h
          simp only at h
          injection h with h
          exact this (by rw [h])
        · simp
  | destroyTransformer h =>
    simp only [direct]
    rcases o with _ | (e | t | x) <;> simp
  | save h out =>
    simp only [direct]
    split_ifs
    · exact onXf_no_ub hF.save a
    · simp
  | transform h x out =>
    simp only [direct]
    split_ifs
    · exact onXf_no_ub (executeOne_no_ub hF x) a
    · simp
  | flush h out =>
    simp only [direct]
    split_ifs
    · exact onXf_no_ub (flushAll_no_ub hF) a
    · simp

/-- With a handle of the right kind direct calls do not crash. -/
theorem direct_no_crash {F : Featurizer σ ι τ O} {w : World σ τ} {c : Call ι} (hk : RightKind w c) :
    direct F (w.object c.handle) c ≠ .crashes := by
  obtain ⟨h1, h2⟩ := hk
  have est : c.wantsEstimator = true → w.object c.handle = none ∨
      ∃ e, w.object c.handle = some (.est e) := by
    intro h
    rcases ho : w.object c.handle with _ | o
    · exact Or.inl rfl
    · obtain ⟨e, he⟩ := h1 h o ho
      exact Or.inr ⟨e, by rw [he]⟩
  have xf : c.wantsTransformer = true → w.object c.handle = none ∨
      ∃ t, w.object c.handle = some (.xf t) := by
    intro h
    rcases ho : w.object c.handle with _ | o
    · exact Or.inl rfl
    · obtain ⟨e, he⟩ := h2 h o ho
      exact Or.inr ⟨e, by rw [he]⟩
  clear h1 h2
  generalize w.object c.handle = o at *
  intro hcr
  cases c <;> simp only [Call.wantsEstimator, Call.wantsTransformer, forall_const] at est xf <;>
    unfold direct at hcr <;> simp only [onEst, onXf] at hcr <;> repeat' split at hcr
  all_goals first
    | contradiction
    | (simp at hcr; done)
    | (rcases est with h | ⟨e, h⟩
       · contradiction
       · injection h with h
         simp_all)
    | (rcases xf with h | ⟨e, h⟩
       · contradiction
       · injection h with h
         simp_all)

/-! ## C functions -/

theorem invoke_returns {F : Featurizer σ ι τ O} {l : Luck} {w w' : World σ τ} {c : Call ι}
    {v : Value O} (hb : body F w l c = some (.ok v, w')) :
    invoke F c true l w = (.returned true v none, w') := by
  unfold invoke
  rw [if_neg (by decide), hb]

theorem invoke_pending {F : Featurizer σ ι τ O} {l : Luck} {w : World σ τ} {c : Call ι}
    (hb : body F w l c = none) : invoke F c true l w = (.pending, w) := by
  unfold invoke
  rw [if_neg (by decide), hb]

theorem invoke_crashes {F : Featurizer σ ι τ O} {l : Luck} {w w' : World σ τ} {c : Call ι}
    (hb : body F w l c = some (.error .ub, w')) : invoke F c true l w = (.crashed, w') := by
  unfold invoke
  rw [if_neg (by decide), hb]

theorem invoke_throws {F : Featurizer σ ι τ O} {l : Luck} {w w' : World σ τ} {c : Call ι} {e : Err}
    (hb : body F w l c = some (.error e, w')) (he : e ≠ .ub) :
    invoke F c true l w =
      match w'.addObject l.errAddr l.errDraws (.message e) with
      | none => (.pending, w')
      | some (.error e', w'') => (.escaped e', w'')
      | some (.ok i, w'') => (.returned false .nothing (some i), w'') := by
  unfold invoke
  rw [if_neg (by decide), hb]
  cases e <;> first | rfl | exact absurd rfl he

/-- Every C function does what direct calls would, in well-formed worlds. -/
theorem invoke_outcome {F : Featurizer σ ι τ O} {l : Luck} {w : World σ τ} (hw : w.WF) (hl : l.Ok w)
    (c : Call ι) (hc : c.givesOut = true) :
    (((invoke F c true l w).1 = .pending ∧ ¬ l.Delivers w) ∨
      Outcome w c.handle (direct F (w.object c.handle) c) (invoke F c true l w)) ∧
    ((invoke F c true l w).1.cameBack →
      (invoke F c true l w).2.WF ∧ (F.BeginOk → w.Tight → (invoke F c true l w).2.Tight)) := by
  have hm := body_matches (F := F) hw hl c hc
  rcases hd : direct F (w.object c.handle) c with ⟨e, a⟩ | ⟨v, a⟩ | ⟨n, a⟩ | _
  · rw [hd] at hm
    obtain ⟨w', hb, hmv⟩ := hm
    by_cases he : e = .ub
    · subst he
      rw [invoke_crashes hb]
      exact ⟨Or.inr rfl, fun h => absurd h (by simp [Reply.cameBack])⟩
    · have hkeep : ∀ i, i ≠ 0 → w'.object i = none → w.object i = none := by
        intro i hi0 hi
        rw [hmv.object] at hi
        split_ifs at hi with hij
        · rcases direct_fails_after hd with h | h
          · rw [hij]; exact h.1 hi
          · exact absurd (hij.trans h) hi0
        · exact hi
      have hkeep' : ∀ i, w.object i = none → w'.object i = none := by
        intro i hi
        rw [hmv.object]
        split_ifs with hij
        · rcases direct_fails_after hd with h | h
          · exact h.2 (hij ▸ hi)
          · have := hmv.object 0
            rw [hmv.wf.object_zero, if_pos h.symm] at this
            exact this.symm
        · exact hi
      rw [invoke_throws hb he]
      rcases hmv.wf.addObject (.message e) hl.err0 hmv.errFree hl.errDraws with
        ⟨ha, hn⟩ | ⟨i, w'', ha, b, c', d, e', f, g, k⟩
      · rw [ha]
        refine ⟨Or.inl ⟨rfl, ?_⟩, fun h => absurd h (by simp [Reply.cameBack])⟩
        rintro ⟨-, x, hx, hx'⟩
        exact hn x hx (hkeep' x hx')
      · rw [ha]
        refine ⟨Or.inr ?_, fun _ => ⟨b, fun hb ht => addObject_tight (hmv.tight hb ht) f g k d hmv.wf⟩⟩
        have : Outcome w c.handle (.fails e a : Effect σ τ O)
            ((.returned false .nothing (some i) : Reply O), w'') =
            ∃ i', (.returned false .nothing (some i) : Reply O) = .returned false .nothing (some i') ∧
              i' ≠ 0 ∧ w.object i' = none ∧ ∀ j, w''.object j =
              if j = i' then some (.message e) else if j = c.handle then a else w.object j := by
          cases e <;> first | rfl | exact absurd rfl he
        rw [this]
        refine ⟨i, rfl, c', hkeep i c' d, ?_⟩
        intro j
        rw [e', hmv.object]
  · rw [hd] at hm
    obtain ⟨w', hb, hmv⟩ := hm
    rw [invoke_returns hb]
    exact ⟨Or.inr ⟨rfl, hmv.object⟩, fun _ => ⟨hmv.wf, hmv.tight⟩⟩
  · rw [hd] at hm
    rcases hm with ⟨hb, hn⟩ | ⟨i, w', hb, a1, a2, a3, a4, a5, a6⟩
    · rw [invoke_pending hb]
      refine ⟨Or.inl ⟨rfl, ?_⟩, fun h => absurd h (by simp [Reply.cameBack])⟩
      rintro ⟨⟨x, hx, hx'⟩, -⟩
      exact hn x hx hx'
    · rw [invoke_returns hb]
      exact ⟨Or.inr ⟨i, rfl, a2, a3, a4⟩, fun _ => ⟨a1, a6⟩⟩
  · rw [hd] at hm
    have hm : body F w l c = some (.error .ub, w) := hm
    rw [invoke_crashes hm]
    exact ⟨Or.inr rfl, fun h => absurd h (by simp [Reply.cameBack])⟩

/-- Without the out-parameter for the handle, creating an estimator does the same or does not come
back. -/
theorem invoke_create_false {F : Featurizer σ ι τ O} {l : Luck} {w : World σ τ} :
    invoke F (.createEstimator false) true l w = invoke F (.createEstimator true) true l w ∨
    ¬ (invoke F (.createEstimator false) true l w).1.cameBack := by
  unfold invoke
  simp only [body, Bool.true_eq_false, if_false, if_true, Bool.false_eq_true]
  rcases F.new with e | s
  · left; rfl
  · simp only
    rcases Est.beginTraining F.hooks (Est.new s) with ⟨x | u, e⟩
    · left; rfl
    · cases u
      simp only
      rcases w.addObject l.addr l.draws (.est e) with _ | ⟨x | i, w'⟩
      · left; rfl
      · left; rfl
      · right
        simp [Reply.cameBack]

/-- The same for the function with default arguments. -/
theorem invoke_default_false {F : Featurizer σ ι τ O} {l : Luck} {w : World σ τ} :
    invoke F (.createWithDefault false) true l w = invoke F (.createWithDefault true) true l w ∨
    ¬ (invoke F (.createWithDefault false) true l w).1.cameBack := by
  unfold invoke
  simp only [body, Bool.true_eq_false, if_false, if_true, Bool.false_eq_true]
  rcases F.newDefault with e | s
  · left; rfl
  · simp only
    rcases w.addObject l.addr l.draws (.est (Est.new s)) with _ | ⟨x | i, w'⟩
    · left; rfl
    · left; rfl
    · right
      simp [Reply.cameBack]

/-- Without the out-parameter for the handle, the functions that create estimators do the same as with it, or do not come
back. -/
theorem givesOut_cases (c : Call ι) : c.givesOut = true ∨ c = .createEstimator false ∨ c = .createWithDefault false := by
  cases c with
  | createEstimator out => cases out <;> simp [Call.givesOut]
  | createWithDefault out => cases out <;> simp [Call.givesOut]
  | _ => left; rfl

/-- Requests keep the world well-formed. -/
theorem serve_wf {F : Featurizer σ ι τ O} {l : Luck} {w w' : World σ τ} {r : Request ι}
    {rep : Reply O} (hw : w.WF) (hl : l.Ok w) (hs : serve F r l w = (rep, w')) (hb : rep.cameBack) :
    w'.WF ∧ (F.BeginOk → w.Tight → w'.Tight) := by
  cases r with
  | call c errOut =>
    cases errOut with
    | false =>
      have : serve F (.call c false) l w = (.returned false .nothing none, w) := by
        simp [serve, invoke]
      rw [this] at hs
      injection hs with h1 h2
      subst h2
      exact ⟨hw, fun _ h => h⟩
    | true =>
      have key : ∀ c : Call ι, c.givesOut = true →
          invoke F c true l w = (rep, w') → w'.WF ∧ (F.BeginOk → w.Tight → w'.Tight) := by
        intro c hc h
        have := (invoke_outcome (F := F) hw hl c hc).2
        rw [h] at this
        exact this hb
      have hs : invoke F c true l w = (rep, w') := hs
      rcases givesOut_cases c with hc | rfl | rfl
      · exact key c hc hs
      · rcases invoke_create_false (F := F) (l := l) (w := w) with h | h
        · rw [h] at hs
          exact key _ rfl hs
        · rw [hs] at h
          exact absurd hb h
      · rcases invoke_default_false (F := F) (l := l) (w := w) with h | h
        · rw [h] at hs
          exact key _ rfl hs
        · rw [hs] at h
          exact absurd hb h
  | errorText h out =>
    have : w = w' := congrArg Prod.snd hs
    subst this
    exact ⟨hw, fun _ h => h⟩
  | destroyError h =>
    have hs : destroyErrorInfo h w = (rep, w') := hs
    unfold destroyErrorInfo at hs
    split_ifs at hs
    · injection hs with h1 h2
      subst h2
      exact ⟨hw, fun _ h => h⟩
    · rcases message_cases hw h with ⟨a, b⟩ | ⟨p, e, a, b, c, d, -⟩ | ⟨o, a, b, c⟩
      · rw [b] at hs
        injection hs with h1 h2
        subst h2
        exact ⟨hw, fun _ h => h⟩
      · rw [d] at hs
        obtain ⟨w'', e1, e2⟩ := destroy_moved (F := F) hw hl b
        simp only [e1] at hs
        injection hs with h1 h2
        subst h2
        exact ⟨e2.wf, e2.tight⟩
      · rw [c] at hs
        injection hs with h1 h2
        subst h2
        exact ⟨hw, fun _ h => h⟩

/-- Worlds reached by histories are well-formed. -/
theorem History.wf {F : Featurizer σ ι τ O} {es : List (Request ι × Reply O)} {w : World σ τ}
    (h : History F es w) : w.WF ∧ (F.BeginOk → w.Tight) := by
  induction h with
  | start => exact ⟨World.WF.start, fun _ p hp => absurd (UMap.find?_empty p) hp⟩
  | step h hl hs hb ih =>
    obtain ⟨a, b⟩ := serve_wf ih.1 hl hs hb
    exact ⟨a, fun hbo => b hbo (ih.2 hbo)⟩

/-! ## C60: the C functions do what direct calls of the C++ methods do -/

/-- C60: after any history, a call does to the object its handle stands for what the direct call does,
reports the result, and leaves all other handles alone. -/
theorem C60_call {F : Featurizer σ ι τ O} {es : List (Request ι × Reply O)} {w : World σ τ}
    (h : History F es w) {l : Luck} (hl : l.Ok w) (hd : l.Delivers w) (c : Call ι)
    (hc : c.givesOut = true) :
    Outcome w c.handle (direct F (w.object c.handle) c) (serve F (.call c true) l w) := by
  rcases (invoke_outcome (F := F) h.wf.1 hl c hc).1 with ⟨_, h'⟩ | h'
  · exact absurd hd h'
  · exact h'

theorem History.object_zero {F : Featurizer σ ι τ O} {es : List (Request ι × Reply O)}
    {w : World σ τ} (h : History F es w) : w.object 0 = none := h.wf.1.object_zero

theorem afterRequest_none (F : Featurizer σ ι τ O) (m : Objects σ τ) (c : Call ι) (b : Bool) :
    afterRequest F m (.call c b, .returned false .nothing none) = m := rfl

theorem afterRequest_outcome {F : Featurizer σ ι τ O} {w w' : World σ τ} {c : Call ι} {b : Bool}
    {rep : Reply O} (ho : Outcome w c.handle (direct F (w.object c.handle) c) (rep, w'))
    (hb : rep.cameBack) :
    w'.object = afterRequest F w.object (.call c b, rep) := by
  rcases hd : direct F (w.object c.handle) c with ⟨e, a⟩ | ⟨v, a⟩ | ⟨n, a⟩ | _
  · rw [hd] at ho
    by_cases he : e = .ub
    · subst he
      have : rep = .crashed := ho
      subst this
      exact absurd hb (by simp [Reply.cameBack])
    · have : ∃ i, rep = .returned false .nothing (some i) ∧ i ≠ 0 ∧ w.object i = none ∧
          ∀ j, w'.object j =
            if j = i then some (.message e) else if j = c.handle then a else w.object j := by
        cases e <;> first | exact ho | exact absurd rfl he
      obtain ⟨i, rfl, _, _, hobj⟩ := this
      funext j
      rw [hobj]
      simp only [afterRequest, hd, Objects.set]
  · rw [hd] at ho
    obtain ⟨rfl, hobj⟩ := ho
    funext j
    rw [hobj]
    simp only [afterRequest, hd, Objects.set]
  · rw [hd] at ho
    obtain ⟨i, rfl, _, _, hobj⟩ := ho
    funext j
    rw [hobj]
    simp only [afterRequest, hd, Objects.set]
  · rw [hd] at ho
    have : rep = .crashed := ho
    subst this
    exact absurd hb (by simp [Reply.cameBack])

/-- C60: after any history, handles stand for the objects that the direct calls of the C++ methods, made
in the order of the requests, produce. -/
theorem C60_history {F : Featurizer σ ι τ O} {es : List (Request ι × Reply O)} {w : World σ τ}
    (h : History F es w) : w.object = afterAll F es := by
  induction h with
  | start =>
    funext j
    simp [World.object, World.start, UMap.find?_empty, afterAll]
  | @step es w w' r rep l h hl hs hb ih =>
    unfold afterAll at ih ⊢
    rw [List.foldl_append, ← ih]
    simp only [List.foldl_cons, List.foldl_nil]
    have hw := h.wf.1
    cases r with
    | call c errOut =>
      cases errOut with
      | false =>
        have : serve F (.call c false) l w = (.returned false .nothing none, w) := by
          simp [serve, invoke]
        rw [this] at hs
        injection hs with h1 h2
        subst h1 h2
        rfl
      | true =>
        have key : ∀ c : Call ι, c.givesOut = true →
            invoke F c true l w = (rep, w') →
            w'.object = afterRequest F w.object (.call c true, rep) := by
          intro c hc h
          rcases (invoke_outcome (F := F) hw hl c hc).1 with ⟨h1, _⟩ | h1
          · rw [h] at h1
            have h1 : rep = .pending := h1
            subst h1
            exact absurd hb (by simp [Reply.cameBack])
          · rw [h] at h1
            exact afterRequest_outcome h1 hb
        have hs : invoke F c true l w = (rep, w') := hs
        rcases givesOut_cases c with hc | rfl | rfl
        · exact key c hc hs
        · rcases invoke_create_false (F := F) (l := l) (w := w) with h | h
          · rw [h] at hs
            have := key (.createEstimator true) rfl hs
            rw [this]
            rcases rep with ⟨_ | _, v, _ | i⟩ | _ | _ | _ <;> rfl
          · rw [hs] at h
            exact absurd hb h
        · rcases invoke_default_false (F := F) (l := l) (w := w) with h | h
          · rw [h] at hs
            have := key (.createWithDefault true) rfl hs
            rw [this]
            rcases rep with ⟨_ | _, v, _ | i⟩ | _ | _ | _ <;> rfl
          · rw [hs] at h
            exact absurd hb h
    | errorText h out =>
      have : w = w' := congrArg Prod.snd hs
      subst this
      cases rep <;> rfl
    | destroyError h =>
      have hs : destroyErrorInfo h w = (rep, w') := hs
      unfold destroyErrorInfo at hs
      split_ifs at hs
      · injection hs with h1 h2
        subst h1 h2
        rfl
      · rcases message_cases hw h with ⟨a, b⟩ | ⟨p, e, a, b, c, d, -⟩ | ⟨o, a, b, c⟩
        · rw [b] at hs
          injection hs with h1 h2
          subst h1 h2
          rfl
        · rw [d] at hs
          obtain ⟨w'', e1, e2⟩ := destroy_moved (F := F) hw hl b
          simp only [e1] at hs
          injection hs with h1 h2
          subst h1 h2
          funext j
          rw [e2.object]
          rfl
        · rw [c] at hs
          injection hs with h1 h2
          subst h1
          exact absurd hb (by simp [Reply.cameBack])

/-! ## C52: errors are reported, not thrown -/

/-- C52 (partial: for handles that are not live or of the right kind, and with the out-parameter of
`CreateEstimator` given): after any history, a call of a sound featurizer either succeeds — `true`, no
error handle — or fails — `false` and a fresh handle for the message of the exception — and other live
handles, and the handle passed if the call fails, stay live and the others unchanged. -/
theorem C52_partial {F : Featurizer σ ι τ O} (hF : F.Sound) {es : List (Request ι × Reply O)}
    {w : World σ τ} (h : History F es w) {l : Luck} (hl : l.Ok w) (hd : l.Delivers w) (c : Call ι)
    (hc : c.givesOut = true) (hk : RightKind w c) :
    ∃ ok v err w', serve F (.call c true) l w = (.returned ok v err, w') ∧
      (ok = true ↔ err = none) ∧
      (∀ i, err = some i → i ≠ 0 ∧ w.object i = none ∧
        ∃ e, e ≠ .ub ∧ w'.object i = some (.message e)) ∧
      (∀ j, j ≠ c.handle → w.object j ≠ none → w'.object j = w.object j) ∧
      (ok = false → w.object c.handle ≠ none → w'.object c.handle ≠ none) := by
  have ho := C60_call h hl hd c hc
  have h0 := h.object_zero
  have hub := direct_no_ub hF (w.object c.handle) c
  have hcr := direct_no_crash (F := F) hk
  generalize serve F (.call c true) l w = s at ho ⊢
  obtain ⟨rep, w'⟩ := s
  rcases hd' : direct F (w.object c.handle) c with ⟨e, a⟩ | ⟨v, a⟩ | ⟨n, a⟩ | _
  · rw [hd'] at ho
    have he : e ≠ .ub := by
      rintro rfl
      exact hub a hd'
    have : ∃ i, rep = .returned false .nothing (some i) ∧ i ≠ 0 ∧ w.object i = none ∧
        ∀ j, w'.object j =
          if j = i then some (.message e) else if j = c.handle then a else w.object j := by
      cases e <;> first | exact ho | exact absurd rfl he
    obtain ⟨i, rfl, hi0, hi, hobj⟩ := this
    refine ⟨false, _, _, w', rfl, by simp, ?_, ?_, ?_⟩
    · intro i' hi'
      injection hi' with hi'
      subst hi'
      exact ⟨hi0, hi, e, he, by rw [hobj, if_pos rfl]⟩
    · intro j hj hlive
      rw [hobj, if_neg, if_neg hj]
      rintro rfl
      exact hlive hi
    · intro _ hlive
      rw [hobj, if_neg (by intro h; rw [h] at hlive; exact hlive hi), if_pos rfl]
      intro ha
      rcases direct_fails_after hd' with h | h
      · exact hlive (h.1 ha)
      · rw [h] at hlive
        exact hlive h0
  · rw [hd'] at ho
    obtain ⟨rfl, hobj⟩ := ho
    refine ⟨true, v, none, w', rfl, by simp, by simp, ?_, by simp⟩
    intro j hj _
    rw [hobj, if_neg hj]
  · rw [hd'] at ho
    obtain ⟨i, rfl, hi0, hi, hobj⟩ := ho
    refine ⟨true, _, none, w', rfl, by simp, by simp, ?_, by simp⟩
    intro j hj hlive
    rw [hobj, if_neg, if_neg hj]
    rintro rfl
    exact hlive hi
  · exact absurd hd' hcr

/-- C52: a call without the out-parameter for errors returns `false`, hands out nothing and changes
nothing. -/
theorem C52_no_error_out (F : Featurizer σ ι τ O) (w : World σ τ) (l : Luck) (c : Call ι) :
    serve F (.call c false) l w = (.returned false .nothing none, w) := by
  simp [serve, invoke]

/-- C52: an error handle gives the exception it was made for, any number of times, until it is
destroyed, which removes it and nothing else. -/
theorem C52_error_handles {F : Featurizer σ ι τ O} {es : List (Request ι × Reply O)} {w : World σ τ}
    (h : History F es w) {l : Luck} (hl : l.Ok w) {i : Nat} {e : Err}
    (hi : w.object i = some (.message e)) :
    getErrorInfoString (O := O) i true w = (.returned true .nothing none, some e) ∧
    ∃ w', serve F (.destroyError i) l w = (.returned true .nothing none, w') ∧
      ∀ j, w'.object j = if j = i then none else w.object j := by
  have hw := h.wf.1
  rcases message_cases hw i with ⟨a, b⟩ | ⟨p, e', a, b, c, d, h0⟩ | ⟨o, a, b, c⟩
  · rw [a] at hi; exact absurd hi (by simp)
  · rw [a] at hi
    injection hi with hi
    injection hi with hi
    subst hi
    obtain ⟨w', e1, e2⟩ := destroy_moved (F := F) hw hl b
    constructor
    · unfold getErrorInfoString
      rw [if_neg (by simpa using h0), d]
    · refine ⟨w', ?_, e2.object⟩
      show destroyErrorInfo i w = _
      unfold destroyErrorInfo
      rw [if_neg h0, d]
      simp only [e1]
  · rw [a] at hi
    injection hi with hi
    exact absurd hi (b e)

/-- C52: asking for the text of no error, or without a place for it, and destroying no error return `false` and change
nothing. -/
theorem C52_null_errors (F : Featurizer σ ι τ O) (w : World σ τ) (l : Luck) (h : Nat) :
    serve F (.errorText 0 true) l w = (.returned false .nothing none, w) ∧
    serve F (.errorText h false) l w = (.returned false .nothing none, w) ∧
    serve F (.destroyError 0) l w = (.returned false .nothing none, w) := by
  refine ⟨?_, ?_, ?_⟩ <;> simp [serve, getErrorInfoString, destroyErrorInfo]

/-- C52 in full, for arbitrary handles and arguments: calls return. -/
def C52Claim (σ ι τ O : Type) : Prop :=
  ∀ (F : Featurizer σ ι τ O), F.Sound → ∀ es w, History F es w → ∀ l : Luck, l.Ok w → l.Delivers w →
    ∀ c, ∃ ok v err w', serve F (.call c true) l w = (.returned ok v err, w')

/-! ### A featurizer for examples: the estimator sums up its items, the transformer adds the sum -/

/-- A small featurizer. -/
def summer : Featurizer Nat Nat Nat Nat where
  new := .ok 0
  hooks :=
    { begin := fun s => (.ok true, s)
      fit := fun xs s => if 13 ∈ xs then (.error .runtimeError, s) else (.ok .continue, s + xs.sum)
      onDataCompleted := fun s => (.ok true, s)
      complete := fun s => (.ok (), s)
      create := fun s => (.ok (some s), s) }
  xf := { exec := fun t x => ⟨[t + x], none, t⟩, flush := noFlush }
  load b := .ok b.length
  save t := .ok (List.replicate t 0)

theorem summer_sound : summer.Sound where
  newDefault := nofun
  new := by simp [summer]
  begin := by simp [summer]
  fit := by
    intro xs s
    simp only [summer]
    split_ifs <;> simp
  onDataCompleted := by simp [summer]
  complete := by simp [summer]
  create := by simp [summer]
  load := by simp [summer]
  save := by simp [summer]
  execErr := by simp [summer]
  execOne := by simp [summer]
  flush := by simp [summer, noFlush]

theorem summer_begin : summer.BeginOk := by
  intro s _
  exact ⟨true, s, rfl⟩

/-- Addresses and draws for the `k`-th request of the examples. -/
def luck (k : Nat) : Luck := ⟨100 + 2 * k, [7 + 2 * k], 101 + 2 * k, [8 + 2 * k]⟩

/-- Create, fit, fail to fit, complete, create a transformer, transform, destroy the estimator. -/
def session : List (Request Nat) :=
  [.call (.createEstimator true) true, .call (.fitBuffer 7 (some [3, 4]) true) true,
   .call (.fit 7 13 true) true, .call (.completeTraining 7) true,
   .call (.createTransformer 7 true) true, .call (.transform 15 5 true) true,
   .call (.destroyEstimator 7) true, .call (.getState 7 true) true]

/-- Serve requests one after the other with the lucks `luck k`, `luck (k + 1)`, … -/
def serveAll (F : Featurizer σ ι τ O) :
    Nat → List (Request ι) → World σ τ → List (Reply O) × World σ τ
  | _, [], w => ([], w)
  | k, r :: rs, w =>
    let s := serve F r (luck k) w
    let t := serveAll F (k + 1) rs s.2
    (s.1 :: t.1, t.2)

/-- Replies of the example session: the failed fit is reported under handle 12, the transformer is handle
15 and yields 3 + 4 + 5, and the destroyed estimator is refused. -/
example : (serveAll summer 0 session World.start).1 =
    [.returned true (.handle 7) none, .returned true (.fitResult .continue) none,
     .returned false .nothing (some 12), .returned true .nothing none,
     .returned true (.handle 15) none, .returned true (.item 12) none,
     .returned true .nothing none, .returned false .nothing (some 22)] := rfl

/-- The world after creating an estimator. -/
def created : World Nat Nat := (serve summer (.call (.createEstimator true) true) (luck 0) World.start).2

theorem luck_ok_start (k : Nat) (hk : k < 1000) : (luck k).Ok (World.start : World Nat Nat) where
  addr0 := by simp [luck]
  addrFree := UMap.find?_empty _
  err0 := by simp [luck]
  errFree := UMap.find?_empty _
  distinct := by simp [luck]
  draws := by
    intro d hd
    simp [luck] at hd
    have : (2 : Nat) ^ 64 = 18446744073709551616 := by decide
    omega
  errDraws := by
    intro d hd
    simp [luck] at hd
    have : (2 : Nat) ^ 64 = 18446744073709551616 := by decide
    omega

theorem created_history : History summer
    [(.call (.createEstimator true) true, .returned true (.handle 7) none)] created :=
  History.step (l := luck 0) History.start (luck_ok_start 0 (by omega)) rfl trivial

theorem luck_ok_created : (luck 1).Ok created where
  addr0 := by simp [luck]
  addrFree := by decide
  err0 := by simp [luck]
  errFree := by decide
  distinct := by simp [luck]
  draws := by
    intro d hd
    simp [luck] at hd
    have : (2 : Nat) ^ 64 = 18446744073709551616 := by decide
    omega
  errDraws := by
    intro d hd
    simp [luck] at hd
    have : (2 : Nat) ^ 64 = 18446744073709551616 := by decide
    omega

theorem luck_delivers_created : (luck 1).Delivers created :=
  ⟨⟨9, by simp [luck], rfl⟩, ⟨10, by simp [luck], rfl⟩⟩

/-- The hypotheses of C52 and C60 are met. -/
example : RightKind created (.fit 7 13 true) := by
  refine ⟨?_, ?_⟩
  · intro _ o ho
    have : created.object 7 = some (.est ⟨.training, false, 0⟩) := rfl
    rw [show (Call.fit 7 13 true : Call Nat).handle = 7 from rfl, this] at ho
    injection ho with ho
    exact ⟨_, ho.symm⟩
  · intro h
    exact absurd h (by simp [Call.wantsTransformer])

/-- The full claim fails: a handle that stands for an object of another kind is not detected … -/
theorem C52_wrong_kind : (serve summer (.call (.save 7 true) true) (luck 1) created).1 = .crashed := rfl

/-- … a null out-parameter for the new handle is not either … -/
theorem C52_null_handle_out :
    (serve summer (.call (.createEstimator false) true) (luck 0) World.start).1 = .crashed := rfl

/-- … and the functions for error handles let the exception escape for a handle that is not live. -/
theorem C52_error_functions_escape :
    (serve summer (.errorText 5 true) (luck 0) World.start).1 = .escaped .invalidArgument ∧
    (serve summer (.destroyError 5) (luck 0) World.start).1 = .escaped .invalidArgument :=
  ⟨rfl, rfl⟩

theorem C52_claim_false : ¬ C52Claim Nat Nat Nat Nat := by
  intro h
  obtain ⟨ok, v, err, w', hs⟩ := h summer summer_sound _ _ created_history (luck 1) luck_ok_created
    luck_delivers_created (.save 7 true)
  have := C52_wrong_kind
  rw [hs] at this
  exact absurd this (by simp)

/-! ## C61: handles own their objects; nothing leaks -/

/-- C61: after any history, every live handle owns an allocated object, no two handles the same one, and
no handle is null. -/
theorem C61_owned {F : Featurizer σ ι τ O} {es : List (Request ι × Reply O)} {w : World σ τ}
    (h : History F es w) :
    (∀ i p, w.table.find? i = some p → i ≠ 0 ∧ ∃ o, w.heap.find? p = some o ∧ w.object i = some o) ∧
    (∀ i j p, w.table.find? i = some p → w.table.find? j = some p → i = j) := by
  obtain ⟨hw, -⟩ := h.wf
  refine ⟨?_, hw.inj⟩
  intro i p hi
  obtain ⟨a, o, ho⟩ := hw.live i p hi
  exact ⟨a, o, ho, object_eq_some.2 ⟨p, hi, ho⟩⟩

/-- C61 (partial: for featurizers whose `begin_training` does not throw): after any history, every
allocated object is owned by a live handle; in particular nothing is allocated once all handles have been
destroyed. -/
theorem C61_no_leaks_partial {F : Featurizer σ ι τ O} (hF : F.BeginOk)
    {es : List (Request ι × Reply O)} {w : World σ τ} (h : History F es w) :
    (∀ p o, w.heap.find? p = some o → ∃ i, w.table.find? i = some p ∧ w.object i = some o) ∧
    ((∀ i, afterAll F es i = none) → ∀ p, w.heap.find? p = none) := by
  have ht := h.wf.2 hF
  have h1 : ∀ p o, w.heap.find? p = some o → ∃ i, w.table.find? i = some p ∧ w.object i = some o := by
    intro p o ho
    obtain ⟨i, hi⟩ := ht p (by rw [ho]; simp)
    exact ⟨i, hi, object_eq_some.2 ⟨p, hi, ho⟩⟩
  refine ⟨h1, ?_⟩
  intro hn p
  rcases hp : w.heap.find? p with _ | o
  · rfl
  · obtain ⟨i, _, hi⟩ := h1 p o hp
    rw [C60_history h, hn i] at hi
    exact absurd hi (by simp)

/-- A featurizer whose `begin_training` throws. -/
def thrower : Featurizer Nat Nat Nat Nat :=
  { summer with hooks := { summer.hooks with begin := fun s => (.error .runtimeError, s) } }

/-- The full claim fails for it: the estimator object stays allocated although its creation was reported
as failed and the only handle, that of the error, has been destroyed. -/
theorem C61_leak :
    ((serveAll thrower 0 [.call (.createEstimator true) true, .destroyError 8] World.start).1 =
      [.returned false .nothing (some 8), .returned true .nothing none]) ∧
    (∀ i, (serveAll thrower 0 [.call (.createEstimator true) true, .destroyError 8]
      World.start).2.object i = none) ∧
    ((serveAll thrower 0 [.call (.createEstimator true) true, .destroyError 8]
      World.start).2.heap.find? 100 = some (.est ⟨.pending, false, 0⟩)) := by
  refine ⟨rfl, fun i => ?_, rfl⟩
  have : (serveAll thrower 0 [.call (.createEstimator true) true, .destroyError 8]
      World.start).2.table = UMap.empty := rfl
  unfold World.object
  rw [this, UMap.find?_empty]
  rfl

end CApi

end Feat
