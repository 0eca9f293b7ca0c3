import Verif.Props.CApi
/-
C90: estimators of the robust scaler created with default arguments through the C interface.
-/
namespace Feat.CApi

variable {σ ι τ O : Type}

/-- The calls of the C interface that train an estimator or make a transformer of it, with all arguments given. -/
inductive Trains (h : Nat) : Call ι → Prop where
  | fit (x : ι) : Trains h (.fit h x true)
  | fitBuffer (xs : List ι) (hx : xs ≠ []) : Trains h (.fitBuffer h (some xs) true)
  | onDataCompleted : Trains h (.onDataCompleted h)
  | completeTraining : Trains h (.completeTraining h)
  | createTransformer : Trains h (.createTransformer h true)

/-- In the history, the handle `h` was returned by the function that creates an estimator with default arguments, and
has not been passed to the function that destroys estimators since. -/
structure MadeByDefault (h : Nat) (es : List (Request ι × Reply O)) : Prop where
  made : ∃ before after, es = before ++ (.call (.createWithDefault true) true, .returned true (.handle h) none) :: after ∧
    ∀ b rep, (Request.call (.destroyEstimator h) b, rep) ∉ after

private theorem direct_pending (F : Featurizer σ ι τ O) (e : Est σ) (he : e.state = .pending) (c : Call ι) (hh : c.handle ≠ 0)
    (hd : ∀ h, c ≠ .destroyEstimator h) :
    (∃ x, direct F (some (.est e)) c = .fails x (some (.est e))) ∨
    (∃ v, direct F (some (.est e)) c = .succeeds v (some (.est e))) ∨ direct F (some (.est e)) c = .crashes := by
  cases c with
  | createEstimator out => exact absurd rfl hh
  | createWithDefault out => exact absurd rfl hh
  | loadTransformer b out => exact absurd rfl hh
  | destroyEstimator h => exact absurd rfl (hd h)
  | getState h out => cases out <;> simp [direct, onEst]
  | isTrainingComplete h out => cases out <;> simp [direct, onEst]
  | fit h x out => cases out <;> simp [direct, onEst, Est.fit, he]
  | fitBuffer h xs out =>
    rcases xs with _ | xs
    · simp [direct]
    · simp only [direct]
      split_ifs
      · simp
      · simp [onEst, Est.fit, he]
  | onDataCompleted h => simp [direct, onEst, Est.onDataCompleted, he]
  | completeTraining h => simp [direct, onEst, Est.completeTraining, he]
  | createTransformer h out => cases out <;> simp [direct, Est.createTransformer, he]
  | destroyTransformer h => simp [direct]
  | save h out => cases out <;> simp [direct, onXf]
  | transform h x out => cases out <;> simp [direct, onXf]
  | flush h out => cases out <;> simp [direct, onXf]

/-- One request: an estimator that is not begun stays as it is unless it is destroyed. -/
private theorem step_pending {F : Featurizer σ ι τ O} {es : List (Request ι × Reply O)} {w w' : World σ τ} {r : Request ι}
    {rep : Reply O} {l : Luck} (hist : History F es w) (hl : l.Ok w) (hs : serve F r l w = (rep, w')) (hb : rep.cameBack)
    (h : Nat) (e : Est σ) (he : e.state = .pending) (ho : w.object h = some (.est e))
    (hr : ∀ b, r ≠ .call (.destroyEstimator h) b) : w'.object h = some (.est e) := by
  have h0 : h ≠ 0 := by
    rintro rfl
    rw [hist.object_zero] at ho
    cases ho
  cases r with
  | call c errOut =>
    cases errOut with
    | false =>
      have : serve F (.call c false) l w = (.returned false .nothing none, w) := by simp [serve, invoke]
      rw [this] at hs
      injection hs with h1 h2
      rw [← h2]; exact ho
    | true =>
      have hs : invoke F c true l w = (rep, w') := hs
      have key : ∀ c : Call ι, c.givesOut = true → c ≠ .destroyEstimator h → invoke F c true l w = (rep, w') →
          w'.object h = some (.est e) := by
        intro c hc hcd hs
        have hout := (invoke_outcome (F := F) hist.wf.1 hl c hc).1
        rw [hs] at hout
        rcases hout with ⟨h1, _⟩ | hout
        · dsimp only at h1
          rw [h1] at hb
          exact hb.elim
        · by_cases hch : c.handle = h
          · have hcd' : ∀ k, c ≠ .destroyEstimator k := by
              rintro k rfl
              exact hcd (by rw [show k = h from hch])
            rw [hch, ho] at hout
            rcases direct_pending F e he c (by rw [hch]; exact h0) hcd' with ⟨x, hx⟩ | ⟨v, hv⟩ | hx
            · rw [hx] at hout
              by_cases hu : x = .ub
              · subst hu
                have h1 : rep = .crashed := hout
                rw [h1] at hb
                exact hb.elim
              · have hout' : ∃ i, rep = .returned false .nothing (some i) ∧ i ≠ 0 ∧ w.object i = none ∧
                    ∀ j, w'.object j = if j = i then some (.message x) else if j = h then some (.est e) else w.object j := by
                  cases x <;> first | exact hout | exact absurd rfl hu
                obtain ⟨i, -, -, hi, hj⟩ := hout'
                rw [hj, if_neg, if_pos rfl]
                rintro rfl
                rw [hi] at ho; cases ho
            · rw [hv] at hout
              rw [hout.2, if_pos rfl]
            · rw [hx] at hout
              have h1 : rep = .crashed := hout
              rw [h1] at hb
              exact hb.elim
          · rcases hd : direct F (w.object c.handle) c with ⟨x, a⟩ | ⟨v, a⟩ | ⟨n, a⟩ | _
            · rw [hd] at hout
              by_cases hu : x = .ub
              · subst hu
                have h1 : rep = .crashed := hout
                rw [h1] at hb
                exact hb.elim
              · have hout' : ∃ i, rep = .returned false .nothing (some i) ∧ i ≠ 0 ∧ w.object i = none ∧
                    ∀ j, w'.object j = if j = i then some (.message x) else if j = c.handle then a else w.object j := by
                  cases x <;> first | exact hout | exact absurd rfl hu
                obtain ⟨i, -, -, hi, hj⟩ := hout'
                rw [hj, if_neg, if_neg (fun h => hch h.symm)]
                · exact ho
                · rintro rfl
                  rw [hi] at ho; cases ho
            · rw [hd] at hout
              rw [hout.2, if_neg (fun h => hch h.symm)]
              exact ho
            · rw [hd] at hout
              obtain ⟨i, -, -, hi, hj⟩ := hout
              rw [hj, if_neg, if_neg (fun h => hch h.symm)]
              · exact ho
              · rintro rfl
                rw [hi] at ho; cases ho
            · rw [hd] at hout
              have h1 : rep = .crashed := hout
              rw [h1] at hb
              exact hb.elim
      rcases givesOut_cases c with hc | rfl | rfl
      · exact key c hc (fun hc' => hr true (by rw [hc'])) hs
      · rcases invoke_create_false (F := F) (l := l) (w := w) with h | h
        · rw [h] at hs
          exact key _ rfl (by simp) hs
        · rw [hs] at h
          exact absurd hb h
      · rcases invoke_default_false (F := F) (l := l) (w := w) with h | h
        · rw [h] at hs
          exact key _ rfl (by simp) hs
        · rw [hs] at h
          exact absurd hb h
  | errorText h out =>
    have : w = w' := congrArg Prod.snd hs
    rw [← this]; exact ho
  | destroyError k =>
    have hstep := History.step hist hl hs hb
    have h1 := C60_history hstep
    rw [afterAll, List.foldl_append] at h1
    have h2 : List.foldl (afterRequest F) (fun _ => none) es = w.object := (C60_history hist).symm
    rw [h2] at h1
    by_cases hk : k = h
    · subst hk
      have hs : destroyErrorInfo k w = (rep, w') := hs
      unfold destroyErrorInfo at hs
      rw [if_neg h0] at hs
      rcases message_cases hist.wf.1 k with ⟨a, b⟩ | ⟨p, e, a, b, c, d, -⟩ | ⟨o, a, b, c⟩
      · rw [a] at ho; cases ho
      · rw [a] at ho; cases ho
      · rw [c] at hs
        injection hs with h1 h2
        rw [← h1] at hb
        exact hb.elim
    · have h3 : w'.object h = afterRequest F w.object (.destroyError k, rep) h := by rw [h1]; rfl
      rw [h3]
      rcases rep with ⟨_ | _, v, _ | i⟩ | _ | _ | _ <;> simp only [afterRequest, Objects.set] <;>
        first | exact ho | (rw [if_neg (fun h => hk h.symm)]; exact ho)

private theorem history_snoc {F : Featurizer σ ι τ O} {es : List (Request ι × Reply O)} {x : Request ι × Reply O}
    {w' : World σ τ} (h : History F (es ++ [x]) w') : ∃ w l, History F es w ∧ l.Ok w ∧ serve F x.1 l w = (x.2, w') ∧
      x.2.cameBack := by
  generalize hes : es ++ [x] = l at h
  cases h with
  | start => simp at hes
  | @step es' w _ r rep l h hl hs hb =>
    obtain ⟨h1, h2⟩ := List.append_inj' hes rfl
    simp only [List.cons.injEq, and_true] at h2
    subst h1 h2
    exact ⟨w, l, h, hl, hs, hb⟩

/-- **C90 (never begun)** After any history of requests, a handle returned by the function that creates an estimator with
default arguments, if not destroyed since, stands for an estimator in the state in which it was created: training has
not begun, whatever functions of the C interface have been called. -/
theorem C90_pending {F : Featurizer σ ι τ O} {es : List (Request ι × Reply O)} {w : World σ τ} (hist : History F es w)
    {h : Nat} (hm : MadeByDefault h es) : ∃ s, F.newDefault = .ok s ∧ w.object h = some (.est (Est.new s)) := by
  obtain ⟨before, after, he, hn⟩ := hm.made
  induction after using List.reverseRecOn generalizing es w with
  | nil =>
    subst he
    obtain ⟨w0, l, h0, hl, hs, hb⟩ := history_snoc hist
    have hs : invoke F (.createWithDefault true) true l w0 = (.returned true (.handle h) none, w) := hs
    have hout := (invoke_outcome (F := F) h0.wf.1 hl (.createWithDefault true) rfl).1
    rw [hs] at hout
    rcases hout with ⟨h1, _⟩ | hout
    · cases h1
    · simp only [direct] at hout
      rcases hnew : F.newDefault with x | s
      · rw [hnew] at hout
        simp only at hout
        by_cases hu : x = .ub
        · subst hu
          cases (show (Reply.returned true (.handle h) none : Reply O) = .crashed from hout)
        · have hout' : ∃ i, (Reply.returned true (.handle h) none : Reply O) = .returned false .nothing (some i) := by
            cases x <;> first | (obtain ⟨i, hi, _⟩ := hout; exact ⟨i, hi⟩) | exact absurd rfl hu
          obtain ⟨i, hi⟩ := hout'
          cases hi
      · rw [hnew] at hout
        obtain ⟨i, hi, _, _, hj⟩ := hout
        simp only [Reply.returned.injEq, Value.handle.injEq, true_and, and_true] at hi
        exact ⟨s, rfl, by rw [hj, if_pos hi]⟩
  | append_singleton after x ih =>
    rw [← List.cons_append, ← List.append_assoc] at he
    subst he
    obtain ⟨w0, l, h0, hl, hs, hb⟩ := history_snoc hist
    have hn' : ∀ b rep, (Request.call (.destroyEstimator h) b, rep) ∉ after :=
      fun b rep hmem => hn b rep (List.mem_append_left _ hmem)
    obtain ⟨s, h1, h2⟩ := ih h0 ⟨before, after, rfl, hn'⟩ rfl hn'
    refine ⟨s, h1, step_pending h0 hl hs hb h (Est.new s) rfl h2 ?_⟩
    intro b hb'
    exact hn b x.2 (List.mem_append_right _ (by rw [← hb']; simp))

/-- **C90 (refuted: cannot be trained)** After any history of requests, each function that trains an estimator or creates
its transformer, called with the handle of an estimator created with default arguments, fails: it returns false with a
handle for a message of a `std::runtime_error`, and the estimator is not changed. (`Fit`, `FitBuffer`,
`OnDataCompleted`, `CompleteTraining`, `CreateTransformerFromEstimator`.) -/
theorem C90_never_trained {F : Featurizer σ ι τ O} {es : List (Request ι × Reply O)} {w : World σ τ}
    (hist : History F es w) {h : Nat} (hm : MadeByDefault h es) {l : Luck} (hl : l.Ok w) (hd : l.Delivers w)
    {c : Call ι} (hc : Trains h c) :
    ∃ i w', serve F (.call c true) l w = (.returned false .nothing (some i), w') ∧
      w'.object i = some (.message .runtimeError) ∧ w'.object h = w.object h := by
  obtain ⟨s, -, ho⟩ := C90_pending hist hm
  have hout : ∀ c : Call ι, c.givesOut = true → c.handle = h →
      direct F (some (.est (Est.new s))) c = .fails .runtimeError (some (.est (Est.new s))) →
      ∃ i w', serve F (.call c true) l w = (.returned false .nothing (some i), w') ∧
        w'.object i = some (.message .runtimeError) ∧ w'.object h = w.object h := by
    intro c hg hch hdir
    have := C60_call hist hl hd c hg
    rw [hch, ho, hdir] at this
    generalize serve F (.call c true) l w = r at this
    obtain ⟨rep, w'⟩ := r
    obtain ⟨i, hi, _, hf, hj⟩ := this
    refine ⟨i, w', by rw [hi], by rw [hj, if_pos rfl], ?_⟩
    rw [hj, if_neg, if_pos rfl, ho]
    rintro rfl
    rw [hf] at ho; cases ho
  cases hc with
  | fit x => exact hout _ rfl rfl (by simp [direct, onEst, Est.fit, Est.new])
  | fitBuffer xs hx => exact hout _ rfl rfl (by simp [direct, onEst, Est.fit, Est.new, hx])
  | onDataCompleted => exact hout _ rfl rfl (by simp [direct, onEst, Est.onDataCompleted, Est.new])
  | completeTraining => exact hout _ rfl rfl (by simp [direct, onEst, Est.completeTraining, Est.new])
  | createTransformer => exact hout _ rfl rfl (by simp [direct, Est.createTransformer, Est.new])

/-- **C90 (reported as trained)** For such a handle `GetState` reports `Pending`, and `IsTrainingComplete` reports true,
although nothing was trained. -/
theorem C90_reports {F : Featurizer σ ι τ O} {es : List (Request ι × Reply O)} {w : World σ τ} (hist : History F es w)
    {h : Nat} (hm : MadeByDefault h es) {l : Luck} (hl : l.Ok w) (hd : l.Delivers w) :
    (serve F (.call (.getState h true) true) l w).1 = .returned true (.state .pending) none ∧
    (serve F (.call (.isTrainingComplete h true) true) l w).1 = .returned true (.flag true) none := by
  obtain ⟨s, -, ho⟩ := C90_pending hist hm
  constructor
  · have := C60_call hist hl hd (.getState h true) rfl
    rw [show (Call.getState h true : Call ι).handle = h from rfl, ho] at this
    exact this.1
  · have := C60_call hist hl hd (.isTrainingComplete h true) rfl
    rw [show (Call.isTrainingComplete h true : Call ι).handle = h from rfl, ho] at this
    exact this.1

/-! ### A history -/

/-- The featurizer of the examples with a function for default arguments. -/
def summerDefault : Featurizer Nat Nat Nat Nat := { summer with newDefault := .ok 0 }

/-- The world after creating an estimator with default arguments. -/
def createdDefault : World Nat Nat :=
  (serve summerDefault (.call (.createWithDefault true) true) (luck 0) World.start).2

theorem luck_ok_default : (luck 1).Ok createdDefault where
  addr0 := by simp [luck]
  addrFree := by decide
  err0 := by simp [luck]
  errFree := by decide
  distinct := by simp [luck]
  draws := by
    intro d hd
    simp [luck] at hd
    have : (2 : Nat) ^ 64 = 18446744073709551616 := by decide
    omega
  errDraws := by
    intro d hd
    simp [luck] at hd
    have : (2 : Nat) ^ 64 = 18446744073709551616 := by decide
    omega

/-- An estimator is created with default arguments; `Fit` fails; the hypotheses of C90_never_trained hold before and
after. -/
example : ∃ w, History summerDefault
    [(.call (.createWithDefault true) true, .returned true (.handle 7) none),
      (.call (.fit 7 3 true) true, .returned false .nothing (some 10))] w ∧
    MadeByDefault 7 ([(.call (.createWithDefault true) true, .returned true (.handle 7) none),
      (.call (.fit 7 3 true) true, .returned false .nothing (some 10))] : List (Request Nat × Reply Nat)) ∧
    (luck 1).Delivers createdDefault := by
  have h0 : History summerDefault [(.call (.createWithDefault true) true, .returned true (.handle 7) none)]
      createdDefault := History.step (l := luck 0) History.start (luck_ok_start 0 (by omega)) rfl trivial
  refine ⟨_, History.step (l := luck 1) h0 luck_ok_default rfl trivial, ⟨[], _, rfl, ?_⟩,
    ⟨⟨9, by simp [luck], rfl⟩, ⟨10, by simp [luck], rfl⟩⟩⟩
  intro b rep h
  simp at h

end Feat.CApi
