import Verif.Spec.Sessions
import Verif.Props.CApi
import Verif.Props.Fills
import Verif.Model.CGather
/-
C104: the users of a handle see what a program sees that has the object for itself.
-/
namespace Feat.CApi
variable {σ ι τ O : Type}

theorem Session.history {F : Featurizer σ ι τ O} {es₀ es : List (Request ι × Reply O)} {w₀ w : World σ τ}
    (h₀ : History F es₀ w₀) (h : Session F w₀ es w) : History F (es₀ ++ es) w := by
  induction h with
  | start => simpa using h₀
  | step _ hl hs hb ih => rw [← List.append_assoc]; exact ih.step hl hs hb

/-- A reply that came back to a call with a place for the error: the outcome that direct calls have. -/
theorem outcome {F : Featurizer σ ι τ O} {es : List (Request ι × Reply O)} {w w' : World σ τ}
    (h : History F es w) {l : Luck} (hl : l.Ok w) {c : Call ι} (hc : c.givesOut = true) {rep : Reply O}
    (hs : serve F (.call c true) l w = (rep, w')) (hb : rep.cameBack) :
    Outcome w c.handle (direct F (w.object c.handle) c) (rep, w') := by
  rcases (invoke_outcome (F := F) h.wf.1 hl c hc).1 with ⟨h1, _⟩ | h1
  · have hs' : invoke F c true l w = (rep, w') := hs
    rw [hs'] at h1
    have h1 : rep = .pending := h1
    subst h1
    exact absurd hb (by simp [Reply.cameBack])
  · have hs' : invoke F c true l w = (rep, w') := hs
    rw [hs'] at h1
    exact h1

private theorem outcome_other {w w' : World σ τ} {h : Nat} {x : Effect σ τ O} {rep : Reply O}
    (ho : Outcome w h x (rep, w')) (hb : rep.cameBack) {k : Nat} (hk : w.object k ≠ none) (hne : k ≠ h) :
    w'.object k = w.object k := by
  rcases x with ⟨e, a⟩ | ⟨v, a⟩ | ⟨n, a⟩ | _
  · by_cases he : e = .ub
    · subst he
      have : rep = .crashed := ho
      subst this
      exact absurd hb (by simp [Reply.cameBack])
    · have : ∃ i, rep = .returned false .nothing (some i) ∧ i ≠ 0 ∧ w.object i = none ∧
          ∀ j, w'.object j = if j = i then some (.message e) else if j = h then a else w.object j := by
        cases e <;> first | exact ho | exact absurd rfl he
      obtain ⟨i, rfl, _, hi, hobj⟩ := this
      rw [hobj, if_neg (fun hh => hk (by rw [hh]; exact hi)), if_neg hne]
  · obtain ⟨rfl, hobj⟩ := ho
    rw [hobj, if_neg hne]
  · obtain ⟨i, rfl, _, hi, hobj⟩ := ho
    rw [hobj, if_neg (fun hh => hk (by rw [hh]; exact hi)), if_neg hne]
  · have : rep = .crashed := ho
    subst this
    exact absurd hb (by simp [Reply.cameBack])

/-- What remains of the object behind a live handle. -/
theorem kept {F : Featurizer σ ι τ O} {es : List (Request ι × Reply O)} {w w' : World σ τ}
    (h : History F es w) {l : Luck} (hl : l.Ok w) {r : Request ι} {rep : Reply O}
    (hs : serve F r l w = (rep, w')) (hb : rep.cameBack) (k : Nat) (o : Obj σ τ) (hk : w.object k = some o)
    (hm : ∀ e, o ≠ .message e) :
    (∃ c, r = .call c true ∧ c.handle = k ∧ Outcome w k (direct F (some o) c) (rep, w')) ∨
    (w'.object k = some o ∧ ∀ c, r = .call c true → c.handle ≠ k) := by
  have k0 : k ≠ 0 := fun hh => by rw [hh, h.object_zero] at hk; cases hk
  have kn : w.object k ≠ none := by rw [hk]; exact fun hh => (by cases hh)
  cases r with
  | call c errOut =>
    cases errOut with
    | false =>
      have : serve F (.call c false) l w = (.returned false .nothing none, w) := by simp [serve, invoke]
      rw [this] at hs
      injection hs with h1 h2
      subst h1 h2
      exact .inr ⟨hk, fun c' hc' => (by injection hc' with _ h2; cases h2)⟩
    | true =>
      have key : ∀ c : Call ι, c.givesOut = true → serve F (.call c true) l w = (rep, w') → c.handle ≠ k →
          w'.object k = some o := fun c hc hs hne => by
        rw [← hk]
        exact outcome_other (outcome h hl hc hs hb) hb kn (Ne.symm hne)
      rcases givesOut_cases c with hc | rfl | rfl
      · by_cases hck : c.handle = k
        · refine .inl ⟨c, rfl, hck, ?_⟩
          have ho := outcome h hl hc hs hb
          rw [hck, hk] at ho
          exact ho
        · refine .inr ⟨key c hc hs hck, fun c' hc' => ?_⟩
          injection hc' with h1 _
          rw [← h1]; exact hck
      · refine .inr ⟨?_, fun c' hc' => ?_⟩
        · have hs : invoke F (.createEstimator false) true l w = (rep, w') := hs
          rcases invoke_create_false (F := F) (l := l) (w := w) with h' | h'
          · rw [h'] at hs
            exact key (.createEstimator true) rfl hs (Ne.symm k0)
          · rw [hs] at h'
            exact absurd hb h'
        · injection hc' with h1 _
          rw [← h1]; exact Ne.symm k0
      · refine .inr ⟨?_, fun c' hc' => ?_⟩
        · have hs : invoke F (.createWithDefault false) true l w = (rep, w') := hs
          rcases invoke_default_false (F := F) (l := l) (w := w) with h' | h'
          · rw [h'] at hs
            exact key (.createWithDefault true) rfl hs (Ne.symm k0)
          · rw [hs] at h'
            exact absurd hb h'
        · injection hc' with h1 _
          rw [← h1]; exact Ne.symm k0
  | errorText j out =>
    have : w = w' := congrArg Prod.snd hs
    subst this
    exact .inr ⟨hk, fun c' hc' => (by cases hc')⟩
  | destroyError j =>
    refine .inr ⟨?_, fun c' hc' => (by cases hc')⟩
    have hs : destroyErrorInfo j w = (rep, w') := hs
    unfold destroyErrorInfo at hs
    split_ifs at hs
    · injection hs with h1 h2
      rw [← h2]; exact hk
    · rcases message_cases h.wf.1 j with ⟨a, b⟩ | ⟨p, e, a, b, c, d, -⟩ | ⟨o', a, b, c⟩
      · rw [b] at hs
        injection hs with h1 h2
        rw [← h2]; exact hk
      · rw [d] at hs
        obtain ⟨w'', e1, e2⟩ := destroy_moved (F := F) h.wf.1 hl b
        simp only [e1] at hs
        injection hs with h1 h2
        subst h2
        rw [e2.object]
        have : k ≠ j := fun hh => by
          rw [← hh, hk] at a
          exact hm e (Option.some.inj a)
        simp [this, hk]
      · rw [c] at hs
        injection hs with h1 h2
        subst h1
        exact absurd hb (by simp [Reply.cameBack])

/-- The reply of a method of a transformer. -/
private theorem on_xf {w w' : World σ τ} {k : Nat} {t t' : τ} {α : Type} {m : Op τ α} {f : α → Value O}
    {r : Except Err α} {rep : Reply O} (hm : m t = (r, t')) (hk : w.object k = some (.xf t))
    (ho : Outcome w k (onXf (some (.xf t : Obj σ τ)) m f) (rep, w')) (hb : rep.cameBack) :
    w'.object k = some (.xf t') ∧
      ((∃ a, r = .ok a ∧ rep = .returned true (f a) none) ∨ (∃ e i, r = .error e ∧ e ≠ .ub ∧ rep = .returned false .nothing (some i))) := by
  simp only [onXf, hm] at ho
  rcases r with e | a
  · by_cases he : e = .ub
    · subst he
      have : rep = .crashed := ho
      subst this
      exact absurd hb (by simp [Reply.cameBack])
    · have : ∃ i, rep = .returned false .nothing (some i) ∧ i ≠ 0 ∧ w.object i = none ∧
          ∀ j, w'.object j = if j = i then some (.message e) else if j = k then some (.xf t') else w.object j := by
        cases e <;> first | exact ho | exact absurd rfl he
      obtain ⟨i, rfl, _, hi, hobj⟩ := this
      refine ⟨?_, .inr ⟨e, i, rfl, he, rfl⟩⟩
      rw [hobj, if_neg (fun hh => by rw [← hh, hk] at hi; cases hi), if_pos rfl]
  · obtain ⟨rfl, hobj⟩ := ho
    exact ⟨by rw [hobj, if_pos rfl], .inl ⟨a, rfl, rfl⟩⟩

theorem refused {w w' : World σ τ} {k : Nat} {o : Obj σ τ}
    {rep : Reply O} (hk : w.object k = some o)
    (ho : Outcome w k (Effect.fails .invalidArgument (some o) : Effect σ τ O) (rep, w')) : w'.object k = some o := by
  obtain ⟨i, rfl, _, hi, hobj⟩ := ho
  rw [hobj, if_neg (fun hh => by rw [← hh, hk] at hi; cases hi), if_pos rfl]

theorem not_crashed {w w' : World σ τ} {k : Nat} {rep : Reply O}
    (ho : Outcome w k (Effect.crashes : Effect σ τ O) (rep, w')) (hb : rep.cameBack) : False := by
  have : rep = .crashed := ho
  subst this
  exact absurd hb (by simp [Reply.cameBack])

/-- One request while a transformer lives. -/
private theorem one {F : Featurizer σ ι τ O} {es : List (Request ι × Reply O)} {w w' : World σ τ}
    (h : History F es w) {l : Luck} (hl : l.Ok w) {r : Request ι} {rep : Reply O}
    (hs : serve F r l w = (rep, w')) (hb : rep.cameBack) (k : Nat) (t : τ) (hk : w.object k = some (.xf t))
    (hd : r ≠ .call (.destroyTransformer k) true) :
    (askedOf k r = none ∧ w'.object k = some (.xf t)) ∨
    (∃ a, askedOf k r = some a ∧ w'.object k = some (.xf (a.run F.xf t).next) ∧
      rep.items = match (a.run F.xf t).err with | none => some (a.run F.xf t).outs | some _ => none) := by
  rcases kept h hl hs hb k _ hk (fun e he => by cases he) with ⟨c, rfl, hck, ho⟩ | ⟨hw', hno⟩
  · cases c with
    | createEstimator out => have h0 := h.object_zero; rw [show (0 : Nat) = k from hck, hk] at h0; cases h0
    | createWithDefault out => have h0 := h.object_zero; rw [show (0 : Nat) = k from hck, hk] at h0; cases h0
    | loadTransformer b out => have h0 := h.object_zero; rw [show (0 : Nat) = k from hck, hk] at h0; cases h0
    | destroyEstimator i => exact (not_crashed ho hb).elim
    | getState i out =>
      cases out
      · exact .inl ⟨rfl, refused hk ho⟩
      · exact (not_crashed ho hb).elim
    | isTrainingComplete i out =>
      cases out
      · exact .inl ⟨rfl, refused hk ho⟩
      · exact (not_crashed ho hb).elim
    | fit i x out =>
      cases out
      · exact .inl ⟨rfl, refused hk ho⟩
      · exact (not_crashed ho hb).elim
    | fitBuffer i xs out =>
      rcases xs with _ | xs
      · exact .inl ⟨rfl, refused hk ho⟩
      · simp only [direct] at ho
        by_cases hc : out = false ∨ xs = []
        · rw [if_pos hc] at ho
          exact .inl ⟨rfl, refused hk ho⟩
        · rw [if_neg hc] at ho
          exact (not_crashed ho hb).elim
    | onDataCompleted i => exact (not_crashed ho hb).elim
    | completeTraining i => exact (not_crashed ho hb).elim
    | createTransformer i out =>
      cases out
      · exact .inl ⟨rfl, refused hk ho⟩
      · exact (not_crashed ho hb).elim
    | destroyTransformer i =>
      exact absurd (by rw [show i = k from hck]) hd
    | save i out =>
      cases out
      · exact .inl ⟨rfl, refused hk ho⟩
      · exact .inl ⟨rfl, (on_xf rfl hk ho hb).1⟩
    | transform i x out =>
      have hi : i = k := hck
      cases out
      · exact .inl ⟨rfl, refused hk ho⟩
      · refine .inr ⟨.row x, by simp [askedOf, hi], ?_⟩
        simp only [direct, if_true] at ho
        have hx := on_xf (show executeOne F.xf x t = ((executeOne F.xf x t).1, (executeOne F.xf x t).2) from rfl) hk ho hb
        show _ ∧ rep.items = match (F.xf.exec t x).err with | none => some (F.xf.exec t x).outs | some _ => none
        rcases he : F.xf.exec t x with ⟨outs, err, next⟩
        have hn : (executeOne F.xf x t).2 = next := by
          simp only [executeOne, he]
          rcases err with _ | e
          · rcases outs with _ | ⟨a, _ | _⟩ <;> rfl
          · rfl
        obtain ⟨h1, h2⟩ := hx
        refine ⟨by rw [h1, hn]; simp [Ask.run, he], ?_⟩
        have hr : (executeOne F.xf x t).1 = match err, outs with
            | some e, _ => .error e
            | none, [o] => .ok o
            | none, _ => .error .ub := by
          simp only [executeOne, he]
          rcases err with _ | e
          · rcases outs with _ | ⟨a, _ | _⟩ <;> rfl
          · rfl
        rw [hr] at h2
        rcases h2 with ⟨a, ha, rfl⟩ | ⟨e, j, ha, hne, rfl⟩
        · rcases err with _ | e
          · rcases outs with _ | ⟨b, _ | _⟩
            · cases ha
            · cases ha; rfl
            · cases ha
          · cases ha
        · rcases err with _ | e
          · rcases outs with _ | ⟨b, _ | _⟩
            · cases ha; exact absurd rfl hne
            · cases ha
            · cases ha; exact absurd rfl hne
          · rfl
    | flush i out =>
      have hi : i = k := hck
      cases out
      · exact .inl ⟨rfl, refused hk ho⟩
      · refine .inr ⟨.flush, by simp [askedOf, hi], ?_⟩
        simp only [direct, if_true] at ho
        have hx := on_xf (show flushAll F.xf t = ((flushAll F.xf t).1, (flushAll F.xf t).2) from rfl) hk ho hb
        show _ ∧ rep.items = match (F.xf.flush t).err with | none => some (F.xf.flush t).outs | some _ => none
        rcases he : F.xf.flush t with ⟨outs, err, next⟩
        obtain ⟨h1, h2⟩ := hx
        rcases err with _ | e
        · simp only [flushAll, he] at h1 h2
          refine ⟨by rw [h1]; simp [Ask.run, he], ?_⟩
          rcases h2 with ⟨a, ha, rfl⟩ | ⟨e, j, ha, hne, rfl⟩
          · cases ha; rfl
          · cases ha
        · simp only [flushAll, he] at h1 h2
          refine ⟨by rw [h1]; simp [Ask.run, he], ?_⟩
          rcases h2 with ⟨a, ha, rfl⟩ | ⟨e, j, ha, hne, rfl⟩
          · cases ha
          · rfl
  · refine .inl ⟨?_, hw'⟩
    cases r with
    | call c b =>
      cases b
      · cases c <;> simp [askedOf]
      · have := hno c rfl
        cases c with
        | transform i x out => cases out <;> simp_all [askedOf, Call.handle]
        | flush i out => cases out <;> simp_all [askedOf, Call.handle]
        | _ => rfl
    | errorText _ _ => rfl
    | destroyError _ => rfl

theorem alone_append (X : Xf τ ι O) (t : τ) (as bs : List (Ask ι)) :
    alone X t (as ++ bs) = ((alone X t as).1 ++ (alone X (alone X t as).2 bs).1, (alone X (alone X t as).2 bs).2) := by
  induction as generalizing t with
  | nil => rfl
  | cons a as ih => simp only [List.cons_append, alone, ih]

/-- **C104** While a transformer lives, its handle answers as the transformer would if asked directly, by a program that has
it for itself: whatever is done with other handles in between, and whether calls fail or not. -/
theorem C104_transformer {F : Featurizer σ ι τ O} {es₀ es : List (Request ι × Reply O)} {w₀ w : World σ τ}
    (h₀ : History F es₀ w₀) (h : Session F w₀ es w) (k : Nat) (t : τ) (hk : w₀.object k = some (.xf t))
    (hd : ∀ e ∈ es, e.1 ≠ .call (.destroyTransformer k) true) :
    answers k es = (alone F.xf t (questions k es)).1 ∧
    w.object k = some (.xf (alone F.xf t (questions k es)).2) := by
  induction h with
  | start => exact ⟨rfl, hk⟩
  | @step es w₁ w' r rep l h hl hs hb ih =>
    obtain ⟨i1, i2⟩ := ih (fun e he => hd e (List.mem_append_left _ he))
    have hd' := hd (r, rep) (by simp)
    rcases one (h.history h₀) hl hs hb k _ i2 hd' with ⟨q, hw⟩ | ⟨a, q, hw, hr⟩
    · simp only [questions, answers, List.filterMap_append, List.filterMap_cons, List.filterMap_nil, q, Option.map_none,
        List.append_nil] at i1 i2 hw ⊢
      exact ⟨i1, hw⟩
    · simp only [questions, answers, List.filterMap_append, List.filterMap_cons, List.filterMap_nil, q, Option.map_some] at i1 i2 hw ⊢
      rw [alone_append]
      refine ⟨?_, hw⟩
      rw [i1]
      show _ ++ [rep.items] = _
      rw [hr]
      rfl

/-! ### Estimators -/

/-- The reply of a method of an estimator. -/
theorem on_est {w w' : World σ τ} {k : Nat} {e e' : Est σ} {α : Type} {m : Op (Est σ) α} {f : α → Value O}
    {r : Except Err α} {rep : Reply O} (hm : m e = (r, e')) (hk : w.object k = some (.est e))
    (ho : Outcome w k (onEst (some (.est e : Obj σ τ)) m f) (rep, w')) (hb : rep.cameBack) :
    w'.object k = some (.est e') ∧
      ((∃ a, r = .ok a ∧ rep = .returned true (f a) none) ∨
        (∃ x i, r = .error x ∧ x ≠ .ub ∧ rep = .returned false .nothing (some i))) := by
  simp only [onEst, hm] at ho
  rcases r with x | a
  · by_cases he : x = .ub
    · subst he
      have : rep = .crashed := ho
      subst this
      exact absurd hb (by simp [Reply.cameBack])
    · have : ∃ i, rep = .returned false .nothing (some i) ∧ i ≠ 0 ∧ w.object i = none ∧
          ∀ j, w'.object j = if j = i then some (.message x) else if j = k then some (.est e') else w.object j := by
        cases x <;> first | exact ho | exact absurd rfl he
      obtain ⟨i, rfl, _, hi, hobj⟩ := this
      refine ⟨?_, .inr ⟨x, i, rfl, he, rfl⟩⟩
      rw [hobj, if_neg (fun hh => by rw [← hh, hk] at hi; cases hi), if_pos rfl]
  · obtain ⟨rfl, hobj⟩ := ho
    exact ⟨by rw [hobj, if_pos rfl], .inl ⟨a, rfl, rfl⟩⟩

/-- The same for a method whose success is the first component of `s`. -/
private theorem on_est_step {w w' : World σ τ} {k : Nat} {e : Est σ} {α : Type} {m : Op (Est σ) α} {f : α → Value O}
    {rep : Reply O} (hk : w.object k = some (.est e))
    (ho : Outcome w k (onEst (some (.est e : Obj σ τ)) m f) (rep, w')) (hb : rep.cameBack) :
    w'.object k = some (.est (attempt m e).2) ∧ rep.succeeded = (attempt m e).1 := by
  unfold attempt
  rcases hm : m e with ⟨r, e'⟩
  obtain ⟨h1, h2⟩ := on_est hm hk ho hb
  rcases h2 with ⟨a, rfl, rfl⟩ | ⟨x, i, rfl, _, rfl⟩
  · exact ⟨h1, rfl⟩
  · exact ⟨h1, rfl⟩

/-- One request while an estimator lives. -/
theorem one_est {F : Featurizer σ ι τ O} {es : List (Request ι × Reply O)} {w w' : World σ τ}
    (h : History F es w) {l : Luck} (hl : l.Ok w) {r : Request ι} {rep : Reply O}
    (hs : serve F r l w = (rep, w')) (hb : rep.cameBack) (k : Nat) (e : Est σ) (hk : w.object k = some (.est e))
    (hd : r ≠ .call (.destroyEstimator k) true) :
    (stepOf k r = none ∧ w'.object k = some (.est e)) ∨
    (∃ s, stepOf k r = some s ∧ w'.object k = some (.est (s.run F.hooks e).2) ∧ rep.succeeded = (s.run F.hooks e).1) := by
  rcases kept h hl hs hb k _ hk (fun e he => by cases he) with ⟨c, rfl, hck, ho⟩ | ⟨hw', hno⟩
  · cases c with
    | createEstimator out => have h0 := h.object_zero; rw [show (0 : Nat) = k from hck, hk] at h0; cases h0
    | createWithDefault out => have h0 := h.object_zero; rw [show (0 : Nat) = k from hck, hk] at h0; cases h0
    | loadTransformer b out => have h0 := h.object_zero; rw [show (0 : Nat) = k from hck, hk] at h0; cases h0
    | destroyEstimator i => exact absurd (by rw [show i = k from hck]) hd
    | getState i out =>
      cases out
      · exact .inl ⟨rfl, refused hk ho⟩
      · exact .inl ⟨rfl, (on_est (m := fun e => (.ok e.state, e)) rfl hk ho hb).1⟩
    | isTrainingComplete i out =>
      cases out
      · exact .inl ⟨rfl, refused hk ho⟩
      · exact .inl ⟨rfl, (on_est (m := fun e => (.ok (decide (e.state ≠ .training)), e)) rfl hk ho hb).1⟩
    | fit i x out =>
      have hi : i = k := hck
      cases out
      · exact .inl ⟨rfl, refused hk ho⟩
      · refine .inr ⟨.batch [x], by simp [stepOf, hi], ?_⟩
        simp only [direct, if_true] at ho
        simp only [Step.run]
        exact on_est_step hk ho hb
    | fitBuffer i xs out =>
      have hi : i = k := hck
      rcases xs with _ | xs
      · exact .inl ⟨by cases out <;> rfl, refused hk ho⟩
      · simp only [direct] at ho
        by_cases hc : out = false ∨ xs = []
        · rw [if_pos hc] at ho
          refine .inl ⟨?_, refused hk ho⟩
          rcases hc with rfl | rfl
          · cases xs <;> rfl
          · cases out <;> rfl
        · rw [if_neg hc] at ho
          rcases xs with _ | ⟨x, xs⟩
          · exact absurd (.inr rfl) hc
          · cases out
            · exact absurd (.inl rfl) hc
            · refine .inr ⟨.batch (x :: xs), by simp [stepOf, hi], ?_⟩
              simp only [Step.run]
              exact on_est_step hk ho hb
    | onDataCompleted i =>
      refine .inr ⟨.dataCompleted, by simp [stepOf, show i = k from hck], ?_⟩
      simp only [Step.run]
      exact on_est_step hk ho hb
    | completeTraining i =>
      refine .inr ⟨.complete, by simp [stepOf, show i = k from hck], ?_⟩
      simp only [Step.run]
      exact on_est_step hk ho hb
    | createTransformer i out =>
      cases out
      · exact .inl ⟨rfl, refused hk ho⟩
      · refine .inr ⟨.transformer, by simp [stepOf, show i = k from hck], ?_⟩
        simp only [Step.run, attempt]
        simp only [direct, if_true] at ho
        rcases hc : Est.createTransformer F.hooks e with ⟨x | t, e'⟩
        · rw [hc] at ho
          by_cases he : x = .ub
          · subst he
            have : rep = .crashed := ho
            subst this
            exact absurd hb (by simp [Reply.cameBack])
          · have : ∃ i, rep = .returned false .nothing (some i) ∧ i ≠ 0 ∧ w.object i = none ∧
                ∀ j, w'.object j = if j = i then some (.message x) else if j = k then some (.est e') else w.object j := by
              cases x <;> first | exact ho | exact absurd rfl he
            obtain ⟨i, rfl, _, hi, hobj⟩ := this
            exact ⟨by rw [hobj, if_neg (fun hh => by rw [← hh, hk] at hi; cases hi), if_pos rfl], rfl⟩
        · rw [hc] at ho
          obtain ⟨j, rfl, _, hj, hobj⟩ := ho
          exact ⟨by rw [hobj, if_neg (fun hh => by rw [← hh, hk] at hj; cases hj), if_pos rfl], rfl⟩
    | destroyTransformer i => exact (not_crashed ho hb).elim
    | save i out =>
      cases out
      · exact .inl ⟨rfl, refused hk ho⟩
      · exact (not_crashed ho hb).elim
    | transform i x out =>
      cases out
      · exact .inl ⟨rfl, refused hk ho⟩
      · exact (not_crashed ho hb).elim
    | flush i out =>
      cases out
      · exact .inl ⟨rfl, refused hk ho⟩
      · exact (not_crashed ho hb).elim
  · refine .inl ⟨?_, hw'⟩
    cases r with
    | call c b =>
      cases b
      · cases c with
        | fitBuffer i xs out => rcases xs with _ | _ | _ <;> cases out <;> rfl
        | fit i x out => cases out <;> rfl
        | createTransformer i out => cases out <;> rfl
        | _ => rfl
      · have := hno c rfl
        cases c with
        | fit i x out => cases out <;> simp_all [stepOf, Call.handle]
        | fitBuffer i xs out => rcases xs with _ | _ | _ <;> cases out <;> simp_all [stepOf, Call.handle]
        | onDataCompleted i => simp_all [stepOf, Call.handle]
        | completeTraining i => simp_all [stepOf, Call.handle]
        | createTransformer i out => cases out <;> simp_all [stepOf, Call.handle]
        | _ => rfl
    | errorText _ _ => rfl
    | destroyError _ => rfl

theorem stepsAlone_append (H : Hooks σ ι τ) (e : Est σ) (as bs : List (Step ι)) :
    stepsAlone H e (as ++ bs)
      = ((stepsAlone H e as).1 ++ (stepsAlone H (stepsAlone H e as).2 bs).1, (stepsAlone H (stepsAlone H e as).2 bs).2) := by
  induction as generalizing e with
  | nil => rfl
  | cons a as ih => simp only [List.cons_append, stepsAlone, ih]

/-- **C104** While an estimator lives, the calls on its handle do what they do to an estimator that nobody else uses: whatever
is done with other handles in between. -/
theorem C104_estimator {F : Featurizer σ ι τ O} {es₀ es : List (Request ι × Reply O)} {w₀ w : World σ τ}
    (h₀ : History F es₀ w₀) (h : Session F w₀ es w) (k : Nat) (e : Est σ) (hk : w₀.object k = some (.est e))
    (hd : ∀ x ∈ es, x.1 ≠ .call (.destroyEstimator k) true) :
    successes k es = (stepsAlone F.hooks e (steps k es)).1 ∧
    w.object k = some (.est (stepsAlone F.hooks e (steps k es)).2) := by
  induction h with
  | start => exact ⟨rfl, hk⟩
  | @step es w₁ w' r rep l h hl hs hb ih =>
    obtain ⟨i1, i2⟩ := ih (fun e he => hd e (List.mem_append_left _ he))
    have hd' := hd (r, rep) (by simp)
    rcases one_est (h.history h₀) hl hs hb k _ i2 hd' with ⟨q, hw⟩ | ⟨a, q, hw, hr⟩
    · simp only [steps, successes, List.filterMap_append, List.filterMap_cons, List.filterMap_nil, q, Option.map_none,
        List.append_nil] at i1 i2 hw ⊢
      exact ⟨i1, hw⟩
    · simp only [steps, successes, List.filterMap_append, List.filterMap_cons, List.filterMap_nil, q, Option.map_some] at i1 i2 hw ⊢
      rw [stepsAlone_append]
      refine ⟨?_, hw⟩
      rw [i1]
      show _ ++ [rep.succeeded] = _
      rw [hr]
      rfl

/-! ### The whole life -/

private theorem fit_training (H : Hooks σ ι τ) (xs : Option (List ι)) (e : Est σ) (h : (attempt (Est.fit H xs) e).1 = true) :
    e.state = .training := by
  by_contra hn
  unfold attempt Est.fit at h
  rw [if_pos hn] at h
  cases h

private theorem attempt_true {α : Type} {m : Op (Est σ) α} {e : Est σ} (h : (attempt m e).1 = true) :
    ∃ a, m e = (.ok a, (attempt m e).2) := by
  rcases hm : m e with ⟨x | a, e'⟩
  · have : attempt m e = (false, e') := by simp only [attempt, hm]
    rw [this] at h
    cases h
  · have : attempt m e = (true, e') := by simp only [attempt, hm]
    rw [this]
    exact ⟨a, rfl⟩

private theorem offered (H : Hooks σ ι τ) (bs : List (List ι)) (e : Est σ)
    (h : ∀ b ∈ (stepsAlone H e (bs.map .batch)).1, b = true) :
    offer H bs e = (.ok (), (stepsAlone H e (bs.map .batch)).2) := by
  induction bs generalizing e with
  | nil => rfl
  | cons b bs ih =>
    simp only [List.map_cons, stepsAlone, Step.run, List.mem_cons, forall_eq_or_imp] at h
    obtain ⟨h1, h2⟩ := h
    obtain ⟨a, ha⟩ := attempt_true h1
    rw [offer, if_pos (fit_training H _ e h1), ha]
    exact ih _ h2

/-- All steps of a training in one pass succeeded: it is the standard training. -/
theorem trained_of_steps (H : Hooks σ ι τ) (bs : List (List ι)) (s : σ) (e : Est σ)
    (hb : Est.beginTraining H (Est.new s) = (.ok (), e))
    (h : ∀ b ∈ (stepsAlone H e (bs.map .batch ++ [.dataCompleted, .complete])).1, b = true) :
    trainOnce H bs (Est.new s) = (.ok (), (stepsAlone H e (bs.map .batch ++ [.dataCompleted, .complete])).2) := by
  rw [stepsAlone_append] at h ⊢
  have h1 := offered H bs e (fun b hb => h b (List.mem_append_left _ hb))
  have h2 := fun b hb => h b (List.mem_append_right _ hb)
  simp only [stepsAlone, Step.run, List.mem_cons, List.not_mem_nil, or_false, forall_eq_or_imp, forall_eq] at h2
  obtain ⟨h2, h3⟩ := h2
  obtain ⟨a, ha⟩ := attempt_true h2
  obtain ⟨b, hb'⟩ := attempt_true h3
  simp only [trainOnce, hb, h1, ha, hb']
  rfl

/-- **C104** The handle that `CreateEstimator` returns stands for a new estimator whose training has begun. -/
theorem C104_created {F : Featurizer σ ι τ O} {es₀ : List (Request ι × Reply O)} {w₀ w₁ : World σ τ} {l : Luck} {k : Nat}
    (h₀ : History F es₀ w₀) (hl : l.Ok w₀)
    (hc : serve F (.call (.createEstimator true) true) l w₀ = (.returned true (.handle k) none, w₁)) :
    ∃ s e, F.new = .ok s ∧ Est.beginTraining F.hooks (Est.new s) = (.ok (), e) ∧ w₁.object k = some (.est e) := by
  have ho := outcome h₀ hl (c := .createEstimator true) rfl hc trivial
  simp only [direct] at ho
  rcases hn : F.new with x | s
  · rw [hn] at ho
    by_cases he : x = .ub
    · subst he
      have h : (Reply.returned true (.handle k) none : Reply O) = .crashed := ho
      cases h
    · have : ∃ i, (Reply.returned true (.handle k) none : Reply O) = .returned false .nothing (some i) := by
        cases x <;> first | exact ⟨_, ho.choose_spec.1⟩ | exact absurd rfl he
      obtain ⟨i, hi⟩ := this
      cases hi
  · rw [hn] at ho
    simp only at ho
    rcases hb : Est.beginTraining F.hooks (Est.new s) with ⟨x | _, e⟩
    · rw [hb] at ho
      by_cases he : x = .ub
      · subst he
        have h : (Reply.returned true (.handle k) none : Reply O) = .crashed := ho
        cases h
      · have : ∃ i, (Reply.returned true (.handle k) none : Reply O) = .returned false .nothing (some i) := by
          cases x <;> first | exact ⟨_, ho.choose_spec.1⟩ | exact absurd rfl he
        obtain ⟨i, hi⟩ := this
        cases hi
    · rw [hb] at ho
      obtain ⟨i, hi, _, _, hobj⟩ := ho
      cases hi
      exact ⟨s, e, rfl, hb, by rw [hobj, if_pos rfl]⟩

/-- **C104** The handle that `CreateTransformerFromEstimator` returns stands for the transformer that the estimator makes. -/
theorem C104_made {F : Featurizer σ ι τ O} {es₀ : List (Request ι × Reply O)} {w₀ w₁ : World σ τ} {l : Luck} {h k : Nat} {e : Est σ}
    (h₀ : History F es₀ w₀) (hl : l.Ok w₀) (hk : w₀.object h = some (.est e))
    (hc : serve F (.call (.createTransformer h true) true) l w₀ = (.returned true (.handle k) none, w₁)) :
    ∃ t, (Est.createTransformer F.hooks e).1 = .ok t ∧ w₁.object k = some (.xf t) := by
  have ho := outcome h₀ hl (c := .createTransformer h true) rfl hc trivial
  rw [show (Call.createTransformer h true : Call ι).handle = h from rfl, hk] at ho
  simp only [direct, if_true] at ho
  rcases hm : Est.createTransformer F.hooks e with ⟨x | t, e'⟩
  · rw [hm] at ho
    by_cases he : x = .ub
    · subst he
      have h : (Reply.returned true (.handle k) none : Reply O) = .crashed := ho
      cases h
    · have : ∃ i, (Reply.returned true (.handle k) none : Reply O) = .returned false .nothing (some i) := by
        cases x <;> first | exact ⟨_, ho.choose_spec.1⟩ | exact absurd rfl he
      obtain ⟨i, hi⟩ := this
      cases hi
  · rw [hm] at ho
    obtain ⟨i, hi, _, _, hobj⟩ := ho
    cases hi
    exact ⟨t, rfl, by rw [hobj, if_pos rfl]⟩

/-- **C104** The whole life of a featurizer behind the C interface, while any number of others are used: an estimator is
created under handle `h` after any history; batches are fitted, the end of the data is reported and training completed through
`h`, all with success; a transformer is created under handle `k`.  Then the answers under `k` are those of the transformer that
the standard training on these batches gives in C++, used alone. -/
theorem C104_life {F : Featurizer σ ι τ O} {es₀ es₁ es₂ : List (Request ι × Reply O)} {w₀ w₁ w₂ w₃ w₄ : World σ τ} {l₁ l₂ : Luck}
    {h k : Nat} {bs : List (List ι)} (h₀ : History F es₀ w₀) (hl₁ : l₁.Ok w₀)
    (hc : serve F (.call (.createEstimator true) true) l₁ w₀ = (.returned true (.handle h) none, w₁))
    (s₁ : Session F w₁ es₁ w₂) (hd₁ : ∀ e ∈ es₁, e.1 ≠ .call (.destroyEstimator h) true)
    (hs : steps h es₁ = bs.map .batch ++ [.dataCompleted, .complete]) (hok : ∀ b ∈ successes h es₁, b = true)
    (hl₂ : l₂.Ok w₂) (ht : serve F (.call (.createTransformer h true) true) l₂ w₂ = (.returned true (.handle k) none, w₃))
    (s₂ : Session F w₃ es₂ w₄) (hd₂ : ∀ e ∈ es₂, e.1 ≠ .call (.destroyTransformer k) true) :
    ∃ s e t, F.new = .ok s ∧ trainOnce F.hooks bs (Est.new s) = (.ok (), e) ∧ (Est.createTransformer F.hooks e).1 = .ok t ∧
      answers k es₂ = (alone F.xf t (questions k es₂)).1 := by
  obtain ⟨s, e, hn, hb, ho⟩ := C104_created h₀ hl₁ hc
  have hist₁ := h₀.step hl₁ hc trivial
  obtain ⟨e1, e2⟩ := C104_estimator hist₁ s₁ h e ho hd₁
  rw [hs] at e1 e2
  rw [e1] at hok
  have htr := trained_of_steps F.hooks bs s e hb hok
  obtain ⟨t, t1, t2⟩ := C104_made (s₁.history hist₁) hl₂ e2 ht
  have hist₂ := (s₁.history hist₁).step hl₂ ht trivial
  exact ⟨s, _, t, hn, htr, t1, (C104_transformer hist₂ s₂ k t t2 hd₂).1⟩

/-! ### A series -/

/-- The items in the answers, one after the other. -/
def itemsOf (as : List (Option (List O))) : List O := (as.filterMap id).flatten

private theorem run_cons (X : Xf τ ι O) (t t' : τ) (x : ι) (xs : List ι) (outs : List O) (h : X.exec t x = ⟨outs, none, t'⟩) :
    X.runAll t (x :: xs) = ⟨outs ++ (X.runAll t' xs).outs, (X.runAll t' xs).err, (X.runAll t' xs).next⟩ := by
  unfold Xf.runAll
  rw [Xf.execAll, h]
  show (match (match X.execAll t' xs with | ⟨outs', e, t''⟩ => (⟨outs ++ outs', e, t''⟩ : Run τ O)) with
    | ⟨outs, some e, t'⟩ => (⟨outs, some e, t'⟩ : Run τ O)
    | ⟨outs, none, t'⟩ => match X.flush t' with | ⟨outs', e, t''⟩ => ⟨outs ++ outs', e, t''⟩) = _
  rcases X.execAll t' xs with ⟨o, e, t''⟩
  rcases e with _ | e
  · simp
  · simp

private theorem alone_series (X : Xf τ ι O) (t : τ) (xs : List ι)
    (h : ∀ a ∈ (alone X t (xs.map .row ++ [.flush])).1, a ≠ none) :
    ∃ t', X.runAll t xs = ⟨itemsOf (alone X t (xs.map .row ++ [.flush])).1, none, t'⟩ := by
  induction xs generalizing t with
  | nil =>
    simp only [List.map_nil, List.nil_append, alone, Ask.run, List.mem_cons, List.not_mem_nil, or_false, forall_eq] at h ⊢
    rcases hf : X.flush t with ⟨outs, err, t'⟩
    rw [hf] at h
    rcases err with _ | e
    · exact ⟨t', by simp [Xf.runAll, Xf.execAll, hf, itemsOf]⟩
    · exact absurd rfl h
  | cons x xs ih =>
    simp only [List.map_cons, List.cons_append, alone, Ask.run, List.mem_cons, forall_eq_or_imp] at h ⊢
    rcases hf : X.exec t x with ⟨outs, err, t'⟩
    rw [hf] at h
    rcases err with _ | e
    · obtain ⟨t'', ht⟩ := ih t' h.2
      refine ⟨t'', ?_⟩
      rw [run_cons X t t' x xs outs hf, ht]
      rfl
    · exact absurd rfl h.1

/-- **C104** A series given row by row and then flushed under one handle, all with success: the items returned are, one after
the other, the outputs of the transformer for this series. -/
theorem C104_series {F : Featurizer σ ι τ O} {es₀ es : List (Request ι × Reply O)} {w₀ w : World σ τ}
    (h₀ : History F es₀ w₀) (h : Session F w₀ es w) (k : Nat) (t : τ) (hk : w₀.object k = some (.xf t))
    (hd : ∀ e ∈ es, e.1 ≠ .call (.destroyTransformer k) true) (xs : List ι)
    (hq : questions k es = xs.map .row ++ [.flush]) (ha : ∀ a ∈ answers k es, a ≠ none) :
    ∃ t', F.xf.runAll t xs = ⟨itemsOf (answers k es), none, t'⟩ := by
  obtain ⟨a1, _⟩ := C104_transformer h₀ h k t hk hd
  rw [hq] at a1
  rw [a1] at ha ⊢
  exact alone_series F.xf t xs ha

private theorem gather_run (X : Xf τ ι O) (t : τ) (xs : List ι) (outs : List (List O)) (t' : τ)
    (h : (gathering X).runAll t xs = ⟨outs, none, t'⟩) : X.runAll t xs = ⟨outs.flatten, none, t'⟩ := by
  induction xs generalizing t outs with
  | nil =>
    simp only [Xf.runAll, Xf.execAll, gathering, List.nil_append, Run.mk.injEq] at h ⊢
    obtain ⟨rfl, h2, h3⟩ := h
    simp [h2, h3]
  | cons x xs ih =>
    rcases he : X.exec t x with ⟨o1, e1, t1⟩
    have hg : (gathering X).exec t x = ⟨[o1], e1, t1⟩ := by simp [gathering, he]
    rcases e1 with _ | e1
    · rw [run_cons _ _ _ _ _ _ hg] at h
      rw [run_cons _ _ _ _ _ _ he]
      rcases hr : (gathering X).runAll t1 xs with ⟨o2, e2, t2⟩
      rw [hr] at h
      simp only [Run.mk.injEq] at h
      obtain ⟨rfl, rfl, rfl⟩ := h
      rw [ih t1 o2 hr]
      rfl
    · have : ∃ o, (gathering X).runAll t (x :: xs) = ⟨o, some e1, t1⟩ := by
        unfold Xf.runAll
        rw [Xf.execAll, hg]
        exact ⟨_, rfl⟩
      obtain ⟨o, ho⟩ := this
      rw [ho] at h
      cases h

/-- **C104** Backward fill behind the C interface, while other handles are used: the arrays returned for the rows of a series
(with fewer than 2³²−1 nulls in a row) and for the flush hold, one after the other, for each row the next value that is not
null, or the default value. -/
theorem C104_backward_fill {A : Type} {F : Featurizer σ (Option A) (BackwardFill A) (List A)} (hF : F.xf = gathering backwardFillXf)
    {es₀ es : List (Request (Option A) × Reply (List A))} {w₀ w : World σ (BackwardFill A)}
    (h₀ : History F es₀ w₀) (h : Session F w₀ es w) (k : Nat) (default : Option A)
    (hk : w₀.object k = some (.xf (BackwardFill.new default)))
    (hd : ∀ e ∈ es, e.1 ≠ .call (.destroyTransformer k) true) (xs : List (Option A)) (hg : NoHugeGap xs)
    (hq : questions k es = xs.map .row ++ [.flush]) (ha : ∀ a ∈ answers k es, a ≠ none) :
    (itemsOf (answers k es)).flatten.length = xs.length ∧
    ∀ i v, (itemsOf (answers k es)).flatten[i]? = some v ↔ NextValue default xs i v := by
  obtain ⟨t', ht⟩ := C104_series h₀ h k _ hk hd xs hq ha
  rw [hF] at ht
  have hr := gather_run _ _ _ _ _ ht
  obtain ⟨outs, t, _, _, h1, h2, h3⟩ := C33_backward_fill_partial default xs hg
  by_cases hc : default = none ∧ xs.getLast? = some none
  · rw [h1 hc] at hr
    cases hr
  · obtain ⟨h4, h5⟩ := h2 hc
    rw [h4] at hr
    injection hr with p1 _ _
    rw [← p1]
    exact ⟨h5, h3⟩

/-! ### A concrete case -/

/-- The requests are served with the lucks `luck k`, `luck (k + 1)`, … and control comes back each time. -/
def smooth (F : Featurizer σ ι τ O) : Nat → List (Request ι) → World σ τ → Bool
  | _, [], _ => true
  | k, r :: rs, w =>
    (w.heap.find? (100 + 2 * k)).isNone && (w.heap.find? (101 + 2 * k)).isNone && decide (k < 1000) &&
      (match (serve F r (luck k) w).1 with | .returned _ _ _ => true | _ => false) &&
      smooth F (k + 1) rs (serve F r (luck k) w).2

theorem luck_ok {w : World σ τ} {k : Nat} (h1 : (w.heap.find? (100 + 2 * k)).isNone = true)
    (h2 : (w.heap.find? (101 + 2 * k)).isNone = true) (hk : k < 1000) : (luck k).Ok w where
  addr0 := by simp [luck]
  addrFree := Option.isNone_iff_eq_none.1 h1
  err0 := by simp [luck]
  errFree := Option.isNone_iff_eq_none.1 h2
  distinct := by simp [luck]
  draws := by
    intro d hd
    simp [luck] at hd
    have : (2 : Nat) ^ 64 = 18446744073709551616 := by decide
    omega
  errDraws := by
    intro d hd
    simp [luck] at hd
    have : (2 : Nat) ^ 64 = 18446744073709551616 := by decide
    omega

theorem session_append {F : Featurizer σ ι τ O} {w₀ w₁ w₂ : World σ τ} {es es' : List (Request ι × Reply O)}
    (h : Session F w₀ es w₁) (h' : Session F w₁ es' w₂) : Session F w₀ (es ++ es') w₂ := by
  induction h' with
  | start => simpa using h
  | step _ hl hs hb ih => rw [← List.append_assoc]; exact ih.step hl hs hb

theorem session_of {F : Featurizer σ ι τ O} (rs : List (Request ι)) (k : Nat) (w : World σ τ)
    (h : smooth F k rs w = true) : Session F w (rs.zip (serveAll F k rs w).1) (serveAll F k rs w).2 := by
  induction rs generalizing k w with
  | nil => exact .start
  | cons r rs ih =>
    simp only [smooth, Bool.and_eq_true, decide_eq_true_eq] at h
    obtain ⟨⟨⟨⟨h1, h2⟩, h3⟩, h4⟩, h5⟩ := h
    have hb : (serve F r (luck k) w).1.cameBack := by
      generalize (serve F r (luck k) w).1 = rep at h4
      cases rep <;> trivial
    have one : Session F w [(r, (serve F r (luck k) w).1)] (serve F r (luck k) w).2 :=
      Session.step (l := luck k) (es := []) .start (luck_ok h1 h2 h3) rfl hb
    exact session_append one (ih _ _ h5)

/-- Two estimators are trained in turns through the handles 7 and 9. -/
private def training : List (Request Nat) :=
  [.call (.createEstimator true) true, .call (.fit 7 3 true) true, .call (.fit 9 100 true) true,
   .call (.fitBuffer 7 (some [4, 5]) true) true, .call (.onDataCompleted 7) true, .call (.fit 9 13 true) true,
   .call (.completeTraining 9) true, .call (.completeTraining 7) true]

/-- Their transformers are used in turns through the handles 25 and 27. -/
private def usage : List (Request Nat) :=
  [.call (.createTransformer 9 true) true, .call (.transform 25 1 true) true, .call (.transform 27 1 true) true,
   .call (.destroyTransformer 27) true, .call (.transform 25 2 true) true]

private def started : World Nat Nat := created
private def trainedWorld : World Nat Nat := (serveAll summer 1 training started).2
private def madeWorld : World Nat Nat := (serve summer (.call (.createTransformer 7 true) true) (luck 9) trainedWorld).2

private def trainingReplies : List (Request Nat × Reply Nat) := training.zip (serveAll summer 1 training started).1
private def usingReplies : List (Request Nat × Reply Nat) := usage.zip (serveAll summer 10 usage madeWorld).1

/-- The hypotheses of `C104_life` are met: the batches of handle 7 are [3] and [4, 5], and its transformer adds 12. -/
example : Session summer started trainingReplies trainedWorld ∧
    steps 7 trainingReplies = [[3], [4, 5]].map .batch ++ [.dataCompleted, .complete] ∧
    successes 7 trainingReplies = [true, true, true, true] ∧
    (luck 9).Ok trainedWorld ∧
    serve summer (.call (.createTransformer 7 true) true) (luck 9) trainedWorld = (.returned true (.handle 25) none, madeWorld) ∧
    Session summer madeWorld usingReplies (serveAll summer 10 usage madeWorld).2 ∧
    questions 25 usingReplies = [.row 1, .row 2] ∧ answers 25 usingReplies = [some [13], some [14]] :=
  ⟨session_of _ _ _ rfl, rfl, rfl, luck_ok rfl rfl (by omega), rfl, session_of _ _ _ rfl, rfl, rfl⟩

/-- Backward fill behind the interface. -/
private def filler : Featurizer Unit (Option Nat) (BackwardFill Nat) (List Nat) where
  new := .ok ()
  hooks :=
    { begin := fun s => (.ok false, s)
      fit := fun _ s => (.error .runtimeError, s)
      onDataCompleted := fun s => (.ok true, s)
      complete := fun s => (.ok (), s)
      create := fun s => (.ok (some (BackwardFill.new none)), s) }
  xf := gathering backwardFillXf
  load _ := .error .runtimeError
  save _ := .error .runtimeError

private def fillerStart : List (Request (Option Nat)) :=
  [.call (.createEstimator true) true, .call (.createEstimator true) true, .call (.completeTraining 7) true,
   .call (.completeTraining 9) true, .call (.createTransformer 7 true) true, .call (.createTransformer 9 true) true]

private def filling : List (Request (Option Nat)) :=
  [.call (.transform 15 none true) true, .call (.transform 17 (some 8) true) true, .call (.transform 15 none true) true,
   .call (.transform 15 (some 5) true) true, .call (.transform 17 none true) true, .call (.transform 15 (some 6) true) true,
   .call (.flush 15 true) true, .call (.flush 17 true) true]

private def fillerWorld : World Unit (BackwardFill Nat) := (serveAll filler 0 fillerStart World.start).2
private def fillingReplies : List (Request (Option Nat) × Reply (List Nat)) :=
  filling.zip (serveAll filler 6 filling fillerWorld).1

theorem history_of {F : Featurizer σ ι τ O} {es : List (Request ι × Reply O)} {w : World σ τ}
    (h : Session F World.start es w) : History F es w := by
  simpa using h.history .start

/-- The hypotheses of `C104_backward_fill` are met, with two transformers in use; the flush of the other fails. -/
example : History filler (fillerStart.zip (serveAll filler 0 fillerStart World.start).1) fillerWorld ∧
    fillerWorld.object 15 = some (.xf (BackwardFill.new none)) ∧ fillerWorld.object 17 = some (.xf (BackwardFill.new none)) ∧
    Session filler fillerWorld fillingReplies (serveAll filler 6 filling fillerWorld).2 ∧
    questions 15 fillingReplies = [none, none, some 5, some 6].map .row ++ [.flush] ∧
    answers 15 fillingReplies = [some [[]], some [[]], some [[5, 5, 5]], some [[6]], some [[]]] ∧
    answers 17 fillingReplies = [some [[8]], some [[]], none] ∧
    NoHugeGap [none, none, some 5, some 6] :=
  ⟨history_of (session_of _ _ _ (by decide +kernel)), by rfl, by rfl, session_of _ _ _ (by decide +kernel), rfl,
    by decide +kernel, by decide +kernel, noHugeGap_of_length _ (by decide)⟩

end Feat.CApi
