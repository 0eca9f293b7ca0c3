import Verif.Spec.PipelineTraining
import Verif.Spec.Training
/-
C13 pipeline training.
-/
namespace Feat
variable {G V T : Type}

/-! ### Helper lemmas -/

private def ofEst (s : Stage G V T) (e : Est G) : Elem G V T :=
  { toStage := s, state := e.state, created := e.created }

private theorem call_ofEst {α : Type} (s : Stage G V T) (e : Est G) (op : Op (Est G) α) :
    (ofEst s e).call op e.inner = ((op e).1, ofEst s (op e).2, (op e).2.inner) := rfl

private theorem create_ofEst (s : Stage G V T) (e : Est G) (hc : e.created = false) :
    (ofEst s e).createIfNecessary e.inner = match stageTransformer s e with
      | (.error x, e') => (.error x, ofEst s e', e'.inner)
      | (.ok t, e') => (.ok (), { ofEst s e' with xf := t }, e'.inner) := by
  unfold Elem.createIfNecessary stageTransformer
  cases hx : s.isTransformer
  · simp [ofEst, hx]
  · simp only [ofEst, hx, Bool.true_eq_false, if_false, hc, Bool.false_eq_true, if_true]
    have := call_ofEst s e (Est.createTransformer s.hooks)
    simp only [ofEst, hc] at this
    simp only [this]
    rcases Est.createTransformer s.hooks e with ⟨_ | t, e'⟩ <;> rfl

private theorem created_begin (h : Hooks G V T) (e : Est G) :
    (Est.beginTraining h e).2.created = e.created := by
  unfold Est.beginTraining
  split
  · rfl
  · split <;> rfl

private theorem created_fit (h : Hooks G V T) (p : Option (List V)) (e : Est G) :
    (Est.fit h p e).2.created = e.created := by
  unfold Est.fit
  split
  · rfl
  · split
    · rfl
    · split
      · rfl
      · split <;> rfl

private theorem created_data (h : Hooks G V T) (e : Est G) :
    (Est.onDataCompleted h e).2.created = e.created := by
  unfold Est.onDataCompleted
  split
  · rfl
  · split
    · split <;> rfl
    · rfl

private theorem created_complete (h : Hooks G V T) (e : Est G) :
    (Est.completeTraining h e).2.created = e.created := by
  unfold Est.completeTraining
  split
  · rfl
  · split <;> rfl

private theorem state_stageTransformer (s : Stage G V T) (e : Est G) :
    (stageTransformer s e).2.state = e.state := by
  unfold stageTransformer Est.createTransformer
  split
  · split
    · rename_i h
      split at h
      · cases h; rfl
      · split at h
        · cases h; rfl
        · split at h <;> cases h <;> rfl
    · rename_i h
      split at h
      · cases h
      · split at h
        · cases h
        · split at h <;> cases h <;> rfl
  · rfl

private theorem stageTransformer_isSome (s : Stage G V T) (e e' : Est G) (t : Option T)
    (h : stageTransformer s e = (.ok t, e')) : t.isSome = s.isTransformer := by
  unfold stageTransformer at h
  split at h
  · rename_i hx
    split at h
    · cases h
    · cases h; simp [hx]
  · rename_i hx
    cases h; simp at hx; simp [hx]

private theorem stageTransformer_quiet (X : Xf T V V) (s : Stage G V T)
    (hq : ∀ g t g', s.hooks.create g = (.ok (some t), g') → Stateless X t) (e e' : Est G) (t : Option T)
    (h : stageTransformer s e = (.ok t, e')) : ∀ u, t = some u → Stateless X u := by
  unfold stageTransformer Est.createTransformer at h
  intro u hu
  subst hu
  split at h
  · split at h
    · cases h
    · rename_i h2
      cases h
      split at h2
      · cases h2
      · split at h2
        · cases h2
        · split at h2
          all_goals first
            | (cases h2; done)
            | (rename_i h3; cases h2; exact hq _ _ _ h3)
  · cases h

private theorem StatelessButLast.tail {X : Xf T V V} {s s' : Stage G V T} {ss : List (Stage G V T)}
    (h : StatelessButLast X (s :: s' :: ss)) : StatelessButLast X (s' :: ss) :=
  fun x hx => h x (by rw [List.dropLast_cons_of_ne_nil (by simp)]; exact List.mem_cons_of_mem _ hx)

private theorem StatelessButLast.head {X : Xf T V V} {s s' : Stage G V T} {ss : List (Stage G V T)}
    (h : StatelessButLast X (s :: s' :: ss)) :
    ∀ g t g', s.hooks.create g = (.ok (some t), g') → Stateless X t :=
  h s (by rw [List.dropLast_cons_of_ne_nil (by simp)]; simp)

private theorem begin_state (h : Hooks G V T) (g : G) (e : Est G)
    (hb : Est.beginTraining h (Est.new g) = (.ok (), e)) :
    (e.state = .training ∨ e.state = .finished) ∧ e.created = false := by
  unfold Est.beginTraining at hb
  simp only [Est.new, ne_eq, not_true_eq_false, if_false] at hb
  split at hb <;> cases hb <;> simp

/-- A completed stage with its transformer. -/
private def IsDone (X : Xf T V V) (e : Elem G V T) : Prop :=
  e.state = .completed ∧ e.xf.isSome = e.isTransformer ∧ ∀ t, e.xf = some t → Stateless X t

private theorem hasAll_append (done tail : List (Elem G V T)) (ht : tail ≠ []) :
    Pipeline.hasAllFinished (done ++ tail) = Pipeline.hasAllFinished tail := by
  induction done with
  | nil => rfl
  | cons d ds ih =>
    cases hc : ds ++ tail with
    | nil => simp at hc; exact absurd hc.2 ht
    | cons x xs =>
      rw [List.cons_append, hc, Pipeline.hasAllFinished, ← hc, ih]

private theorem execAll_state (X : Xf T V V) (t : T) (hX : Stateless X t) (xs : List V) :
    (X.execAll t xs).next = t := by
  induction xs with
  | nil => rfl
  | cons x xs ih =>
    rw [Xf.execAll]
    have h1 := hX.1 x
    rcases hx : X.exec t x with ⟨o, _ | e, t'⟩
    · rw [hx] at h1
      simp only at h1 ⊢
      rw [h1, ih]
    · rw [hx] at h1
      exact h1

private theorem execAll_nil_ok (X : Xf T V V) (ts : List (Option T)) : via X ts [] = .ok [] := by
  induction ts with
  | nil => rfl
  | cons t ts ih => cases t <;> simp [via, viaOne, Xf.execAll, ih]

/-- `fit` passes through the completed stages. -/
private theorem fit_done (X : Xf T V V) (done tail : List (Elem G V T))
    (hd : ∀ e ∈ done, IsDone X e) (ht : tail ≠ []) (items : List V) (hi : items ≠ []) (g : G) :
    Pipeline.fit X (done ++ tail) items g =
      match via X (done.map (·.xf)) items with
      | .error x => (.error x, done ++ tail, g)
      | .ok [] => (.ok .continue, done ++ tail, g)
      | .ok (v :: vs) =>
        match Pipeline.fit X tail (v :: vs) g with
        | (r, tail', g') => (r, done ++ tail', g') := by
  induction done generalizing items with
  | nil =>
    cases items with
    | nil => exact absurd rfl hi
    | cons v vs =>
      simp only [List.map_nil, via, List.nil_append]
  | cons d ds ih =>
    have hdd : IsDone X d := hd d (by simp)
    have hds : ∀ e ∈ ds, IsDone X e := fun e he => hd e (by simp [he])
    cases hc : ds ++ tail with
    | nil => simp at hc; exact absurd hc.2 ht
    | cons n es =>
      rw [List.cons_append, hc, Pipeline.fit]
      obtain ⟨⟨hk, isT⟩, st, cr, xf⟩ := d
      simp only [IsDone] at hdd
      obtain ⟨rfl, hx, hX⟩ := hdd
      rw [if_neg (by simp)]
      cases xf with
      | none =>
        simp only [Option.isSome_none] at hx
        subst hx
        simp only [Bool.false_eq_true, if_false, List.map_cons, via, viaOne]
        rw [← hc, ih hds items hi]
        rcases hv : via X (ds.map (·.xf)) items with _ | _ | ⟨v, vs⟩ <;> simp [hv]
      | some t =>
        simp only [Option.isSome_some] at hx
        subst hx
        simp only [if_true, List.map_cons, via, viaOne]
        have hst := execAll_state X t (hX t rfl) items
        rcases hE : X.execAll t items with ⟨outs, _ | e, t'⟩
        · rw [hE] at hst
          simp only at hst ⊢
          subst hst
          cases outs with
          | nil => simp [execAll_nil_ok]
          | cons o os =>
            rw [← hc, ih hds (o :: os) (by simp)]
            rcases hv : via X (ds.map (·.xf)) (o :: os) with _ | _ | ⟨v, vs⟩ <;> simp [hv]
        · rw [hE] at hst
          simp only at hst ⊢
          subst hst
          simp

/-- `on_data_completed` passes through the completed stages. -/
private theorem data_done (X : Xf T V V) (done tail : List (Elem G V T))
    (hd : ∀ e ∈ done, IsDone X e) (ht : tail ≠ []) (k : Nat) (g : G) :
    Pipeline.dataCompletedN X (done.length + k) (done ++ tail) g =
      match Pipeline.dataCompletedN X k tail g with
      | (r, tail', g') => (r, done ++ tail', g') := by
  induction done with
  | nil => simp
  | cons d ds ih =>
    have hdd : IsDone X d := hd d (by simp)
    have hds : ∀ e ∈ ds, IsDone X e := fun e he => hd e (by simp [he])
    have ih' := ih hds
    cases hc : ds ++ tail with
    | nil => simp at hc; exact absurd hc.2 ht
    | cons n es =>
      have hl : (d :: ds).length + k = (ds.length + k) + 1 := by simp only [List.length_cons]; omega
      rw [List.cons_append, hc, hl, Pipeline.dataCompletedN]
      obtain ⟨⟨hk, isT⟩, st, cr, xf⟩ := d
      simp only [IsDone] at hdd
      obtain ⟨rfl, hx, hX⟩ := hdd
      rw [if_neg (by simp)]
      cases xf with
      | none =>
        simp only [Option.isSome_none] at hx
        subst hx
        simp only [Bool.false_eq_true, if_false]
        rw [← hc, ih']
        rfl
      | some t =>
        simp only [Option.isSome_some] at hx
        subst hx
        simp only [if_true, (hX t rfl).2, List.isEmpty_nil]
        rw [← hc, ih']
        rfl

/-- `complete_training` passes through the completed stages. -/
private theorem complete_done (X : Xf T V V) (done tail : List (Elem G V T))
    (hd : ∀ e ∈ done, IsDone X e) (ht : tail ≠ []) (k : Nat) (g : G) :
    Pipeline.completeN (done.length + k) (done ++ tail) g =
      match Pipeline.completeN k tail g with
      | (r, tail', g') => (r, done ++ tail', g') := by
  induction done with
  | nil => simp
  | cons d ds ih =>
    have hdd : IsDone X d := hd d (by simp)
    have hds : ∀ e ∈ ds, IsDone X e := fun e he => hd e (by simp [he])
    have ih' := ih hds
    cases hc : ds ++ tail with
    | nil => simp at hc; exact absurd hc.2 ht
    | cons n es =>
      have hl : (d :: ds).length + k = (ds.length + k) + 1 := by simp only [List.length_cons]; omega
      rw [List.cons_append, hc, hl, Pipeline.completeN, if_neg (by simp [hdd.1])]
      rw [← hc, ih']
      rfl

/-- What is left to do for a stage that has begun, and for the stages after it. -/
private def remainder (X : Xf T V V) (batches : List (List V)) (ts : List (Option T))
    (s : Stage G V T) (bs : List (List V)) (ss : List (Stage G V T)) (e : Est G) :
    Except Err (List (Option T)) × G :=
  match (Op.andThen (offerVia X ts s.hooks bs) <|
    Op.andThen (Est.onDataCompleted s.hooks) <|
    Op.andThen (Est.completeTraining s.hooks) (stageTransformer s)) e with
  | (.error x, e) => (.error x, e.inner)
  | (.ok t, e) => sequential X batches (ts ++ [t]) ss e.inner

private theorem sequential_cons (X : Xf T V V) (batches : List (List V)) (ts : List (Option T))
    (s : Stage G V T) (ss : List (Stage G V T)) (g : G) :
    sequential X batches ts (s :: ss) g =
      match Est.beginTraining s.hooks (Est.new g) with
      | (.error x, e) => (.error x, e.inner)
      | (.ok (), e) => remainder X batches ts s batches ss e := by
  rw [sequential, trainStage]
  unfold remainder
  conv => lhs; rw [Op.andThen]
  rcases Est.beginTraining s.hooks (Est.new g) with ⟨_ | u, e⟩ <;> rfl

/-- What is left when the stage has finished. -/
private def finishing (X : Xf T V V) (batches : List (List V)) (ts : List (Option T))
    (s : Stage G V T) (ss : List (Stage G V T)) (e : Est G) :
    Except Err (List (Option T)) × G :=
  match Op.andThen (Est.completeTraining s.hooks) (stageTransformer s) e with
  | (.error x, e) => (.error x, e.inner)
  | (.ok t, e) => sequential X batches (ts ++ [t]) ss e.inner

private theorem remainder_finished (X : Xf T V V) (batches : List (List V)) (ts : List (Option T))
    (s : Stage G V T) (bs : List (List V)) (ss : List (Stage G V T)) (e : Est G)
    (he : e.state = .finished) :
    remainder X batches ts s bs ss e = finishing X batches ts s ss e := by
  have h1 : offerVia X ts s.hooks bs e = (.ok (), e) := by
    cases bs <;> simp [offerVia, he]
  have h2 : Est.onDataCompleted s.hooks e = (.ok (), e) := by simp [Est.onDataCompleted, he]
  unfold remainder finishing
  rw [Op.andThen, h1]
  simp only
  rw [Op.andThen, h2]

private theorem remainder_nil (X : Xf T V V) (batches : List (List V)) (ts : List (Option T))
    (s : Stage G V T) (ss : List (Stage G V T)) (e : Est G) :
    remainder X batches ts s [] ss e = match Est.onDataCompleted s.hooks e with
      | (.error x, e) => (.error x, e.inner)
      | (.ok (), e) => finishing X batches ts s ss e := by
  unfold remainder finishing
  conv => lhs; rw [Op.andThen, offerVia]
  simp only
  conv => lhs; rw [Op.andThen]
  rcases Est.onDataCompleted s.hooks e with ⟨_ | u, e⟩ <;> rfl

private theorem remainder_cons (X : Xf T V V) (batches : List (List V)) (ts : List (Option T))
    (s : Stage G V T) (b : List V) (bs : List (List V)) (ss : List (Stage G V T)) (e : Est G)
    (he : e.state = .training) :
    remainder X batches ts s (b :: bs) ss e = match via X ts b with
      | .error x => (.error x, e.inner)
      | .ok [] => remainder X batches ts s bs ss e
      | .ok (v :: vs) =>
        match Est.fit s.hooks (some (v :: vs)) e with
        | (.error x, e) => (.error x, e.inner)
        | (.ok _, e) => remainder X batches ts s bs ss e := by
  unfold remainder
  conv => lhs; rw [Op.andThen, offerVia, if_pos he]
  rcases via X ts b with _ | _ | ⟨v, vs⟩
  · rfl
  · rfl
  · simp only
    rcases Est.fit s.hooks (some (v :: vs)) e with ⟨_ | u, e⟩ <;> rfl

/-- Where the pipeline stands between two calls: some stages done, one under way, the others untouched. -/
private structure At (X : Xf T V V) (batches : List (List V)) (ts : List (Option T))
    (es : List (Elem G V T)) (g : G) (r : Except Err (List (Option T)) × G) (n : Nat) where
  done : List (Elem G V T)
  s : Stage G V T
  e : Est G
  ss : List (Stage G V T)
  hes : es = done ++ ofEst s e :: ss.map Elem.new
  hg : g = e.inner
  hdone : ∀ d ∈ done, IsDone X d
  hcr : e.created = false
  hst : e.state = .training ∨ (e.state = .finished ∧ ss = [])
  hr : r = remainder X batches (ts ++ done.map (·.xf)) s batches ss e
  hone : ∀ s' ∈ s :: ss, OnePass s'.hooks
  hquiet : StatelessButLast X (s :: ss)
  hlen : ss.length < n

private theorem complete_state (h : Hooks G V T) (e e' : Est G)
    (hc : Est.completeTraining h e = (.ok (), e')) : e'.state = .completed := by
  unfold Est.completeTraining at hc
  split at hc
  · cases hc
  · split at hc <;> cases hc; rfl

/-- Finishing one stage and beginning the next: `complete_chained_estimator`, given what beginning the next
one does. -/
private theorem chained_of_begin (X : Xf T V V) (batches : List (List V)) (ts : List (Option T))
    (s : Stage G V T) (e : Est G) (ss : List (Stage G V T)) (hcr : e.created = false)
    (hq : ∀ g t g', s.hooks.create g = (.ok (some t), g') → Stateless X t)
    (hbegin : ∀ (ts : List (Option T)) (g : G),
      (∃ x es' g', Pipeline.begin (ss.map Elem.new) g = (.error x, es', g') ∧
        sequential X batches ts ss g = (.error x, g')) ∨
      ∃ b es' g', Pipeline.begin (ss.map Elem.new) g = (.ok b, es', g') ∧ es' ≠ [] ∧
        b = !Pipeline.hasAllFinished es' ∧
        Nonempty (At X batches ts es' g' (sequential X batches ts ss g) ss.length)) :
    (∃ x es' g', Pipeline.completeChained (ofEst s e) (ss.map Elem.new) e.inner
        (Pipeline.begin (ss.map Elem.new)) = (.error x, es', g') ∧
        finishing X batches ts s ss e = (.error x, g')) ∨
      ∃ d es' g', Pipeline.completeChained (ofEst s e) (ss.map Elem.new) e.inner
        (Pipeline.begin (ss.map Elem.new)) = (.ok (), d :: es', g') ∧ es' ≠ [] ∧ IsDone X d ∧
        Nonempty (At X batches (ts ++ [d.xf]) es' g' (finishing X batches ts s ss e) ss.length) := by
  unfold Pipeline.completeChained finishing
  rw [Op.andThen]
  rw [show (ofEst s e).hooks = s.hooks from rfl, call_ofEst]
  have hcc := created_complete s.hooks e
  rcases hC : Est.completeTraining s.hooks e with ⟨x | u, e1⟩
  · left
    exact ⟨x, _, _, rfl, rfl⟩
  · cases u
    rw [hC] at hcc
    simp only at hcc ⊢
    have hst := complete_state _ _ _ hC
    rw [create_ofEst s e1 (by rw [hcc, hcr])]
    have hss := state_stageTransformer s e1
    rcases hT : stageTransformer s e1 with ⟨x | t, e2⟩
    · left
      exact ⟨x, _, _, rfl, rfl⟩
    · simp only
      rw [hT] at hss
      have hsome := stageTransformer_isSome s e1 e2 t hT
      rcases hbegin (ts ++ [t]) e2.inner with ⟨x, es', g', h1, h2⟩ | ⟨b, es', g', h1, h2, _, h4⟩
      · left
        rw [h1, h2]
        exact ⟨x, _, _, rfl, rfl⟩
      · right
        rw [h1]
        refine ⟨{ ofEst s e2 with xf := t }, es', g', rfl, h2, ⟨?_, hsome, stageTransformer_quiet X s hq e1 e2 t hT⟩, h4⟩
        simp only [ofEst]
        rw [hss, hst]

private theorem hasAll_at {X : Xf T V V} {batches : List (List V)} {ts : List (Option T)}
    {es : List (Elem G V T)} {g : G} {r : Except Err (List (Option T)) × G} {n : Nat}
    (a : At X batches ts es g r n) :
    Pipeline.hasAllFinished es = (a.e.state == .finished) := by
  obtain ⟨done, s, e, ss, rfl, rfl, hdone, hcr, hst, rfl, hone, hquiet, hlen⟩ := a
  simp only
  rw [hasAll_append _ _ (by simp)]
  rcases hst with h | ⟨h, h'⟩
  · cases ss with
    | nil => simp [Pipeline.hasAllFinished, ofEst]
    | cons s ss =>
      rw [h]
      have : ∀ (e : Elem G V T) (ss : List (Stage G V T)) (s : Stage G V T),
          Pipeline.hasAllFinished (e :: Elem.new s :: ss.map Elem.new) = false := by
        intro e ss
        induction ss generalizing e with
        | nil => intro s; rfl
        | cons s' ss ih => intro s; exact ih (Elem.new s) s'
      rw [List.map_cons, this]
      rfl
  · subst h'
    rfl

private theorem At.prepend {X : Xf T V V} {batches : List (List V)} {ts : List (Option T)}
    {es : List (Elem G V T)} {g : G} {r : Except Err (List (Option T)) × G} {n m : Nat}
    (d : Elem G V T) (hd : IsDone X d) (a : At X batches (ts ++ [d.xf]) es g r n) (hm : n ≤ m) :
    Nonempty (At X batches ts (d :: es) g r m) := by
  obtain ⟨done, s, e, ss, rfl, rfl, hdone, hcr, hst, rfl, hone, hquiet, hlen⟩ := a
  refine ⟨⟨d :: done, s, e, ss, rfl, rfl, ?_, hcr, hst, by simp, hone, hquiet, by omega⟩⟩
  intro x hx
  rcases List.mem_cons.1 hx with rfl | hx
  · exact hd
  · exact hdone x hx

/-- Beginning a chain of untouched stages. -/
private theorem begin_at (X : Xf T V V) (batches : List (List V)) (ss : List (Stage G V T))
    (hne : ss ≠ []) (hone : ∀ s ∈ ss, OnePass s.hooks) (hquiet : StatelessButLast X ss) :
    ∀ (ts : List (Option T)) (g : G),
      (∃ x es' g', Pipeline.begin (ss.map Elem.new) g = (.error x, es', g') ∧
        sequential X batches ts ss g = (.error x, g')) ∨
      ∃ b es' g', Pipeline.begin (ss.map Elem.new) g = (.ok b, es', g') ∧ es' ≠ [] ∧
        b = !Pipeline.hasAllFinished es' ∧
        Nonempty (At X batches ts es' g' (sequential X batches ts ss g) ss.length) := by
  induction ss with
  | nil => exact absurd rfl hne
  | cons s ss ih =>
    intro ts g
    rw [sequential_cons]
    have hcall : (Elem.new s).call (Est.beginTraining s.hooks) g
        = ((Est.beginTraining s.hooks (Est.new g)).1, ofEst s (Est.beginTraining s.hooks (Est.new g)).2,
          (Est.beginTraining s.hooks (Est.new g)).2.inner) := rfl
    cases ss with
    | nil =>
      simp only [List.map_cons, List.map_nil]
      rw [Pipeline.begin, show (Elem.new s).hooks = s.hooks from rfl, hcall]
      rcases hB : Est.beginTraining s.hooks (Est.new g) with ⟨x | u, e⟩
      · left
        exact ⟨x, _, _, rfl, rfl⟩
      · cases u
        right
        obtain ⟨hst, hcr⟩ := begin_state _ _ _ hB
        refine ⟨_, _, _, rfl, by simp, ?_, ⟨⟨[], s, e, [], rfl, rfl, by simp, hcr, ?_, ?_, ?_, hquiet, by simp⟩⟩⟩
        · rcases hst with h | h <;> simp [ofEst, Pipeline.hasAllFinished, h]
        · rcases hst with h | h <;> simp [h]
        · simp
        · simpa using hone
    | cons s' ss =>
      have hone' : ∀ s ∈ s' :: ss, OnePass s.hooks := fun x hx => hone x (by simp [hx])
      have hbegin := ih (by simp) hone' hquiet.tail
      simp only [List.map_cons]
      rw [Pipeline.begin, if_pos (show (Elem.new s).state = .pending from rfl), show (Elem.new s).hooks = s.hooks from rfl, hcall]
      rcases hB : Est.beginTraining s.hooks (Est.new g) with ⟨x | u, e⟩
      · left
        exact ⟨x, _, _, rfl, rfl⟩
      · cases u
        obtain ⟨hst, hcr⟩ := begin_state _ _ _ hB
        simp only
        rcases hst with hst | hst
        · right
          rw [if_neg (by simp [ofEst, hst])]
          refine ⟨_, _, _, rfl, by simp, rfl, ⟨⟨[], s, e, s' :: ss, rfl, rfl, by simp, hcr, .inl hst,
            by simp, hone, hquiet, by simp⟩⟩⟩
        · rw [if_pos (by simp [ofEst, hst]), remainder_finished _ _ _ _ _ _ _ hst]
          have hch := chained_of_begin X batches ts s e (s' :: ss) hcr hquiet.head hbegin
          simp only [List.map_cons] at hch
          rcases hch with ⟨x, es', g', h1, h2⟩ | ⟨d, es', g', h1, h2, h3, ⟨h4⟩⟩
          · left
            rw [h1]
            exact ⟨x, _, _, rfl, h2⟩
          · right
            rw [h1]
            exact ⟨_, _, _, rfl, by simp, rfl, h4.prepend d h3 (by simp)⟩

/-- The result of completing the pipeline and creating its transformer after the loop. -/
private def finalOf (X : Xf T V V) :
    Except Err Unit × Est (List (Elem G V T) × G) → Except Err (List (Option T)) × G
  | (.error x, E) => (.error x, E.inner.2)
  | (.ok (), E) =>
    match Est.completeTraining (Pipeline.hooks X) E with
    | (.error x, E) => (.error x, E.inner.2)
    | (.ok (), E) =>
      match Est.createTransformer (Pipeline.hooks X) E with
      | (r, E) => (r, E.inner.2)

private theorem final_finished (X : Xf T V V) (batches : List (List V))
    (done : List (Elem G V T)) (hd : ∀ d ∈ done, IsDone X d) (s : Stage G V T) (e : Est G)
    (hcr : e.created = false) :
    finalOf X (.ok (), ⟨.finished, false, (done ++ [ofEst s e], e.inner)⟩)
      = finishing X batches (done.map (·.xf)) s [] e := by
  have hc : (Pipeline.hooks X).complete (done ++ [ofEst s e], e.inner) =
      match Op.andThen (Est.completeTraining s.hooks) (stageTransformer s) e with
      | (.error x, e) => (.error x, (done ++ [ofEst s e], e.inner))
      | (.ok t, e) => (.ok (), (done ++ [{ ofEst s e with xf := t }], e.inner)) := by
    simp only [Pipeline.hooks, Pipeline.complete, List.length_append, List.length_singleton]
    rw [complete_done X done _ hd (by simp), Pipeline.completeN]
    rw [show (ofEst s e).hooks = s.hooks from rfl, call_ofEst, Op.andThen]
    have hcc := created_complete s.hooks e
    rcases hC : Est.completeTraining s.hooks e with ⟨x | u, e1⟩
    · rfl
    · cases u
      rw [hC] at hcc
      simp only at hcc ⊢
      rw [create_ofEst s e1 (by rw [hcc, hcr])]
      rcases hT : stageTransformer s e1 with ⟨x | t, e2⟩ <;> rfl
  unfold finalOf
  simp only [Est.completeTraining, ne_eq, not_true_eq_false, and_false, if_false, hc]
  unfold finishing
  rcases hO : Op.andThen (Est.completeTraining s.hooks) (stageTransformer s) e with ⟨x | t, e1⟩
  · rfl
  · simp [Est.createTransformer, Pipeline.hooks, sequential]

/-- With enough iterations the loop ends and leads to the given final result. -/
private def Ends (X : Xf T V V) (batches rest : List (List V))
    (E : Est (List (Elem G V T) × G)) (r : Except Err (List (Option T)) × G) : Prop :=
  ∃ N out, (∀ fuel, N ≤ fuel → trainLoop (Pipeline.hooks X) batches fuel rest E = some out) ∧
    finalOf X out = r

private theorem ends_error (X : Xf T V V) (batches rest : List (List V))
    (E E' : Est (List (Elem G V T) × G)) (x : Err)
    (h : ∀ fuel, trainLoop (Pipeline.hooks X) batches (fuel + 1) rest E = some (.error x, E')) :
    Ends X batches rest E (.error x, E'.inner.2) := by
  refine ⟨1, (.error x, E'), fun fuel hf => ?_, rfl⟩
  obtain ⟨f, rfl⟩ : ∃ f, fuel = f + 1 := ⟨fuel - 1, by omega⟩
  exact h f

private theorem ends_step (X : Xf T V V) (batches rest rest' : List (List V))
    (E E' : Est (List (Elem G V T) × G)) (r : Except Err (List (Option T)) × G)
    (h : ∀ fuel, trainLoop (Pipeline.hooks X) batches (fuel + 1) rest E
      = trainLoop (Pipeline.hooks X) batches fuel rest' E')
    (h' : Ends X batches rest' E' r) : Ends X batches rest E r := by
  obtain ⟨N, out, hN, hr⟩ := h'
  refine ⟨N + 1, out, fun fuel hf => ?_, hr⟩
  obtain ⟨f, rfl⟩ : ∃ f, fuel = f + 1 := ⟨fuel - 1, by omega⟩
  rw [h f, hN f (by omega)]

private theorem ends_finished (X : Xf T V V) (batches rest : List (List V))
    (done : List (Elem G V T)) (hd : ∀ d ∈ done, IsDone X d) (s : Stage G V T) (e : Est G)
    (hcr : e.created = false) :
    Ends X batches rest ⟨.finished, false, (done ++ [ofEst s e], e.inner)⟩
      (finishing X batches (done.map (·.xf)) s [] e) := by
  refine ⟨1, _, fun fuel hf => ?_, final_finished X batches done hd s e hcr⟩
  obtain ⟨f, rfl⟩ : ∃ f, fuel = f + 1 := ⟨fuel - 1, by omega⟩
  simp [trainLoop]

/-- The state of the pipeline given that of its stages. -/
private def outer (es : List (Elem G V T)) : TrainingState :=
  if Pipeline.hasAllFinished es then .finished else .training

private theorem ends_at (X : Xf T V V) (batches : List (List V)) (n : Nat)
    (IH : ∀ (ss : List (Stage G V T)), ss.length < n → ∀ (done : List (Elem G V T))
      (s : Stage G V T) (e : Est G), (∀ d ∈ done, IsDone X d) → e.created = false →
      e.state = .training → (∀ s' ∈ s :: ss, OnePass s'.hooks) → StatelessButLast X (s :: ss) →
      Ends X batches batches ⟨.training, false, (done ++ ofEst s e :: ss.map Elem.new, e.inner)⟩
        (remainder X batches (done.map (·.xf)) s batches ss e))
    (es : List (Elem G V T)) (g : G) (r : Except Err (List (Option T)) × G)
    (a : At X batches [] es g r n) (rest : List (List V))
    (hrest : Pipeline.hasAllFinished es = false → rest = batches) :
    Ends X batches rest ⟨outer es, false, (es, g)⟩ r := by
  have hh := hasAll_at a
  obtain ⟨done, s, e, ss, rfl, rfl, hdone, hcr, hst, rfl, hone, hquiet, hlen⟩ := a
  simp only at hh
  unfold outer
  rw [hh]
  rw [hh] at hrest
  rcases hst with h | ⟨h, rfl⟩
  · rw [h] at hrest ⊢
    rw [hrest rfl]
    have := IH ss hlen done s e hdone hcr h hone hquiet
    simpa using this
  · rw [h, remainder_finished _ _ _ _ _ _ _ h]
    simpa using ends_finished X batches rest done hdone s e hcr

/-- One iteration of the loop when the pipeline's `fit` throws, continues, or asks to start over. -/
private theorem loop_fit (X : Xf T V V) (batches : List (List V)) (b : List V)
    (bs : List (List V)) (es : List (Elem G V T)) (g : G) (hb : b ≠ []) (fuel : Nat) :
    trainLoop (Pipeline.hooks X) batches (fuel + 1) (b :: bs) ⟨.training, false, (es, g)⟩ =
      match Pipeline.fit X es b g with
      | (.error x, es, g) => some (.error x, ⟨.training, false, (es, g)⟩)
      | (.ok .reset, es, g) =>
        trainLoop (Pipeline.hooks X) batches fuel batches ⟨.training, false, (es, g)⟩
      | (.ok .complete, es, g) =>
        trainLoop (Pipeline.hooks X) batches fuel (if bs.isEmpty then batches else bs)
          ⟨.finished, false, (es, g)⟩
      | (.ok .continue, es, g) =>
        if bs.isEmpty then
          match Pipeline.dataCompleted X es g with
          | (.error x, es, g) => some (.error x, ⟨.training, false, (es, g)⟩)
          | (.ok true, es, g) =>
            trainLoop (Pipeline.hooks X) batches fuel batches ⟨.finished, false, (es, g)⟩
          | (.ok false, es, g) =>
            trainLoop (Pipeline.hooks X) batches fuel batches ⟨.training, false, (es, g)⟩
        else trainLoop (Pipeline.hooks X) batches fuel bs ⟨.training, false, (es, g)⟩ := by
  have hbl : ¬ b.length = 0 := by simpa using hb
  rw [trainLoop]
  simp only [ne_eq, not_true_eq_false, if_false, Est.fit, hbl, Pipeline.hooks]
  rcases hF : Pipeline.fit X es b g with ⟨x | r, es', g'⟩
  · rfl
  · cases r with
    | complete =>
      simp only
      cases bs with
      | nil => simp [Est.onDataCompleted]
      | cons => simp
    | reset => rfl
    | «continue» =>
      simp only
      cases bs with
      | nil =>
        simp only [List.isEmpty_nil, if_true, Est.onDataCompleted, ne_eq, not_true_eq_false,
          false_and, if_false]
        rcases hD : Pipeline.dataCompleted X es' g' with ⟨x | b, es'', g''⟩
        · simp
        · cases b <;> simp
      | cons => simp

private theorem fit_state (h : Hooks G V T) (hone : OnePass h) (p : Option (List V)) (e e' : Est G)
    (r : FitResult) (hf : Est.fit h p e = (.ok r, e')) (hst : e.state = .training) :
    (r = .continue ∧ e'.state = .training) ∨ (r = .complete ∧ e'.state = .finished) := by
  unfold Est.fit at hf
  split at hf
  · cases hf
  · split at hf
    · cases hf
    · split at hf
      · cases hf
      · split at hf
        · cases hf
        · cases hf; right; simp
        · rename_i hne heq
          cases hf
          cases r with
          | complete => exact absurd rfl hne
          | «continue» => left; exact ⟨rfl, hst⟩
          | reset =>
            exact absurd (congrArg Prod.fst heq) (hone.1 _ e.inner)

private theorem data_state (h : Hooks G V T) (hone : OnePass h) (e e' : Est G)
    (hf : Est.onDataCompleted h e = (.ok (), e')) (hst : e.state = .training) :
    e'.state = .finished := by
  unfold Est.onDataCompleted at hf
  split at hf
  · cases hf
  · split at hf
    · split at hf
      · cases hf
      · cases hf; rfl
      · rename_i heq
        have := hone.2 e.inner
        rw [heq] at this
        exact absurd rfl this
    · rename_i h1 h2
      simp [hst] at h2

private theorem loop_at (X : Xf T V V) (batches : List (List V))
    (hbne : batches ≠ []) (hb : ∀ b ∈ batches, b ≠ []) (n : Nat) :
    ∀ (ss : List (Stage G V T)), ss.length < n → ∀ (done : List (Elem G V T))
      (s : Stage G V T) (e : Est G), (∀ d ∈ done, IsDone X d) → e.created = false →
      e.state = .training → (∀ s' ∈ s :: ss, OnePass s'.hooks) → StatelessButLast X (s :: ss) →
      Ends X batches batches ⟨.training, false, (done ++ ofEst s e :: ss.map Elem.new, e.inner)⟩
        (remainder X batches (done.map (·.xf)) s batches ss e) := by
  induction n with
  | zero => intro ss h; omega
  | succ n IH =>
    intro ss hss done s e hd hcr hst hone hquiet
    -- advancing after the current stage finished
    have advance : ∀ (e : Est G), e.created = false → ∀ (s2 : Stage G V T) (ss2 : List (Stage G V T)),
        ss = s2 :: ss2 →
        (∃ x es' g', Pipeline.completeChained (ofEst s e) (ss.map Elem.new) e.inner
          (Pipeline.begin (ss.map Elem.new)) = (.error x, es', g') ∧
          finishing X batches (done.map (·.xf)) s ss e = (.error x, g')) ∨
        ∃ es' g', Pipeline.completeChained (ofEst s e) (ss.map Elem.new) e.inner
          (Pipeline.begin (ss.map Elem.new)) = (.ok (), es', g') ∧ es' ≠ [] ∧
          ∀ rest, (Pipeline.hasAllFinished (done ++ es') = false → rest = batches) →
          Ends X batches rest ⟨outer (done ++ es'), false, (done ++ es', g')⟩
            (finishing X batches (done.map (·.xf)) s ss e) := by
      intro e hcr s2 ss2 hss2
      have hbeg := begin_at X batches ss (by simp [hss2]) (fun x hx => hone x (by simp [hx]))
        (by rw [hss2] at hquiet ⊢; exact hquiet.tail)
      rcases chained_of_begin X batches (done.map (·.xf)) s e ss hcr (by rw [hss2] at hquiet; exact hquiet.head) hbeg with h | h
      · exact .inl h
      · obtain ⟨d, es', g', h1, h2, h3, ⟨a⟩⟩ := h
        right
        refine ⟨d :: es', g', h1, by simp, fun rest hrest => ?_⟩
        have : Nonempty (At X batches [] (done ++ d :: es') g'
            (finishing X batches (done.map (·.xf)) s ss e) n) := by
          obtain ⟨done', s', e', ss', rfl, rfl, hdone, hcr, hst, hr, hone, hquiet, hlen⟩ := a
          refine ⟨⟨done ++ d :: done', s', e', ss', by simp, rfl, ?_, hcr, hst, ?_, hone, hquiet, by omega⟩⟩
          · intro x hx
            rcases List.mem_append.1 hx with hx | hx
            · exact hd x hx
            · rcases List.mem_cons.1 hx with rfl | hx
              · exact h3
              · exact hdone x hx
          · rw [hr]; simp
        obtain ⟨a'⟩ := this
        exact ends_at X batches n IH _ _ _ a' rest hrest
    -- reporting the end of the data to the current stage
    have atEnd : ∀ (e : Est G), e.created = false → e.state = .training →
        (∃ x es' g', Pipeline.dataCompleted X (done ++ ofEst s e :: ss.map Elem.new) e.inner
            = (.error x, es', g') ∧
          remainder X batches (done.map (·.xf)) s [] ss e = (.error x, g')) ∨
        ∃ b es' g', Pipeline.dataCompleted X (done ++ ofEst s e :: ss.map Elem.new) e.inner
            = (.ok b, es', g') ∧
          Ends X batches batches ⟨if b then .finished else .training, false, (es', g')⟩
            (remainder X batches (done.map (·.xf)) s [] ss e) := by
      intro e hcr hst
      have hlen : (done ++ ofEst s e :: ss.map Elem.new).length
          = done.length + (ss.length + 1) := by simp
      unfold Pipeline.dataCompleted
      rw [hlen, data_done X done _ hd (by simp), remainder_nil]
      have hcd := created_data s.hooks e
      cases hss' : ss with
      | nil =>
        simp only [List.map_nil]
        rw [Pipeline.dataCompletedN, show (ofEst s e).hooks = s.hooks from rfl, call_ofEst]
        rcases hD : Est.onDataCompleted s.hooks e with ⟨x | u, e1⟩
        · exact .inl ⟨x, _, _, rfl, rfl⟩
        · cases u
          have hfin := data_state s.hooks (hone s (by simp)) e e1 hD hst
          right
          refine ⟨true, done ++ [ofEst s e1], e1.inner, ?_, ?_⟩
          · simp only [ofEst, hfin]; rfl
          · rw [hD] at hcd
            exact ends_finished X batches batches done hd s e1 (by rw [hcd, hcr])
      | cons s2 ss2 =>
        have adv := advance
        simp only [List.map_cons]
        rw [Pipeline.dataCompletedN, show (ofEst s e).hooks = s.hooks from rfl, call_ofEst,
          if_pos (by simp [ofEst, hst])]
        rcases hD : Est.onDataCompleted s.hooks e with ⟨x | u, e1⟩
        · exact .inl ⟨x, _, _, rfl, rfl⟩
        · cases u
          have hfin := data_state s.hooks (hone s (by simp)) e e1 hD hst
          rw [hD] at hcd
          simp only
          rw [if_pos (by simp [ofEst, hfin])]
          rcases adv e1 (by rw [hcd, hcr]) s2 ss2 hss' with ⟨x, es', g', h1, h2⟩ | ⟨es', g', h1, h2, h3⟩
          · left
            rw [hss'] at h1 h2
            simp only [List.map_cons] at h1
            rw [h1, h2]
            exact ⟨x, _, _, rfl, rfl⟩
          · right
            have h4 := h3 batches (fun _ => rfl)
            rw [hss'] at h1 h4
            simp only [List.map_cons] at h1
            rw [h1]
            refine ⟨_, _, _, rfl, ?_⟩
            unfold outer at h4
            rw [hasAll_append _ _ h2] at h4
            exact h4
    -- the batches
    have main : ∀ bs : List (List V), bs ≠ [] → (∀ b ∈ bs, b ≠ []) → ∀ (e : Est G),
        e.created = false → e.state = .training →
        Ends X batches bs ⟨.training, false, (done ++ ofEst s e :: ss.map Elem.new, e.inner)⟩
          (remainder X batches (done.map (·.xf)) s bs ss e) := by
      intro bs
      induction bs with
      | nil => intro h; exact absurd rfl h
      | cons b bs ihb =>
        intro _ hbs e hcr hst
        have hbn : b ≠ [] := hbs b (by simp)
        -- after a batch that leaves the stage in training
        have cont : ∀ (e0 e' : Est G) (es0 : List (Elem G V T)) (g0 : G),
            e'.created = false → e'.state = .training →
            Pipeline.fit X es0 b g0
              = (.ok .continue, done ++ ofEst s e' :: ss.map Elem.new, e'.inner) →
            Ends X batches (b :: bs) ⟨.training, false, (es0, g0)⟩
              (remainder X batches (done.map (·.xf)) s bs ss e') := by
          intro e0 e' es0 g0 hcr' hst' hf
          cases bs with
          | nil =>
            rcases atEnd e' hcr' hst' with ⟨x, es', g', h1, h2⟩ | ⟨b', es', g', h1, h2⟩
            · rw [h2]
              refine ends_error X batches [b] _ ⟨.training, false, (es', g')⟩ x fun fuel => ?_
              rw [loop_fit X batches b [] _ _ hbn fuel, hf]
              simp [h1]
            · refine ends_step X batches [b] batches _ _ _ (fun fuel => ?_) h2
              rw [loop_fit X batches b [] _ _ hbn fuel, hf]
              cases b' <;> simp [h1]
          | cons b2 bs2 =>
            refine ends_step X batches _ (b2 :: bs2) _ _ _ (fun fuel => ?_)
              (ihb (by simp) (fun x hx => hbs x (by simp [hx])) e' hcr' hst')
            rw [loop_fit X batches b _ _ _ hbn fuel, hf]
            simp
        rw [remainder_cons _ _ _ _ _ _ _ _ hst]
        have hfd := fit_done X done (ofEst s e :: ss.map Elem.new) hd (by simp) b hbn e.inner
        rcases hv : via X (done.map (·.xf)) b with x | outs
        · rw [hv] at hfd
          simp only at hfd ⊢
          try rw [hv]
          try simp only
          refine ends_error X batches _ _ ⟨.training, false, (done ++ ofEst s e :: ss.map Elem.new, e.inner)⟩
            x fun fuel => ?_
          rw [loop_fit X batches b _ _ _ hbn fuel, hfd]
        · rw [hv] at hfd
          cases outs with
          | nil =>
            simp only at hfd
            rw [hv]
            exact cont e e _ _ hcr hst hfd
          | cons v vs =>
            simp only at hfd
            rw [hv]
            simp only
            have hcf := created_fit s.hooks (some (v :: vs)) e
            rcases hF : Est.fit s.hooks (some (v :: vs)) e with ⟨x | r, e1⟩
            · -- the stage throws
              have hp : Pipeline.fit X (ofEst s e :: ss.map Elem.new) (v :: vs) e.inner
                  = (.error x, ofEst s e1 :: ss.map Elem.new, e1.inner) := by
                cases ss with
                | nil =>
                  simp only [List.map_nil]
                  rw [Pipeline.fit, show (ofEst s e).hooks = s.hooks from rfl, call_ofEst, hF]
                | cons s2 ss2 =>
                  simp only [List.map_cons]
                  rw [Pipeline.fit, if_pos (by simp [ofEst, hst]),
                    show (ofEst s e).hooks = s.hooks from rfl, call_ofEst, hF]
              rw [hp] at hfd
              simp only
              refine ends_error X batches _ _
                ⟨.training, false, (done ++ ofEst s e1 :: ss.map Elem.new, e1.inner)⟩ x fun fuel => ?_
              rw [loop_fit X batches b _ _ _ hbn fuel, hfd]
            · rw [hF] at hcf
              simp only at hcf ⊢
              have hcr1 : e1.created = false := by rw [hcf, hcr]
              rcases fit_state s.hooks (hone s (by simp)) _ _ _ _ hF hst with ⟨rfl, hst1⟩ | ⟨rfl, hst1⟩
              · -- the stage continues
                have hp : Pipeline.fit X (ofEst s e :: ss.map Elem.new) (v :: vs) e.inner
                    = (.ok .continue, ofEst s e1 :: ss.map Elem.new, e1.inner) := by
                  cases ss with
                  | nil =>
                    simp only [List.map_nil]
                    rw [Pipeline.fit, show (ofEst s e).hooks = s.hooks from rfl, call_ofEst, hF]
                  | cons s2 ss2 =>
                    simp only [List.map_cons]
                    rw [Pipeline.fit, if_pos (by simp [ofEst, hst]),
                      show (ofEst s e).hooks = s.hooks from rfl, call_ofEst, hF]
                rw [hp] at hfd
                exact cont e e1 _ _ hcr1 hst1 hfd
              · -- the stage is complete
                rw [remainder_finished _ _ _ _ _ _ _ hst1]
                cases hss' : ss with
                | nil =>
                  have hp : Pipeline.fit X [ofEst s e] (v :: vs) e.inner
                      = (.ok .complete, [ofEst s e1], e1.inner) := by
                    rw [Pipeline.fit, show (ofEst s e).hooks = s.hooks from rfl, call_ofEst, hF]
                  rw [hss'] at hfd
                  simp only [List.map_nil] at hfd
                  rw [hp] at hfd
                  refine ends_step X batches _ (if bs.isEmpty then batches else bs) _ _ _
                    (fun fuel => ?_) (ends_finished X batches _ done hd s e1 hcr1)
                  simp only [List.map_nil]
                  rw [loop_fit X batches b _ _ _ hbn fuel, hfd]
                | cons s2 ss2 =>
                  have adv := advance e1 hcr1 s2 ss2 hss'
                  have hp : ∀ r es' g', Pipeline.completeChained (ofEst s e1) (ss.map Elem.new) e1.inner
                      (Pipeline.begin (ss.map Elem.new)) = (r, es', g') →
                      Pipeline.fit X (ofEst s e :: ss.map Elem.new) (v :: vs) e.inner
                      = ((match r with
                          | .error x => .error x
                          | .ok () => .ok (if Pipeline.hasAllFinished es' then .complete else .reset)), es', g') := by
                    intro r es' g' hcc
                    rw [hss'] at hcc ⊢
                    simp only [List.map_cons] at hcc ⊢
                    rw [Pipeline.fit, if_pos (by simp [ofEst, hst]),
                      show (ofEst s e).hooks = s.hooks from rfl, call_ofEst, hF]
                    simp only
                    rw [hcc]
                    rcases r with x | u
                    · rfl
                    · cases u; rfl
                  rw [← hss']
                  rcases adv with ⟨x, es', g', h1, h2⟩ | ⟨es', g', h1, h2, h3⟩
                  · rw [hp _ _ _ h1] at hfd
                    simp only at hfd
                    rw [h2]
                    refine ends_error X batches _ _ ⟨.training, false, (done ++ es', g')⟩ x
                      fun fuel => ?_
                    rw [loop_fit X batches b _ _ _ hbn fuel, hfd]
                  · rw [hp _ _ _ h1] at hfd
                    simp only at hfd
                    unfold outer at h3
                    rw [hasAll_append _ _ h2] at h3
                    cases hall : Pipeline.hasAllFinished es'
                    · rw [hall] at h3 hfd
                      refine ends_step X batches _ batches _ _ _ (fun fuel => ?_) (h3 batches (fun _ => rfl))
                      rw [loop_fit X batches b _ _ _ hbn fuel, hfd]
                      simp
                    · rw [hall] at h3 hfd
                      refine ends_step X batches _ (if bs.isEmpty then batches else bs) _ _ _
                        (fun fuel => ?_) (h3 _ (fun h => by cases h))
                      rw [loop_fit X batches b _ _ _ hbn fuel, hfd]
                      simp
    exact main batches hbne hb e hcr hst

/-- **C13** Training a pipeline with the standard loop and creating its transformer, on any non-empty data
in any split into non-empty batches: the loop ends, and result, exception, transformers and all effects on
the stages and annotations (`G`) are those of training the stages strictly one after the other, each on the
whole data as transformed by the completed stages before it.

Partial: the transformers of the stages before the last one keep no state, and no stage asks for further passes; see
`C13_nested_pipeline` for a stage that does. -/
theorem C13_sequential_partial (X : Xf T V V) (stages : List (Stage G V T))
    (hX : StatelessButLast X stages) (hs : stages ≠ []) (hone : ∀ s ∈ stages, OnePass s.hooks)
    (batches : List (List V)) (hbne : batches ≠ []) (hb : ∀ b ∈ batches, b ≠ []) (g : G) :
    ∃ N out, (∀ fuel, N ≤ fuel → trainAndCreate (Pipeline.hooks X) batches fuel
        (Est.new (stages.map Elem.new, g)) = some out) ∧
      (out.1, out.2.inner.2) = sequential X batches [] stages g := by
  have hbe : batches.isEmpty = false := by cases batches <;> simp_all
  unfold trainAndCreate
  simp only [Est.beginTraining, Est.new, ne_eq, not_true_eq_false, if_false, hbe,
    Bool.false_eq_true]
  have hh : (Pipeline.hooks X).begin (stages.map Elem.new, g) =
      match Pipeline.begin (stages.map Elem.new) g with | (r, es, g) => (r, (es, g)) := rfl
  rw [hh]
  rcases begin_at X batches stages hs hone hX [] g with ⟨x, es', g', h1, h2⟩ | ⟨b, es', g', h1, h2, h3, ⟨a⟩⟩
  · rw [h1, h2]
    exact ⟨0, _, fun _ _ => rfl, rfl⟩
  · rw [h1]
    have he := ends_at X batches stages.length (loop_at X batches hbne hb stages.length)
      es' g' _ a batches (fun _ => rfl)
    obtain ⟨N, out, hN, hr⟩ := he
    have hout : outer es' = if b then .training else .finished := by
      unfold outer
      rw [h3]
      cases Pipeline.hasAllFinished es' <;> rfl
    rw [hout] at hN
    obtain ⟨o, E⟩ := out
    cases o with
    | error x =>
      refine ⟨N, (.error x, E), fun fuel hf => ?_, hr⟩
      have := hN fuel hf
      cases b <;> simp_all
    | ok u =>
      cases u
      simp only [finalOf] at hr
      rcases hC : Est.completeTraining (Pipeline.hooks X) E with ⟨x | u, E1⟩
      · refine ⟨N, (.error x, E1), fun fuel hf => ?_, ?_⟩
        · have := hN fuel hf
          cases b <;> simp_all
        · rw [hC] at hr
          exact hr
      · cases u
        refine ⟨N, Est.createTransformer (Pipeline.hooks X) E1, fun fuel hf => ?_, ?_⟩
        · have := hN fuel hf
          cases b <;> simp_all
        · rw [hC] at hr
          exact hr

end Feat
