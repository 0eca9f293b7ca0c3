import Verif.Spec.Filter
import Verif.Spec.Training
import Verif.Props.PipelineOrder
/-
C16 column filters preserve the row, C17 training through a column filter.
-/
namespace Feat
variable {C T σ τ : Type} {n : Nat}

/-! ### C16 -/

private theorem selects_unique (idxs : List (Fin n)) (row : Vector C n) (v : Cells C)
    (h : Selects idxs row v) : v = toFiltered idxs row := by
  obtain ⟨h1, h2⟩ := h
  have hg : ∀ i : Fin n, row.toList.getD i.val row[i] = row[i] := by
    intro i; simp [List.getD]
  simp only [hg] at h1
  unfold toFiltered
  split
  · obtain ⟨c, rfl⟩ := h2.2 rfl
    simpa [Cells.toList] using h1
  · rename_i hne
    cases v with
    | tuple cs => simpa [Cells.toList] using h1
    | single c =>
      obtain ⟨i, hi⟩ := List.length_eq_one_iff.1 (h2.1 ⟨c, rfl⟩)
      exact absurd hi (hne i)

/-- **C16** (rows) For any wrapped transformer, state, selection and rows: let `sel` give the selected
columns.  The outputs of the filter are those of the wrapped transformer run on the selected columns of the
rows; it passes on the same exception, and ends in the same state.  The outputs come in groups, one per row
reached: the `i`-th holds what the wrapped transformer emits for row `i` (after the rows before it), and each of
these values appears as one output row, the unchanged input row followed by the value. -/
theorem C16_rows (idxs : List (Fin n)) (W : Xf T (Cells C) (Cells C)) (sel : Vector C n → Cells C)
    (hsel : ∀ row, Selects idxs row (sel row)) (t : T) (rows : List (Vector C n)) :
    ∃ groups : List (List (Cells C)),
      (W.execAll t (rows.map sel)).outs = groups.flatten ∧
      ((filterXf idxs W).execAll t rows).outs =
        (List.zipWith (fun row vs => vs.map fun v => row.toList ++ v.toList) rows groups).flatten ∧
      ((filterXf idxs W).execAll t rows).err = (W.execAll t (rows.map sel)).err ∧
      ((filterXf idxs W).execAll t rows).next = (W.execAll t (rows.map sel)).next ∧
      groups.length ≤ rows.length ∧
      ((W.execAll t (rows.map sel)).err = none → groups.length = rows.length) ∧
      ∀ i (hi : i < groups.length) (hr : i < rows.length),
        groups[i] = (W.exec (W.execAll t ((rows.take i).map sel)).next (sel rows[i])).outs := by
  have hs : sel = toFiltered idxs := funext fun row => selects_unique idxs row _ (hsel row)
  subst hs
  induction rows generalizing t with
  | nil => exact ⟨[], rfl, rfl, rfl, rfl, by simp, by simp, by simp⟩
  | cons row rows ih =>
    have ht : ∀ v : Cells C, toTransformed row v = row.toList ++ v.toList := by
      intro v; cases v <;> rfl
    rcases hW : W.exec t (toFiltered idxs row) with ⟨outs, e, t'⟩
    have hF : (filterXf idxs W).exec t row = ⟨outs.map (toTransformed row), e, t'⟩ := by
      simp only [filterXf, hW]
    cases e with
    | some x =>
      refine ⟨[outs], ?_, ?_, ?_, ?_, by simp, ?_, ?_⟩
      · simp [Xf.execAll, hW]
      · simp [Xf.execAll, hF, ht]
      · simp [Xf.execAll, hF, hW]
      · simp [Xf.execAll, hF, hW]
      · simp [Xf.execAll, hW]
      · intro i hi hr
        have : i = 0 := by simpa using hi
        subst this
        simp [Xf.execAll, hW]
    | none =>
      obtain ⟨groups, h1, h2, h3, h4, h5, h6, h7⟩ := ih t'
      refine ⟨outs :: groups, ?_, ?_, ?_, ?_, ?_, ?_, ?_⟩
      · simp [Xf.execAll, hW, h1]
      · simp [Xf.execAll, hF, h2, ht]
      · simp [Xf.execAll, hF, hW, h3]
      · simp [Xf.execAll, hF, hW, h4]
      · simpa using h5
      · simp only [Xf.execAll, hW, List.map_cons, List.length_cons, Nat.add_right_cancel_iff]
        exact h6
      · intro i hi hr
        cases i with
        | zero => simp [Xf.execAll, hW]
        | succ i =>
          simp only [List.getElem_cons_succ, List.take_succ_cons, List.map_cons, Xf.execAll, hW]
          exact h7 i (by simpa using hi) (by simpa using hr)

/-- **C16** (flush) A filter never emits on flush; if the wrapped transformer does, it throws, otherwise it ends
as the wrapped transformer's flush. -/
theorem C16_flush (idxs : List (Fin n)) (W : Xf T (Cells C) (Cells C)) (t : T) :
    ((filterXf idxs W).flush t).outs = [] ∧
    ((W.flush t).outs ≠ [] → ((filterXf idxs W).flush t).err = some .runtimeError) ∧
    ((W.flush t).outs = [] → ((filterXf idxs W).flush t).err = (W.flush t).err) := by
  rcases hW : W.flush t with ⟨outs, e, t'⟩
  cases outs <;> simp [filterXf, hW]

/-- A running count appended to the selection; emits twice for odd counts. -/
private def tagXf : Xf Nat (Cells Nat) (Cells Nat) where
  exec t v :=
    if t % 2 = 0 then ⟨[.tuple (v.toList ++ [t])], none, t + 1⟩
    else ⟨[.tuple (v.toList ++ [t]), .single t], none, t + 1⟩
  flush := noFlush

/-- A selection exists for all rows, and a run is as expected. -/
example : (∀ row : Vector Nat 3, Selects [2, 0] row (toFiltered [2, 0] row)) ∧
    ((filterXf [2, 0] tagXf).execAll 0 [#v[1, 2, 3], #v[4, 5, 6]]).outs
      = [[1, 2, 3, 3, 1, 0], [4, 5, 6, 6, 4, 1], [4, 5, 6, 1]] := by
  refine ⟨fun row => ⟨?_, ?_⟩, by decide⟩
  · simp [toFiltered, Cells.toList, List.getD]
  · simp [toFiltered]

/-! ### C17 -/

/-- What direct and filtered training have reached: the same wrapped estimator, up to whether it has been
told that the data has ended. -/
private structure Same (d f : Est σ) : Prop where
  inner : d.inner = f.inner
  created : d.created = f.created
  ds : d.state = .training ∨ d.state = .finished
  fs : f.state = .training ∨ f.state = .finished

/-- The result of the direct loop as a result of the filtered one. -/
private def LoopSame (d : Except Err Unit × Est σ) (f : Except Err Unit × Est (Est σ)) : Prop :=
  d.1 = f.1 ∧ f.2.created = false ∧
    ((∀ x, d.1 = .error x → d.2 = f.2.inner) ∧
      (d.1 = .ok () → Same d.2 f.2.inner ∧ f.2.state = .finished))

private theorem fit_cases (h : Hooks σ (Cells C) τ) (items) (e e' : Est σ) (r : FitResult)
    (he : Est.fit h (some items) e = (.ok r, e')) (hst : e.state = .training) :
    e'.created = e.created ∧
      ((r = .complete ∧ e'.state = .finished) ∨ (r ≠ .complete ∧ e'.state = .training)) := by
  unfold Est.fit at he
  split at he
  · cases he
  · split at he
    · cases he
    · split at he
      · cases he
      · split at he
        · cases he
        · cases he; exact ⟨rfl, .inl ⟨rfl, rfl⟩⟩
        · rename_i hne _
          cases he; exact ⟨rfl, .inr ⟨fun h => hne h, hst⟩⟩

private theorem loop_done {σ ι τ : Type} (h : Hooks σ ι τ) (all : List (List ι)) (fuel rest) (e : Est σ)
    (hs : e.state ≠ .training) : trainLoop h all (fuel + 1) rest e = some (.ok (), e) := by
  cases rest <;> rw [trainLoop, if_pos hs]

/-- The direct loop over the items of one batch. -/
private theorem batch_direct (h : Hooks σ (Cells C) τ) (ha : ∀ s, h.onDataCompleted s = (.ok true, s))
    (idxs : List (Fin n)) (all R : List (List (Cells C))) (b : List (Vector C n)) :
    b ≠ [] → ∀ (e : Est σ) (fuel : Nat) (out), e.state = .training →
    trainLoop h all fuel (b.map (fun r => [toFiltered idxs r]) ++ R) e = some out →
    ∃ e', e'.created = e.created ∧
      ((∃ x, filterFit h idxs b e = (.error x, e') ∧ out = (.error x, e')) ∨
      (filterFit h idxs b e = (.ok .complete, e') ∧ e'.state = .finished ∧ out = (.ok (), e')) ∨
      (∃ fuel' < fuel, filterFit h idxs b e = (.ok .reset, e') ∧ e'.state = .training ∧
        trainLoop h all fuel' all e' = some out) ∨
      (filterFit h idxs b e = (.ok .continue, e') ∧ e'.state = .training ∧
        ((R = [] ∧ out = (.ok (), { e' with state := .finished })) ∨
         (R ≠ [] ∧ ∃ fuel' < fuel, trainLoop h all fuel' R e' = some out)))) := by
  induction b with
  | nil => intro hb; exact absurd rfl hb
  | cons row rows ih =>
    intro _ e fuel out hst hout
    cases fuel with
    | zero => simp [trainLoop] at hout
    | succ fuel =>
      rw [List.map_cons, List.cons_append, trainLoop, if_neg (by simp [hst])] at hout
      rw [filterFit]
      rcases hF : Est.fit h (some [toFiltered idxs row]) e with ⟨x | r, e1⟩
      · rw [hF] at hout
        simp only [Option.some.injEq] at hout
        have hcr : e1.created = e.created := by
          unfold Est.fit at hF
          simp only [hst, ne_eq, not_true_eq_false, if_false, List.length_cons, List.length_nil] at hF
          simp only [Nat.zero_add, Nat.one_ne_zero, if_false] at hF
          split at hF <;> cases hF; rfl
        exact ⟨e1, hcr, .inl ⟨x, rfl, hout.symm⟩⟩
      · rw [hF] at hout
        obtain ⟨hcr, hst1⟩ := fit_cases h _ _ _ _ hF hst
        -- a finished estimator ends the loop
        have fin : ∀ fuel rest out, e1.state = .finished → trainLoop h all fuel rest e1 = some out →
            out = (.ok (), e1) := by
          intro fuel rest out hs ho
          cases fuel with
          | zero => simp [trainLoop] at ho
          | succ fuel =>
            rw [loop_done _ _ _ _ _ (by simp [hs])] at ho
            simpa using ho.symm
        cases r with
        | complete =>
          have hs : e1.state = .finished := by
            rcases hst1 with h | h
            · exact h.2
            · exact absurd rfl h.1
          refine ⟨e1, hcr, .inr (.inl ⟨rfl, hs, ?_⟩)⟩
          simp only at hout
          split at hout
          · rw [show Est.onDataCompleted h e1 = (.ok (), e1) by simp [Est.onDataCompleted, hs]] at hout
            exact fin _ _ _ hs hout
          · exact fin _ _ _ hs hout
        | reset =>
          have hs : e1.state = .training := by
            rcases hst1 with h | h
            · cases h.1
            · exact h.2
          exact ⟨e1, hcr, .inr (.inr (.inl ⟨fuel, by omega, rfl, hs, hout⟩))⟩
        | «continue» =>
          have hs : e1.state = .training := by
            rcases hst1 with h | h
            · cases h.1
            · exact h.2
          simp only at hout ⊢
          have stop : (if (rows.map (fun r => [toFiltered idxs r]) ++ R).isEmpty then
              rows = [] ∧ R = [] else True) := by
            split
            · rename_i hh
              cases rows <;> simp_all
            · trivial
          cases rows with
          | nil =>
            refine ⟨e1, hcr, .inr (.inr (.inr ⟨rfl, hs, ?_⟩))⟩
            simp only [List.map_nil, List.nil_append] at hout
            cases R with
            | nil =>
              left
              refine ⟨rfl, ?_⟩
              simp only [List.isEmpty_nil, if_true] at hout
              rw [show Est.onDataCompleted h e1 = (.ok (), { e1 with state := .finished }) by
                simp [Est.onDataCompleted, hs, ha]] at hout
              cases fuel with
              | zero => simp [trainLoop] at hout
              | succ fuel =>
                simp only at hout
                rw [loop_done _ _ _ _ _ (by simp)] at hout
                simpa using hout.symm
            | cons b bs =>
              right
              refine ⟨by simp, fuel, by omega, ?_⟩
              simpa using hout
          | cons row2 rows2 =>
            rw [if_neg (by simp)] at hout
            obtain ⟨e', hc', hcase⟩ := ih (by simp) e1 fuel out hs hout
            refine ⟨e', by rw [hc', hcr], ?_⟩
            rcases hcase with h | h | ⟨f', hf', h⟩ | ⟨h1, h2, h3 | ⟨h3, f', hf', h4⟩⟩
            · exact .inl h
            · exact .inr (.inl h)
            · exact .inr (.inr (.inl ⟨f', by omega, h⟩))
            · exact .inr (.inr (.inr ⟨h1, h2, .inl h3⟩))
            · exact .inr (.inr (.inr ⟨h1, h2, .inr ⟨h3, f', by omega, h4⟩⟩))

private theorem loop_same (h : Hooks σ (Cells C) τ) (ha : ∀ s, h.onDataCompleted s = (.ok true, s))
    (idxs : List (Fin n)) (batches : List (List (Vector C n))) (hbne : batches ≠ [])
    (hb : ∀ b ∈ batches, b ≠ []) (N : Nat) :
    ∀ fuel < N, ∀ (rest : List (List (Vector C n))) (e : Est σ) (out), rest ≠ [] → (∀ b ∈ rest, b ≠ []) →
    e.state = .training →
    trainLoop h (batches.flatten.map fun r => [toFiltered idxs r]) fuel
      (rest.flatten.map fun r => [toFiltered idxs r]) e = some out →
    ∃ fout, trainLoop (filterHooks h idxs) batches fuel rest ⟨.training, false, e⟩ = some fout ∧
      LoopSame out fout := by
  induction N with
  | zero => intro fuel hf; omega
  | succ N ih =>
    intro fuel hfuel rest e out hrne hrb hst hout
    cases rest with
    | nil => exact absurd rfl hrne
    | cons b bs =>
      have hbn : b ≠ [] := hrb b (by simp)
      have hall : batches.flatten.map (fun r => [toFiltered idxs r]) ≠ [] := by
        cases batches with
        | nil => exact absurd rfl hbne
        | cons c cs =>
          have := hb c (by simp)
          cases c <;> simp_all
      rw [List.flatten_cons, List.map_append] at hout
      obtain ⟨e', hcr, hcase⟩ := batch_direct h ha idxs _ _ b hbn e fuel out hst hout
      have hbl : ¬ b.length = 0 := by simpa using hbn
      cases fuel with
      | zero => simp [trainLoop] at hout
      | succ fuel =>
        have mono : ∀ (rest : List (List (Vector C n))) (e : Est (Est σ)) (out), ∀ f1 f2, f1 ≤ f2 →
            trainLoop (filterHooks h idxs) batches f1 rest e = some out →
            trainLoop (filterHooks h idxs) batches f2 rest e = some out := by
          intro rest e out f1
          induction f1 generalizing rest e with
          | zero => intro f2 _ h; simp [trainLoop] at h
          | succ f1 ihf =>
            intro f2 hle hh
            cases f2 with
            | zero => omega
            | succ f2 =>
              by_cases hs : e.state ≠ .training
              · rw [loop_done _ _ _ _ _ hs] at hh ⊢; exact hh
              · cases rest with
                | nil => rw [trainLoop, if_neg hs] at hh ⊢; exact hh
                | cons b bs =>
                  rw [trainLoop, if_neg hs] at hh ⊢
                  rcases hF : Est.fit (filterHooks h idxs) (some b) e with ⟨x | r, e1⟩
                  · rw [hF] at hh; exact hh
                  · rw [hF] at hh
                    cases r with
                    | reset => exact ihf _ _ _ (by omega) hh
                    | complete =>
                      simp only at hh ⊢
                      split at hh
                      · rename_i hem
                        rw [if_pos hem]
                        rcases hD : Est.onDataCompleted (filterHooks h idxs) e1 with ⟨x | u, e2⟩
                        · rw [hD] at hh; exact hh
                        · cases u; rw [hD] at hh; exact ihf _ _ _ (by omega) hh
                      · rename_i hem
                        rw [if_neg hem]
                        exact ihf _ _ _ (by omega) hh
                    | «continue» =>
                      simp only at hh ⊢
                      split at hh
                      · rename_i hem
                        rw [if_pos hem]
                        rcases hD : Est.onDataCompleted (filterHooks h idxs) e1 with ⟨x | u, e2⟩
                        · rw [hD] at hh; exact hh
                        · cases u; rw [hD] at hh; exact ihf _ _ _ (by omega) hh
                      · rename_i hem
                        rw [if_neg hem]
                        exact ihf _ _ _ (by omega) hh
        -- one step of the filtered loop
        have fitF : Est.fit (filterHooks h idxs) (some b) ⟨.training, false, e⟩ =
            match filterFit h idxs b e with
            | (.error x, s) => (.error x, ⟨.training, false, s⟩)
            | (.ok .complete, s) => (.ok .complete, ⟨.finished, false, s⟩)
            | (.ok r, s) => (.ok r, ⟨.training, false, s⟩) := by
          simp only [Est.fit, ne_eq, not_true_eq_false, if_false, hbl, filterHooks]
          rcases filterFit h idxs b e with ⟨x | r, s⟩
          · rfl
          · cases r <;> rfl
        have finF : ∀ s rest, 0 < fuel → trainLoop (filterHooks h idxs) batches fuel rest
            ⟨.finished, false, s⟩ = some (.ok (), ⟨.finished, false, s⟩) := by
          intro s rest hf
          cases fuel with
          | zero => omega
          | succ fuel => exact loop_done _ _ _ _ _ (by simp)
        -- the direct loop needed at least two steps if the estimator finished
        have pos : ∀ r, filterFit h idxs b e = (.ok r, e') → 0 < fuel := by
          intro r hr
          apply Nat.pos_of_ne_zero
          rintro rfl
          cases b with
          | nil => exact absurd rfl hbn
          | cons row rows =>
            rw [List.map_cons, List.cons_append, trainLoop, if_neg (by simp [hst])] at hout
            rw [filterFit] at hr
            rcases hF : Est.fit h (some [toFiltered idxs row]) e with ⟨x | r1, e1⟩
            · rw [hF] at hr; cases hr
            · rw [hF] at hout
              simp only [trainLoop] at hout
              cases r1 with
              | reset => cases hout
              | complete =>
                simp only at hout
                have hs := (fit_cases h _ _ _ _ hF hst).2
                have hs : e1.state = .finished := by
                  rcases hs with h | h
                  · exact h.2
                  · exact absurd rfl h.1
                rw [show Est.onDataCompleted h e1 = (.ok (), e1) by
                  simp [Est.onDataCompleted, hs]] at hout
                simp at hout
              | «continue» =>
                have hs := (fit_cases h _ _ _ _ hF hst).2
                have hs : e1.state = .training := by
                  rcases hs with h | h
                  · cases h.1
                  · exact h.2
                simp only at hout
                rw [show Est.onDataCompleted h e1 = (.ok (), { e1 with state := .finished }) by
                  simp [Est.onDataCompleted, hs, ha]] at hout
                simp at hout
        rw [trainLoop, if_neg (by simp)]
        simp only [fitF]
        rcases hcase with ⟨x, h1, rfl⟩ | ⟨h1, h2, rfl⟩ | ⟨f', hf', h1, h2, h3⟩ | ⟨h1, h2, h3⟩
        · rw [h1]
          exact ⟨_, rfl, rfl, rfl, fun _ _ => rfl, fun h => by cases h⟩
        · have hp := pos _ h1
          rw [h1]
          simp only
          refine ⟨(.ok (), ⟨.finished, false, e'⟩), ?_, rfl, rfl, fun _ h => (by cases h), fun _ =>
            ⟨⟨rfl, rfl, .inr h2, .inr h2⟩, rfl⟩⟩
          split
          · simp only [Est.onDataCompleted]
            simp only [ne_eq, reduceCtorEq, not_false_eq_true, not_true_eq_false, and_false, if_false]
            exact finF _ _ hp
          · exact finF _ _ hp
        · rw [h1]
          simp only
          obtain ⟨fout, g1, g2⟩ := ih f' (by omega) batches e' out hbne hb h2 h3
          exact ⟨fout, mono _ _ _ f' fuel (by omega) g1, g2⟩
        · have hp := pos _ h1
          rw [h1]
          simp only
          have bse : bs.flatten.map (fun r => [toFiltered idxs r]) = [] ↔ bs = [] := by
            constructor
            · intro hh
              cases bs with
              | nil => rfl
              | cons c cs =>
                have := hrb c (by simp)
                cases c <;> simp_all
            · rintro rfl; rfl
          rcases h3 with ⟨hR, rfl⟩ | ⟨hR, f', hf', h4⟩
          · have hbs := bse.1 hR
            subst hbs
            simp only [List.isEmpty_nil, if_true]
            refine ⟨(.ok (), ⟨.finished, false, e'⟩), ?_, rfl, rfl, fun _ h => (by cases h), fun _ =>
              ⟨⟨rfl, rfl, .inr rfl, .inl h2⟩, rfl⟩⟩
            simp only [Est.onDataCompleted, filterHooks]
            exact finF _ _ hp
          · have hbs : bs ≠ [] := fun h => hR (bse.2 h)
            have : bs.isEmpty = false := by cases bs <;> simp_all
            rw [this]
            simp only [Bool.false_eq_true, if_false]
            obtain ⟨fout, g1, g2⟩ := ih f' (by omega) bs e' out hbs (fun b hb => hrb b (by simp [hb])) h2 h4
            exact ⟨fout, mono _ _ _ f' fuel (by omega) g1, g2⟩

/-- What `trainAndCreate` does after its loop. -/
private def post {σ ι τ : Type} (h : Hooks σ ι τ) : Except Err Unit × Est σ → Except Err τ × Est σ
  | (.error x, e) => (.error x, e)
  | (.ok (), e) =>
    match Est.completeTraining h e with
    | (.error x, e) => (.error x, e)
    | (.ok (), e) => Est.createTransformer h e

private theorem train_eq {σ ι τ : Type} (h : Hooks σ ι τ) (batches : List (List ι)) (fuel : Nat) (e : Est σ)
    (hb : batches.isEmpty = false) :
    trainAndCreate h batches fuel e =
      match Est.beginTraining h e with
      | (.error x, e) => some (.error x, e)
      | (.ok (), e) => (trainLoop h batches fuel batches e).map (post h) := by
  unfold trainAndCreate
  simp only [hb, Bool.false_eq_true, if_false]
  rcases Est.beginTraining h e with ⟨x | u, e1⟩
  · rfl
  · cases u
    simp only
    rcases trainLoop h batches fuel batches e1 with _ | ⟨x | u, e2⟩
    · rfl
    · rfl
    · cases u
      simp only [Option.map, post]
      rcases Est.completeTraining h e2 with ⟨x | u, e3⟩ <;> rfl

/-- **C17** For every estimator that takes the end of the data as the end of its training (the default): if
training it directly on the selected columns of all rows with the standard loop, one row at a time, and creating
its transformer ends with some outcome (an exception or a transformer), then training it through a column filter
on the rows in any batches ends with the same outcome and leaves the private state of the wrapped estimator the
same, and the whole wrapped estimator if there was no exception.

Partial: an estimator that wants a further pass at the end of the data is not covered; see
`C17_several_passes`. -/
theorem C17_filtered_training_partial (h : Hooks σ (Cells C) τ)
    (ha : ∀ s, h.onDataCompleted s = (.ok true, s)) (idxs : List (Fin n))
    (sel : Vector C n → Cells C) (hsel : ∀ row, Selects idxs row (sel row))
    (batches : List (List (Vector C n))) (hbne : batches ≠ []) (hb : ∀ b ∈ batches, b ≠ [])
    (s : σ) (fuel : Nat) (out)
    (hd : trainAndCreate h (batches.flatten.map fun row => [sel row]) fuel (Est.new s) = some out) :
    ∃ fout, trainAndCreate (filterHooks h idxs) batches fuel (Est.new (Est.new s)) = some fout ∧
      fout.1 = out.1 ∧ fout.2.inner.inner = out.2.inner ∧
      (∀ t, out.1 = .ok t → fout.2.inner = out.2) := by
  have hs : sel = toFiltered idxs := funext fun row => selects_unique idxs row _ (hsel row)
  subst hs
  have hbe : batches.isEmpty = false := by cases batches <;> simp_all
  have hbe2 : (batches.flatten.map fun row => [toFiltered idxs row]).isEmpty = false := by
    cases batches with
    | nil => exact absurd rfl hbne
    | cons c cs =>
      have := hb c (by simp)
      cases c <;> simp_all
  rw [train_eq _ _ _ _ hbe2] at hd
  rw [train_eq _ _ _ _ hbe]
  -- after the loop
  have after : ∀ (d : Except Err Unit × Est σ) (f : Except Err Unit × Est (Est σ)), LoopSame d f →
      post h d = out →
      ∃ fout, post (filterHooks h idxs) f = fout ∧
        fout.1 = out.1 ∧ fout.2.inner.inner = out.2.inner ∧ (∀ t, out.1 = .ok t → fout.2.inner = out.2) := by
    rintro ⟨d1, d2⟩ ⟨f1, f2⟩ ⟨hr, hc, he, hok⟩ ho
    simp only at hr hc he hok
    subst hr
    cases d1 with
    | error x =>
      subst ho
      exact ⟨_, rfl, rfl, (by rw [he x rfl]; rfl), fun t h => by cases h⟩
    | ok u =>
      cases u
      obtain ⟨hsame, hfin⟩ := hok rfl
      obtain ⟨fst, fcr, ds, dcr, di⟩ := f2
      obtain ⟨ds', dcr', di'⟩ := d2
      obtain ⟨h1, h2, h3, h4⟩ := hsame
      simp only at h1 h2 h3 h4 hc hfin
      subst h1 h2 hc hfin
      simp only [post] at ho ⊢
      have c1 : Est.completeTraining h ⟨ds', dcr', di'⟩ =
          match h.complete di' with
          | (.error x, s) => (.error x, ⟨ds', dcr', s⟩)
          | (.ok (), s) => (.ok (), ⟨.completed, dcr', s⟩) := by
        rcases h3 with rfl | rfl <;> simp only [Est.completeTraining] <;>
          rcases h.complete di' with ⟨x | u, s'⟩ <;> simp
      have c2 : Est.completeTraining h ⟨ds, dcr', di'⟩ =
          match h.complete di' with
          | (.error x, s) => (.error x, ⟨ds, dcr', s⟩)
          | (.ok (), s) => (.ok (), ⟨.completed, dcr', s⟩) := by
        rcases h4 with rfl | rfl <;> simp only [Est.completeTraining] <;>
          rcases h.complete di' with ⟨x | u, s'⟩ <;> simp
      have c3 : Est.completeTraining (filterHooks h idxs) ⟨.finished, false, ⟨ds, dcr', di'⟩⟩ =
          match Est.completeTraining h ⟨ds, dcr', di'⟩ with
          | (.error x, s) => (.error x, ⟨.finished, false, s⟩)
          | (.ok (), s) => (.ok (), ⟨.completed, false, s⟩) := by
        rw [Est.completeTraining]
        simp only [filterHooks]
        rcases Est.completeTraining h ⟨ds, dcr', di'⟩ with ⟨x | u, s'⟩ <;> simp
      rw [c1] at ho
      rw [c3, c2]
      rcases hC : h.complete di' with ⟨x | u, s'⟩
      · simp only [hC] at ho ⊢
        subst ho
        exact ⟨_, rfl, rfl, rfl, fun t h => by cases h⟩
      · cases u
        simp only [hC] at ho ⊢
        subst ho
        refine ⟨_, rfl, ?_⟩
        have c4 : Est.createTransformer (filterHooks h idxs) ⟨.completed, false, ⟨.completed, dcr', s'⟩⟩ =
            match Est.createTransformer h ⟨.completed, dcr', s'⟩ with
            | (.error x, e) => (.error x, ⟨.completed, false, e⟩)
            | (.ok t, e) => (.ok t, ⟨.completed, true, e⟩) := by
          rw [Est.createTransformer]
          simp only [filterHooks, ne_eq, not_true_eq_false, if_false, Bool.false_eq_true]
          rcases hX : Est.createTransformer h ⟨.completed, dcr', s'⟩ with ⟨x | t, e⟩ <;> rfl
        rw [c4]
        rcases hX : Est.createTransformer h ⟨.completed, dcr', s'⟩ with ⟨x | t, e⟩
        · exact ⟨rfl, rfl, fun t h => by cases h⟩
        · exact ⟨rfl, rfl, fun _ _ => rfl⟩
  -- the beginning
  have hbF : Est.beginTraining (filterHooks h idxs) (Est.new (Est.new s)) =
      match Est.beginTraining h (Est.new s) with
      | (.error x, e) => (.error x, ⟨.pending, false, e⟩)
      | (.ok (), e) => (.ok (), ⟨if e.state = .training then .training else .finished, false, e⟩) := by
    rw [Est.beginTraining]
    simp only [filterHooks, Est.new, ne_eq, not_true_eq_false, if_false]
    rcases Est.beginTraining h ⟨.pending, false, s⟩ with ⟨x | u, e⟩
    · rfl
    · cases u
      obtain ⟨st, cr, i⟩ := e
      cases st <;> rfl
  rw [hbF]
  have hst : ∀ e, Est.beginTraining h (Est.new s) = (.ok (), e) → e.state = .training ∨ e.state = .finished := by
    intro e he
    simp only [Est.beginTraining, Est.new, ne_eq, not_true_eq_false, if_false] at he
    rcases hb : h.begin s with ⟨x | b, s'⟩
    · rw [hb] at he; cases he
    · rw [hb] at he
      cases b <;> cases he
      · exact .inr rfl
      · exact .inl rfl
  rcases hB : Est.beginTraining h (Est.new s) with ⟨x | u, e⟩
  · rw [hB] at hd
    simp only [Option.some.injEq] at hd ⊢
    subst hd
    exact ⟨_, rfl, rfl, rfl, fun t h => by cases h⟩
  · cases u
    rw [hB] at hd
    simp only at hd ⊢
    rcases hst e hB with hs | hs
    · rw [hs]
      simp only [if_true]
      rcases hL : trainLoop h (batches.flatten.map fun row => [toFiltered idxs row]) fuel
          (batches.flatten.map fun row => [toFiltered idxs row]) e with _ | d
      · rw [hL] at hd; cases hd
      · obtain ⟨f, hf1, hf2⟩ := loop_same h ha idxs batches hbne hb (fuel + 1) fuel (by omega) batches e d
          hbne hb hs hL
        rw [hL] at hd
        rw [hf1]
        obtain ⟨fout, g1, g2⟩ := after d f hf2 (by simpa using hd)
        exact ⟨fout, by simp [g1], g2⟩
    · rw [hs]
      simp only [reduceCtorEq, if_false]
      cases fuel with
      | zero => simp [trainLoop] at hd
      | succ fuel =>
        rw [loop_done _ _ _ _ _ (by simp [hs])] at hd
        rw [loop_done _ _ _ _ _ (by simp)]
        obtain ⟨fout, g1, g2⟩ := after (.ok (), e) (.ok (), ⟨.finished, false, e⟩)
          ⟨rfl, rfl, fun _ h => (by cases h), fun _ => ⟨⟨rfl, rfl, .inr hs, .inr hs⟩, rfl⟩⟩ (by simpa using hd)
        exact ⟨fout, by simp [g1], g2⟩

/-- A summing estimator on cells. -/
private def cellSum (cap : Nat) : Hooks (Nat × Nat) (Cells Nat) Nat where
  begin := fun g => (.ok true, g)
  fit := fun items g =>
    let g' := (g.1 + (items.flatMap Cells.toList).sum, g.2 + items.length)
    (.ok (if cap ≤ g'.2 then .complete else .continue), g')
  onDataCompleted := fun g => (.ok true, g)
  complete := fun g => (.ok (), g)
  create := fun g => (.ok (some g.1), g)

/-- The hypotheses are met: three rows, columns 1 and 0, training stops after two rows. -/
example : (∀ s, (cellSum 2).onDataCompleted s = (.ok true, s)) ∧
    ((trainAndCreate (cellSum 2) ([[#v[1, 2, 9], #v[3, 4, 9]], [#v[5, 6, 9]]].flatten.map
      fun row => [toFiltered [1, 0] row]) 10 (Est.new (0, 0))).map fun o => o.1.toOption) = some (some 10) :=
  ⟨fun _ => rfl, by decide⟩

/-- Values for the pipeline below. -/
private def cellXf : Xf Nat (Cells Nat) (Cells Nat) :=
  Xf.ofFun fun t v => .ok (.single (t + v.toList.sum))

/-- A stage summing its cells in component `i`. -/
private def cellStage (i : Nat) : Stage (List Nat) (Cells Nat) Nat where
  isTransformer := true
  hooks :=
    { begin := fun g => (.ok true, g)
      fit := fun items g => (.ok .continue, g.modify i (· + (items.flatMap Cells.toList).sum))
      onDataCompleted := fun g => (.ok true, g)
      complete := fun g => (.ok (), g)
      create := fun g => (.ok (some (g.getD i 0)), g) }

/-- **C17 is false for estimators that need several passes.** A pipeline of two summing stages trained
directly on column 1 sees the data twice; trained through a filter for column 1 its second stage is completed
without having seen any data, because the filter does not report the end of the data to it. -/
theorem C17_several_passes :
    ((trainAndCreate (Pipeline.hooks cellXf) ([#v[1, 2], #v[3, 4]].map fun row => [toFiltered [1] row]) 10
        (Est.new ([cellStage 0, cellStage 1].map Elem.new, [0, 0]))).map fun o => o.1.toOption)
      = some (some [some 6, some 18]) ∧
    ((trainAndCreate (filterHooks (Pipeline.hooks cellXf) [(1 : Fin 2)]) [[#v[1, 2], #v[3, 4]]] 10
        (Est.new (Est.new ([cellStage 0, cellStage 1].map Elem.new, [0, 0])))).map fun o => o.1.toOption)
      = some (some [some 6, some 0]) := by
  decide

end Feat
