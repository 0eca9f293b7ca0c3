import Mathlib.Data.List.Induction
import Verif.Model.ExecuteValue
import Verif.Spec.Filter
import Verif.Props.Pivot
import Verif.Props.Filter
/-
C86: the function `execute` that returns its value.  C87: calls without a callback.  C88: filter decorators.
-/
namespace Feat
variable {T I O A B V C : Type} {n : Nat}

/-! ### C86 -/

/-- `execute(input)` does what `execute(input, callback)` does: the callback gets exactly one value, which is returned, or none and
an exception, which is passed on; the transformer is in the same state afterwards; nothing is lost, whether or not `assert` is enabled. -/
def ReturnsItsValue (P : PXf T I O) : Prop :=
  ∀ checked t x,
    (∃ o t', (P.exec t x).run = ⟨[o], none, t'⟩ ∧ executeValue checked P t x = ⟨.value o, t', []⟩) ∨
    (∃ e t', (P.exec t x).run = ⟨[], some e, t'⟩ ∧ executeValue checked P t x = ⟨.throws e, t', []⟩)

/-- It is enough that there is one value or an exception. -/
theorem returns_of {P : PXf T I O} (h : ∀ t x, (∃ o t', (P.exec t x).run = ⟨[o], none, t'⟩) ∨ ∃ e t', (P.exec t x).run = ⟨[], some e, t'⟩) :
    ReturnsItsValue P := by
  intro checked t x
  rcases h t x with ⟨o, t', h⟩ | ⟨e, t', h⟩
  · exact .inl ⟨o, t', h, by simp [executeValue, h, storeAll]⟩
  · exact .inr ⟨e, t', h, by simp [executeValue, h, storeAll]⟩

/-- **C86** for all transformers without state and with one value per input: scalers, imputers, encoders, vectorizers,
projections, conversions, the date-time featurizer. -/
theorem C86_functions (f : T → I → Except Err O) : ReturnsItsValue (PXf.ofFun f) := by
  refine returns_of fun t x => ?_
  unfold PXf.ofFun
  cases hf : f t x with
  | ok o => exact .inl ⟨o, t, by simp [hf, Prog.run]⟩
  | error e => exact .inr ⟨e, t, by simp [hf, Prog.run]⟩

/-- **C86** for forward fill. -/
theorem C86_forward_fill : ReturnsItsValue (PXf.forwardFill (A := A)) := by
  refine returns_of fun t x => ?_
  cases x with
  | some v => exact .inl ⟨v, _, by simp [PXf.forwardFill, Prog.run]; rfl⟩
  | none =>
    cases h : t.last with
    | none => exact .inr ⟨_, t, by simp [PXf.forwardFill, h, Prog.run]; rfl⟩
    | some v => exact .inl ⟨v, t, by simp [PXf.forwardFill, h, Prog.run]⟩

/-- **C86** for rolling windows, whatever is computed of the windows. -/
theorem C86_rolling (agg : List A → Except Err B) : ReturnsItsValue (PXf.rolling agg) := by
  refine returns_of fun t x => ?_
  show (∃ o t', (Prog.committed (t.exec agg x)).run = _) ∨ ∃ e t', (Prog.committed (t.exec agg x)).run = _
  unfold Rolling.exec
  cases h : Rolling.cells agg { t with buffer := t.buffer.push x } ((List.range t.params.horizon.toNat).map UInt32.ofNat) with
  | error e => exact .inr ⟨e, _, by simp only [h]; rfl⟩
  | ok row => exact .inl ⟨row, _, by simp only [h]; rfl⟩

/-- **C86** for row normalization. -/
theorem C86_normalize (k : FloatNorms.NormInput V) : ReturnsItsValue (PXf.normalize k) := by
  refine returns_of fun t x => ?_
  show (∃ o t', (Prog.committed (FloatNorms.execNormalizer k t x)).run = _) ∨
    ∃ e t', (Prog.committed (FloatNorms.execNormalizer k t x)).run = _
  unfold FloatNorms.execNormalizer
  cases h : t.norms[t.row]? with
  | none => exact .inr ⟨_, _, by rfl⟩
  | some m => exact .inl ⟨_, _, by rfl⟩

theorem storeAll_unchecked (os : List O) : ∀ slot lost, storeAll false os slot lost =
    some ((slot.toList ++ os).getLast?, lost ++ (slot.toList ++ os).dropLast) := by
  induction os with
  | nil => intro slot lost; cases slot <;> simp [storeAll]
  | cons o os ih =>
    intro slot lost
    cases slot with
    | none => simp [storeAll, ih]
    | some old =>
      simp only [storeAll, Bool.false_eq_true, if_false, ih]
      cases os <;> simp

theorem storeAll_checked (o o' : O) (os : List O) (lost : List O) : storeAll true (o :: o' :: os) none lost = none := rfl

theorem emit_run (now : T) (os : List O) (rest : Prog T O) : (Prog.emit now os rest).run =
    ⟨os ++ rest.run.outs, rest.run.err, rest.run.next⟩ := by
  induction os with
  | nil => rfl
  | cons o os ih => simp [Prog.emit, Prog.run, ih]

theorem committed_run (r : Run T O) : (Prog.committed r).run = r := by
  rcases r with ⟨outs, err, next⟩
  unfold Prog.committed
  rw [emit_run]
  cases err <;> simp [Prog.run]

/-- **C86** what happens with any transformer whatsoever, in a release build: the last of the values passed to the callback is
returned, the ones before it are never destroyed; without a value the result is undefined; when the transformer throws, all the
values are never destroyed. -/
theorem C86_any (P : PXf T I O) (t : T) (x : I) :
    (∀ e, (P.exec t x).run.err = some e →
      executeValue false P t x = ⟨.throws e, (P.exec t x).run.next, (P.exec t x).run.outs⟩) ∧
    ((P.exec t x).run.err = none → (P.exec t x).run.outs = [] → executeValue false P t x = ⟨.undefined, (P.exec t x).run.next, []⟩) ∧
    (∀ os o, (P.exec t x).run.err = none → (P.exec t x).run.outs = os ++ [o] →
      executeValue false P t x = ⟨.value o, (P.exec t x).run.next, os⟩) := by
  refine ⟨?_, ?_, ?_⟩
  · intro e h
    unfold executeValue
    rw [storeAll_unchecked, h]
    simp only [Option.toList, List.nil_append]
    congr 1
    cases hl : (P.exec t x).run.outs using List.reverseRecOn with
    | nil => rfl
    | append_singleton l a => simp
  · intro h h'
    unfold executeValue
    rw [storeAll_unchecked, h, h']
    rfl
  · intro os o h h'
    unfold executeValue
    rw [storeAll_unchecked, h, h']
    simp

/-- **C86** what happens with the forecasting pivot, which is such a transformer as well, but yields a row for each column without
null.  If there is exactly one, that row is returned.  Without `assert`: if there is none, memory is read that was never written; if there
are several, the last one is returned and the others are lost.  With `assert` the program stops in both cases. -/
theorem C86_pivot (ms : List (PivotMatrix A)) (cols : Nat) (hne : ms ≠ []) (hm : ∀ m ∈ ms, m.cols = cols) :
    (∀ checked row, pivotSpec ms cols = [row] → executeValue checked PXf.pivot () ms = ⟨.value row, (), []⟩) ∧
    (pivotSpec ms cols = [] → executeValue false PXf.pivot () ms = ⟨.undefined, (), []⟩) ∧
    (∀ rows last, rows ≠ [] → pivotSpec ms cols = rows ++ [last] → executeValue false PXf.pivot () ms = ⟨.value last, (), rows⟩) ∧
    ((pivotSpec ms cols).length ≠ 1 → (executeValue true PXf.pivot () ms).outcome = .aborts) := by
  obtain ⟨h1, h2⟩ := (C40_pivot_partial ms).2 cols hne hm
  have hr : (PXf.pivot.exec () ms).run = ⟨pivotSpec ms cols, none, ()⟩ := by
    show (Prog.committed (pivotExec ms)).run = _
    rw [committed_run]
    have e : pivotExec ms = ⟨(pivotXf.exec () ms).outs, (pivotXf.exec () ms).err, ()⟩ := rfl
    rw [e, h1, h2]
  refine ⟨fun checked row h => ?_, fun h => ?_, fun rows last hrows h => ?_, fun h => ?_⟩
  · simp [executeValue, hr, h, storeAll]
  · simp [executeValue, hr, h, storeAll]
  · simp [executeValue, hr, h, storeAll_unchecked]
  · unfold executeValue
    rw [hr]
    cases hp : pivotSpec ms cols with
    | nil => rfl
    | cons r l =>
      cases l with
      | nil => rw [hp] at h; exact absurd rfl h
      | cons r' l => rfl

/-- **C86 is false for the forecasting pivot**: a matrix with two complete columns. -/
theorem C86_pivot_refuted : ¬ ReturnsItsValue (PXf.pivot (A := Int)) := by
  intro h
  have := (C86_pivot (A := Int) [⟨2, [[some 1, some 2]], by simp⟩] 2 (by simp) (by simp)).2.2.1 [[1]] [2] (by simp) (by decide +kernel)
  rcases h false () [⟨2, [[some 1, some 2]], by simp⟩] with ⟨o, t', -, h2⟩ | ⟨e, t', -, h2⟩
  · rw [this] at h2
    injection h2 with _ _ h3
    cases h3
  · rw [this] at h2
    injection h2 with h3
    cases h3

/-! ### C87 -/

/-- The calls with a callback. -/
def PublicCall.hasCallback : PublicCall I O → Bool
  | .execute _ cb => cb.isSome
  | .flush cb => cb.isSome

/-- **C87** Whatever calls are made on a transformer: each call without a callback is refused with `invalid_argument` and passes no
value; and the other calls pass the same values, end in the same way and leave the same states as if the refused calls had not been
made. -/
theorem C87_no_callback (P : PXf T I O) (t : T) (calls : List (PublicCall I O)) :
    (P.history t calls).1.length = calls.length ∧
    (∀ i (hi : i < calls.length) (hi' : i < (P.history t calls).1.length), (calls[i]).hasCallback = false →
      ((P.history t calls).1[i]).values = [] ∧ ((P.history t calls).1[i]).ending = .failed .invalidArgument) ∧
    (P.history t (calls.filter (·.hasCallback))).1 =
      (((P.history t calls).1.zip calls).filter (·.2.hasCallback)).map (·.1) ∧
    (P.history t (calls.filter (·.hasCallback))).2 = (P.history t calls).2 := by
  induction calls generalizing t with
  | nil => exact ⟨rfl, by simp, rfl, rfl⟩
  | cons c calls ih =>
    obtain ⟨h1, h2, h3, h4⟩ := ih (P.public t c).state
    have hn : c.hasCallback = false → P.public t c = ⟨[], .failed .invalidArgument, t⟩ := by
      intro h
      cases c with
      | execute x cb =>
        cases cb with
        | none => rfl
        | some cb => cases h
      | flush cb =>
        cases cb with
        | none => rfl
        | some cb => cases h
    have e : P.history t (c :: calls) = (P.public t c :: (P.history (P.public t c).state calls).1, (P.history (P.public t c).state calls).2) := rfl
    rw [e]
    refine ⟨by simp [h1], ?_, ?_, ?_⟩
    · intro i hi hi' hc
      cases i with
      | zero =>
        simp only [List.getElem_cons_zero] at hc ⊢
        rw [hn hc]
        exact ⟨rfl, rfl⟩
      | succ i =>
        simp only [List.getElem_cons_succ] at hc ⊢
        exact h2 i (by simpa using hi) (by simpa using hi') hc
    · cases hc : c.hasCallback with
      | true =>
        simp only [List.filter_cons, hc, if_true, List.zip_cons_cons, List.map_cons]
        have e' : P.history t (c :: calls.filter (·.hasCallback)) = (P.public t c :: (P.history (P.public t c).state (calls.filter (·.hasCallback))).1,
          (P.history (P.public t c).state (calls.filter (·.hasCallback))).2) := rfl
        rw [e', h3]
      | false =>
        rw [hn hc] at h3 ⊢
        simp only [List.filter_cons, hc, Bool.false_eq_true, if_false, List.zip_cons_cons]
        exact h3
    · cases hc : c.hasCallback with
      | true =>
        simp only [List.filter_cons, hc, if_true]
        exact h4
      | false =>
        rw [hn hc] at h4 ⊢
        simp only [List.filter_cons, hc, Bool.false_eq_true, if_false]
        exact h4

/-! ### C88 -/

theorem toFiltered_toList (idxs : List (Fin n)) (row : Vector C n) : (toFiltered idxs row).toList = idxs.map fun i => row[i] := by
  unfold toFiltered
  split <;> rfl

theorem toFiltered_selects (idxs : List (Fin n)) (row : Vector C n) : Selects idxs row (toFiltered idxs row) := by
  refine ⟨?_, ?_⟩
  · rw [toFiltered_toList]
    apply List.map_congr_left
    intro i _
    rw [List.getD_eq_getElem?_getD, List.getElem?_eq_getElem (by simp)]
    simp
  · unfold toFiltered
    split
    · exact ⟨fun _ => rfl, fun _ => ⟨_, rfl⟩⟩
    · rename_i h
      constructor
      · rintro ⟨c, hc⟩; cases hc
      · intro hl
        obtain ⟨a, rfl⟩ := List.length_eq_one_iff.1 hl
        exact absurd rfl (h a)

/-- **C88** A filter decorator yields for each row exactly the selected columns, in the selected order, and nothing on flush; it never
throws. -/
theorem C88_rows (idxs : List (Fin n)) (rows : List (Vector C n)) :
    ∃ outs, ((PXf.decorator idxs).xf.runAll () rows) = ⟨outs, none, ()⟩ ∧ outs.length = rows.length ∧
      ∀ i (hi : i < rows.length) (ho : i < outs.length), Selects idxs rows[i] outs[i] := by
  have hx : ∀ rows : List (Vector C n), (PXf.decorator idxs).xf.execAll () rows = ⟨rows.map (toFiltered idxs), none, ()⟩ := by
    intro rows
    induction rows with
    | nil => rfl
    | cons row rows ih =>
      unfold Xf.execAll
      have e : (PXf.decorator idxs).xf.exec () row = ⟨[toFiltered idxs row], none, ()⟩ := rfl
      rw [e]
      simp only [ih]
      rfl
  refine ⟨rows.map (toFiltered idxs), ?_, by simp, fun i hi ho => ?_⟩
  · unfold Xf.runAll
    rw [hx]
    show (⟨_ ++ [], none, ()⟩ : Run Unit (Cells C)) = _
    rw [List.append_nil]
  · rw [List.getElem_map]
    exact toFiltered_selects idxs _

/-- **C88** After a column filter: a decorator for the old columns gives back the row, one for the new columns gives what the wrapped
transformer produced for it. -/
theorem C88_after_filter (row : Vector C n) (value : Cells C) (m : Nat) (hm : value.toList.length = m) (out : Vector C (n + m))
    (h : out.toList = toTransformed row value) :
    (toFiltered (List.ofFn fun i : Fin n => i.castAdd m) out).toList = row.toList ∧
    (toFiltered (List.ofFn fun i : Fin m => i.natAdd n) out).toList = value.toList := by
  have ht : toTransformed row value = row.toList ++ value.toList := by cases value <;> rfl
  rw [ht] at h
  have hg : ∀ i (hi : i < n + m), out[i] = (row.toList ++ value.toList)[i]'(by simp [hm, hi]) := by
    intro i hi
    simp only [← h]
    simp
  constructor
  · rw [toFiltered_toList]
    apply List.ext_getElem
    · simp
    · intro i h1 h2
      simp only [List.getElem_map, List.getElem_ofFn]
      have hi : i < n := by simpa using h2
      have := hg i (by omega)
      rw [List.getElem_append_left (by simpa using hi)] at this
      exact this
  · rw [toFiltered_toList]
    apply List.ext_getElem
    · simp [hm]
    · intro i h1 h2
      simp only [List.getElem_map, List.getElem_ofFn]
      have hi : i < m := by omega
      have := hg (n + i) (by omega)
      rw [List.getElem_append_right (by simp)] at this
      simp only [Vector.length_toList, Nat.add_sub_cancel_left] at this
      exact this

/-! ### Examples -/

/-- Values, an exception, and a null callback. -/
example : executeValue false (PXf.forwardFill (A := Nat)) ⟨none, none⟩ (some 3) = ⟨.value 3, ⟨none, some 3⟩, []⟩ ∧
    executeValue true (PXf.forwardFill (A := Nat)) ⟨none, none⟩ none = ⟨.throws .runtimeError, ⟨none, none⟩, []⟩ := ⟨rfl, rfl⟩

/-- A transformer that passes two values and then throws: both are lost. -/
example : executeValue false (⟨fun t _ => .emit t [1, 2] (.fail .runtimeError t), fun t => .ret t⟩ : PXf Unit Nat Nat) () 0 =
    ⟨.throws .runtimeError, (), [1, 2]⟩ := rfl

/-- A matrix with one complete column, one with none, one with three: two rows are lost. -/
example :
    executeValue false (PXf.pivot (A := Int)) () [⟨2, [[some 1, none], [some 2, some 3]], by simp⟩] = ⟨.value [1, 2], (), []⟩ ∧
    executeValue false (PXf.pivot (A := Int)) () [⟨1, [[none]], by simp⟩] = ⟨.undefined, (), []⟩ ∧
    executeValue false (PXf.pivot (A := Int)) () [⟨3, [[some 1, some 2, some 3]], by simp⟩] = ⟨.value [3], (), [[1], [2]]⟩ :=
  ⟨rfl, rfl, rfl⟩

/-- Forward fill: the refused calls change nothing. -/
example : ((PXf.forwardFill (A := Nat)).history ⟨none, none⟩
      [.execute (some 3) none, .execute (some 4) (some fun _ _ => none), .flush none, .execute none (some fun _ _ => none)]).1.map
      (fun s => (s.values, s.ending)) =
    [([], .failed .invalidArgument), ([4], .returned), ([], .failed .invalidArgument), ([4], .returned)] := rfl

/-- Three columns of four, in another order. -/
example : ((PXf.decorator [2, 0, 3]).xf.runAll () [#v[1, 2, 3, 4], #v[5, 6, 7, (8 : Nat)]]).outs = [.tuple [3, 1, 4], .tuple [7, 5, 8]] := by
  decide +kernel

/-- A row and what was appended to it. -/
example : (#v[1, 2, 9] : Vector Nat (2 + 1)).toList = toTransformed #v[1, 2] (.single 9) := rfl

end Feat
