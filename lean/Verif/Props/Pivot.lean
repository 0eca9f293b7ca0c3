import Verif.Model.Pivot
/-
C40: the forecasting pivot.
-/
namespace Feat
variable {A : Type}

/-! ### Specification -/

/-- The cells of a column, matrix after matrix, row after row. -/
def pivotColumn (ms : List (PivotMatrix A)) (c : Nat) : List (Option A) :=
  (ms.flatMap (·.rows)).map fun r => r.getD c none

/-- The rows of the pivot: the columns without nulls, in order. -/
def pivotSpec (ms : List (PivotMatrix A)) (cols : Nat) : List (List A) :=
  (((List.range cols).map (pivotColumn ms)).filter fun col => col.all Option.isSome).map fun col => col.filterMap id

/-! ### Proofs -/

private theorem rows_spec (c : Nat) (rows : List (List (Option A))) (hr : ∀ r ∈ rows, c < r.length) (ret : List A) :
    pivotRows c rows ret = .ok (if (rows.map fun r => r.getD c none).all Option.isSome
      then some (ret ++ (rows.map fun r => r.getD c none).filterMap id) else none) := by
  induction rows generalizing ret with
  | nil => simp [pivotRows]
  | cons r rs ih =>
    have hc : c < r.length := hr r (by simp)
    have hg : r[c]? = some r[c] := List.getElem?_eq_getElem hc
    have hd : r.getD c none = r[c] := by rw [List.getD_eq_getElem?_getD, hg]; rfl
    unfold pivotRows
    rw [hg]
    rcases hx : r[c] with _ | a
    · simp only [List.map_cons, hd, hx]
      simp
    · simp only [List.map_cons, hd, hx]
      rw [ih (fun r hm => hr r (by simp [hm]))]
      simp

private theorem column_cons (m : PivotMatrix A) (ms : List (PivotMatrix A)) (c : Nat) :
    pivotColumn (m :: ms) c = (m.rows.map fun r => r.getD c none) ++ pivotColumn ms c := by
  simp [pivotColumn]

private theorem matrices_spec (cols c : Nat) (hc : c < cols) (ms : List (PivotMatrix A)) (rest : List (PivotMatrix A))
    (hm : ∀ m ∈ ms, m.cols = cols) (ret : List A) :
    pivotMatrices cols c (ms ++ rest) ret = if (pivotColumn ms c).all Option.isSome
      then pivotMatrices cols c rest (ret ++ (pivotColumn ms c).filterMap id) else .ok none := by
  induction ms generalizing ret with
  | nil => simp [pivotColumn]
  | cons m ms ih =>
    have h1 := hm m (by simp)
    simp only [List.cons_append, pivotMatrices, h1, ne_eq, not_true_eq_false, if_false]
    rw [rows_spec c m.rows (fun r hr => by rw [m.rect r hr, h1]; exact hc), column_cons]
    by_cases ha : (m.rows.map fun r => r.getD c none).all Option.isSome
    · rw [if_pos ha]
      simp only [ih (fun m hm' => hm m (by simp [hm'])), List.all_append, ha, Bool.true_and, List.filterMap_append,
        List.append_assoc]
    · rw [if_neg ha]
      have : (m.rows.map fun r => r.getD c none).all Option.isSome = false := by simpa using ha
      simp only [List.all_append, this, Bool.false_and, Bool.false_eq_true, if_false]

/-- **C40 (partial: equal numbers of columns).**  For any non-empty list of matrices with the same number of columns, the
pivot emits, in column order, one row per column without nulls, holding its cells in matrix and row order, and throws
nothing.  Empty input throws.  (Missing: "differing column counts throw", see `C40_mismatch` and
`C40_mismatch_accepted`.) -/
theorem C40_pivot_partial (ms : List (PivotMatrix A)) :
    (ms = [] → (pivotXf.exec () ms).outs = [] ∧ (pivotXf.exec () ms).err = some .invalidArgument) ∧
    ∀ cols, ms ≠ [] → (∀ m ∈ ms, m.cols = cols) →
      (pivotXf.exec () ms).err = none ∧ (pivotXf.exec () ms).outs = pivotSpec ms cols := by
  constructor
  · rintro rfl
    exact ⟨rfl, rfl⟩
  · intro cols hne hm
    obtain ⟨m, ms', rfl⟩ := List.exists_cons_of_ne_nil hne
    have h0 : m.cols = cols := hm m (by simp)
    have hcols : ∀ cs : List Nat, (∀ c ∈ cs, c < cols) → pivotColumns (m :: ms') cols cs
        = ⟨((cs.map (pivotColumn (m :: ms'))).filter fun col => col.all Option.isSome).map fun col => col.filterMap id,
          none, ()⟩ := by
      intro cs
      induction cs with
      | nil => intro _; rfl
      | cons c cs ih =>
        intro hc
        have hs := matrices_spec cols c (hc c (by simp)) (m :: ms') [] hm []
        rw [List.append_nil] at hs
        have ih' := ih (fun c hcm => hc c (by simp [hcm]))
        unfold pivotColumns
        rw [hs]
        by_cases ha : (pivotColumn (m :: ms') c).all Option.isSome
        · rw [if_pos ha]
          simp only [pivotMatrices, ih', List.nil_append, List.map_cons]
          rw [List.filter_cons_of_pos (p := fun col => List.all col Option.isSome) ha]
          rfl
        · rw [if_neg ha]
          simp only [ih', List.map_cons]
          rw [List.filter_cons_of_neg (p := fun col => List.all col Option.isSome) ha]
    have he : pivotXf.exec () (m :: ms') = pivotColumns (m :: ms') cols (List.range cols) := by
      show pivotColumns (m :: ms') m.cols (List.range m.cols) = _
      rw [h0]
    rw [he, hcols _ (fun c hc => List.mem_range.1 hc)]
    exact ⟨rfl, rfl⟩

/-- **C40 (differing numbers of columns).**  Let the matrices up to `bad` have `cols` columns and `bad` another number.
Nothing is emitted; and `invalid_argument` is thrown exactly if some column has no null in the matrices before `bad`. -/
theorem C40_mismatch (pre : List (PivotMatrix A)) (bad : PivotMatrix A) (rest : List (PivotMatrix A)) (cols : Nat)
    (hne : pre ≠ []) (hpre : ∀ m ∈ pre, m.cols = cols) (hbad : bad.cols ≠ cols) :
    (pivotXf.exec () (pre ++ bad :: rest)).outs = [] ∧
    (pivotXf.exec () (pre ++ bad :: rest)).err
      = if ∃ c < cols, (pivotColumn pre c).all Option.isSome then some .invalidArgument else none := by
  obtain ⟨m, pre', rfl⟩ := List.exists_cons_of_ne_nil hne
  have h0 : m.cols = cols := hpre m (by simp)
  have hcols : ∀ cs : List Nat, (∀ c ∈ cs, c < cols) → pivotColumns (m :: pre' ++ bad :: rest) cols cs
      = ⟨[], if ∃ c ∈ cs, (pivotColumn (m :: pre') c).all Option.isSome then some .invalidArgument else none, ()⟩ := by
    intro cs
    induction cs with
    | nil => intro _; simp [pivotColumns]
    | cons c cs ih =>
      intro hc
      have hs := matrices_spec cols c (hc c (by simp)) (m :: pre') (bad :: rest) hpre []
      have ih' := ih (fun c hcm => hc c (by simp [hcm]))
      unfold pivotColumns
      rw [hs]
      by_cases ha : (pivotColumn (m :: pre') c).all Option.isSome
      · rw [if_pos ha, if_pos ⟨c, by simp, ha⟩]
        simp only [pivotMatrices, hbad, ne_eq, not_false_eq_true, if_true]
      · rw [if_neg ha]
        simp only [ih']
        congr 1
        have : (∃ c' ∈ c :: cs, ((pivotColumn (m :: pre') c').all Option.isSome = true))
            ↔ ∃ c' ∈ cs, ((pivotColumn (m :: pre') c').all Option.isSome = true) := by
          constructor
          · rintro ⟨c', h1, h2⟩
            rcases List.mem_cons.1 h1 with rfl | h1
            · exact absurd h2 ha
            · exact ⟨c', h1, h2⟩
          · rintro ⟨c', h1, h2⟩
            exact ⟨c', by simp [h1], h2⟩
        simp only [this]
  have he : pivotXf.exec () (m :: pre' ++ bad :: rest)
      = pivotColumns (m :: pre' ++ bad :: rest) cols (List.range cols) := by
    show pivotColumns (m :: pre' ++ bad :: rest) m.cols (List.range m.cols) = _
    rw [h0]
  rw [he, hcols _ (fun c hc => List.mem_range.1 hc)]
  refine ⟨rfl, ?_⟩
  simp only [List.mem_range]

/-- **C40: differing numbers of columns are not always rejected.** -/
theorem C40_mismatch_accepted :
    ∃ a b : PivotMatrix Int, a.cols ≠ b.cols ∧ (pivotXf.exec () [a, b]).err = none :=
  ⟨⟨1, [[none]], by simp⟩, ⟨2, [[some 1, some 2]], by simp⟩, by decide, rfl⟩

/-! Non-vacuity. -/

example : (pivotXf.exec () [⟨3, [[some 1, none, some 3], [some 4, some 5, some 6]], by simp⟩,
      ⟨3, [[some 7, some 8, some 9]], by simp⟩]).outs = [[1, 4, 7], [3, 6, (9 : Int)]] := by decide +kernel

example : pivotSpec [⟨3, [[some 1, none, some 3], [some 4, some 5, some 6]], by simp⟩,
      ⟨3, [[some 7, some 8, some 9]], by simp⟩] 3 = [[1, 4, 7], [3, 6, (9 : Int)]] := by decide +kernel

end Feat
